/-!
# Model of `lib/std/core/string.c3`: slices, searching, trimming, splitting, joining

A string is the list of its bytes; the functions of this file work for any kind of element.  `none` stands for what safe mode
answers with a panic: an index or a slice outside of the string.  A search that may fail returns `some none` for
`NOT_FOUND`.
-/

set_option autoImplicit false

namespace C3.Str

variable {α : Type} [DecidableEq α]

/-- `s[a ..]`; the checks are those of `llvm_emit_slice_values`, llvm_codegen_expr.c 2566–2720. -/
def sliceFrom (s : List α) (a : Nat) : Option (List α) := if a > s.length then none else some (s.drop a)

/-- `s[a : n]`. -/
def sliceLen (s : List α) (a n : Nat) : Option (List α) :=
  if a > s.length then none else if s.length < a + n then none else some ((s.drop a).take n)

/-- `s[a .. b]`: the last index included; a range of no elements is "Negative size" and panics. -/
def sliceTo (s : List α) (a b : Nat) : Option (List α) :=
  if a > s.length then none
  else if a > b then none
  else if s.length ≤ b then none
  else some ((s.drop a).take (b - a + 1))

/-- `s[.. ^n]`: up to the n-th element from the end, included.  Behind `n > s.len` the subtraction wraps, which the check
of the end refuses. -/
def sliceBack (s : List α) (n : Nat) : Option (List α) := if n > s.length then none else sliceTo s 0 (s.length - n)

/-- `s[^n ..]`. -/
def sliceLast (s : List α) (n : Nat) : Option (List α) := if n > s.length then none else sliceFrom s (s.length - n)

/-- `char_in_set`, string.c3 89–93. -/
def char_in_set (c : α) : List α → Bool
  | [] => false
  | ch :: set => if ch = c then true else char_in_set c set

/-- The loop of `trim_left`, string.c3 145. -/
def trimLeftLoop (self set : List α) (start : Nat) : Nat :=
  if h : start < self.length then
    if char_in_set (self[start]) set then trimLeftLoop self set (start + 1) else start
  else start
termination_by self.length - start

/-- `String.trim_left`, string.c3 141–148. -/
def trim_left (self set : List α) : Option (List α) :=
  let start := trimLeftLoop self set 0
  if start = self.length then sliceLen self 0 0 else sliceFrom self start

/-- The loop of `trim_right`, string.c3 161. -/
def trimRightLoop (self set : List α) : Nat → Option Nat
  | 0 => some 0
  | len + 1 =>
    match self[len]? with
    | none => none
    | some c => if char_in_set c set then trimRightLoop self set len else some (len + 1)

/-- `String.trim_right`, string.c3 158–163. -/
def trim_right (self set : List α) : Option (List α) := (trimRightLoop self set self.length).bind (sliceLen self 0)

/-- `String.trim`, string.c3 128–131. -/
def trim (self set : List α) : Option (List α) := (trim_left self set).bind fun s => trim_right s set

/-- `String.starts_with`, string.c3 173–178. -/
def starts_with (self pre : List α) : Option Bool :=
  if pre.length > self.length then some false
  else if pre.length = 0 then some true
  else (sliceLen self 0 pre.length).map (· == pre)

/-- `String.ends_with`, string.c3 188–193. -/
def ends_with (self suf : List α) : Option Bool :=
  if suf.length > self.length then some false
  else if suf.length = 0 then some true
  else (sliceLast self suf.length).map (· == suf)

/-- `String.strip`, string.c3 203–207. -/
def strip (self pre : List α) : Option (List α) :=
  if pre.length = 0 then some self
  else
    match starts_with self pre with
    | none => none
    | some false => some self
    | some true => sliceFrom self pre.length

/-- `String.strip_end`, string.c3 217–222. -/
def strip_end (self suf : List α) : Option (List α) :=
  if suf.length = 0 then some self
  else
    match ends_with self suf with
    | none => none
    | some false => some self
    | some true => sliceLen self 0 (self.length - suf.length)

/-- `String.index_of_char`, string.c3 351–358. -/
def index_of_char : List α → α → Option Nat
  | [], _ => none
  | c :: s, character => if c = character then some 0 else (index_of_char s character).map (· + 1)

/-- The loop of `index_of_char_from`, string.c3 398–401. -/
def indexFromLoop (self : List α) (character : α) (i : Nat) : Option Nat :=
  if h : i < self.length then
    if self[i] = character then some i else indexFromLoop self character (i + 1)
  else none
termination_by self.length - i

/-- `String.index_of_char_from`, string.c3 394–403. -/
def index_of_char_from (self : List α) (character : α) (start : Nat) : Option Nat :=
  if self.length ≤ start then none else indexFromLoop self character start

/-- `String.index_of_chars`, string.c3 370–381. -/
def index_of_chars : List α → List α → Option Nat
  | [], _ => none
  | c :: s, characters => if char_in_set c characters then some 0 else (index_of_chars s characters).map (· + 1)

/-- The loop of `rindex_of_char`, string.c3 417–420, from the index below `n` on downwards. -/
def rindexLoop (self : List α) (character : α) : Nat → Option Nat
  | 0 => none
  | i + 1 => if self[i]? = some character then some i else rindexLoop self character i

/-- `String.rindex_of_char`, string.c3 415–422. -/
def rindex_of_char (self : List α) (character : α) : Option Nat := rindexLoop self character self.length

/-- The test in the loops of `index_of` and `rindex_of`, string.c3 443 and 468. -/
def found (self substr : List α) (first : α) (i : Nat) (c : α) : Option Bool :=
  if c = first then (sliceLen self i substr.length).map (· == substr) else some false

/-- The loop of `index_of`, string.c3 441–444, over `view = self[..^needed]`. -/
def indexOfLoop (self substr : List α) (first : α) (i : Nat) : List α → Option (Option Nat)
  | [] => some none
  | c :: view =>
    match found self substr first i c with
    | none => none
    | some true => some (some i)
    | some false => indexOfLoop self substr first (i + 1) view

/-- `String.index_of`, string.c3 435–447. -/
def index_of (self substr : List α) : Option (Option Nat) :=
  match substr with
  | [] => some none
  | first :: _ =>
    if self.length ≥ substr.length then
      match sliceBack self substr.length with
      | none => none
      | some view => indexOfLoop self substr first 0 view
    else some none

/-- The loop of `rindex_of`, string.c3 466–469: the indices below `n` of `view`, downwards. -/
def rindexOfLoop (self substr : List α) (first : α) (view : List α) : Nat → Option (Option Nat)
  | 0 => some none
  | i + 1 =>
    match view[i]? with
    | none => none
    | some c =>
      match found self substr first i c with
      | none => none
      | some true => some (some i)
      | some false => rindexOfLoop self substr first view i

/-- `String.rindex_of`, string.c3 460–472. -/
def rindex_of (self substr : List α) : Option (Option Nat) :=
  match substr with
  | [] => some none
  | first :: _ =>
    if self.length ≥ substr.length then
      match sliceBack self substr.length with
      | none => none
      | some view => rindexOfLoop self substr first view view.length
    else some none

/-- `String.contains`, string.c3 336–339. -/
def contains (self substr : List α) : Option Bool := (index_of self substr).map Option.isSome

/-- `usz` arithmetic. -/
def usz (n : Int) : Nat := (n % 2 ^ 64).toNat

/-- The loop of `split`, string.c3 242–267.  `holder` is what has been stored, `capacity` its room; `i` is the number of
strings stored.  A store behind the capacity is `none`, and so is a loop that does not end. -/
def splitLoop (delimiter : List α) (max : Nat) (skip_empty : Bool) (self : List α) (capacity : Nat)
    (holder : List (List α)) : Option (List (List α)) :=
  match (if holder.length = usz (max - 1) then some none else index_of self delimiter) with
  | none => none
  | some index =>
    match (match index with
      | some index =>
        match sliceLen self 0 index, sliceFrom self (index + delimiter.length) with
        | some res, some rest => some (res, some rest)
        | _, _ => none
      | none => some (self, none)) with
    | none => none
    | some (res, next) =>
      if res.length = 0 && skip_empty then
        match next with
        | some rest => splitLoop delimiter max skip_empty rest capacity holder
        | none => some holder
      else
        let capacity := if holder.length = capacity then capacity * 2 else capacity
        if holder.length < capacity then
          match next with
          | some rest => splitLoop delimiter max skip_empty rest capacity (holder ++ [res])
          | none => some (holder ++ [res])
        else none
partial_fixpoint

/-- `String.split`, string.c3 236–269, after its contract. -/
def split (self delimiter : List α) (max : Nat) (skip_empty : Bool) : Option (List (List α)) :=
  splitLoop delimiter max skip_empty self 16 []

/-- `join`, string.c3 95–118. -/
def join : List (List α) → List α → List α
  | [], _ => []
  | s :: ss, joiner => ss.foldl (fun res str => res ++ joiner ++ str) s

/-- `Splitter.next`, string.c3 811–829: the new `current` and what is returned, `none` for `NO_MORE_ELEMENT`. -/
def next (string splitBy : List α) (tokenize : Bool) (current : Nat) : Option (Nat × Option (List α)) :=
  if current ≥ string.length then some (current, none)
  else
    match sliceFrom string current with
    | none => none
    | some remaining =>
      match index_of remaining splitBy with
      | none => none
      | some (some n) =>
        if n = 0 && tokenize then next string splitBy tokenize (current + n + splitBy.length)
        else
          match sliceLen remaining 0 n with
          | none => none
          | some r => some (current + n + splitBy.length, some r)
      | some none => some (string.length, some remaining)
partial_fixpoint

/-- A loop over a `Splitter` from its reset on: all that `next` returns. -/
def collect (string splitBy : List α) (tokenize : Bool) (current : Nat) : Option (List (List α)) :=
  match next string splitBy tokenize current with
  | none => none
  | some (_, none) => some []
  | some (current, some r) => do
    let rs ← collect string splitBy tokenize current
    some (r :: rs)
partial_fixpoint

end C3.Str
