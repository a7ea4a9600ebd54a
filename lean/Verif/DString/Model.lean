/-! # The string builder `DString`, lib/std/core/dstring.c3

Lengths are natural numbers: that they do not wrap at 2^64 is left out. An allocation never fails. A result `none` is a read
or write outside of an allocation, through a null pointer or of memory given back, or an index out of bounds. Not modelled:
`append_utf32`, `append_char32`, the insertion of `Char32`, `appendf`, and the pool around the loop of `replace` (line 85), which a
string of the temp allocator grows in. -/

set_option autoImplicit false

namespace C3.DString

abbrev Byte := BitVec 8

/-- `StringData`, lines 664–670. `buf` is `chars` up to `capacity`; `owner` is the allocator. -/
structure Data where
  owner : Nat
  len : Nat
  buf : List Byte
  deriving DecidableEq, Repr

/-- A `DString` is a pointer to the data or null, lines 7–8. -/
abbrev Str := Option Data

/-- The temp allocator. -/
def tmem : Nat := 0

/-- `str_view`, lines 164–169. -/
def view : Str → List Byte
  | none => []
  | some d => d.buf.take d.len

/-- `len`, lines 149–153. -/
def len : Str → Nat
  | none => 0
  | some d => d.len

/-- The write of a list at an index, by `mem::copy`, `mem::move` or an assignment of slices. -/
def put (buf : List Byte) (i : Nat) (l : List Byte) : Option (List Byte) :=
  if i + l.length ≤ buf.length then some (buf.take i ++ (l ++ buf.drop (i + l.length))) else none

/-- The read of `n` bytes at an index. -/
def slice (buf : List Byte) (i n : Nat) : Option (List Byte) :=
  if i + n ≤ buf.length then some ((buf.drop i).take n) else none

/-- What fresh memory holds is not known; `junk` is any byte. `init`, lines 20–28, and `new_with_capacity`, 43–46. -/
def withCapacity (junk : Byte) (owner capacity : Nat) : Data :=
  ⟨owner, 0, List.replicate (if capacity < 16 then 16 else capacity) junk⟩

/-- `new`, lines 50–60. -/
def new (junk : Byte) (owner : Nat) (c : List Byte) : Option Data :=
  let d := withCapacity junk owner c.length
  if c.length = 0 then some d
  else
    match put d.buf 0 c with
    | none => none
    | some b => some ⟨d.owner, c.length, b⟩

/-- `while (new_capacity < len) new_capacity *= 2`, line 629; `n` bounds the rounds. -/
def grow : Nat → Nat → Nat → Nat
  | 0, c, _ => c
  | n + 1, c, len => if c < len then grow n (c * 2) len else c

/-- `reserve`, lines 617–632. -/
def reserve (junk : Byte) (s : Str) (addition : Nat) : Data :=
  match s with
  | none => withCapacity junk tmem addition
  | some d =>
    let len := d.len + addition
    if d.buf.length ≥ len then d
    else
      let c := d.buf.length * 2
      let c := if c < 16 then 16 else c
      let c := grow len c len
      { d with buf := d.buf ++ List.replicate (c - d.buf.length) junk }

/-- `append_chars`, lines 308–321; `str` is not part of the string itself. -/
def appendChars (junk : Byte) (s : Str) (str : List Byte) : Option Str :=
  if str.length = 0 then some s
  else
    match s with
    | none => (new junk tmem str).map some
    | some _ =>
      let d := reserve junk s str.length
      match put d.buf d.len str with
      | none => none
      | some b => some (some { d with buf := b, len := d.len + str.length })

/-- `append_char`, lines 352–361. -/
def appendChar (junk : Byte) (s : Str) (c : Byte) : Option Str :=
  let s := match s with
    | none => some (withCapacity junk tmem 16)
    | some d => some d
  let d := reserve junk s 1
  match put d.buf d.len [c] with
  | none => none
  | some b => some (some { d with buf := b, len := d.len + 1 })

/-- The loop of `append_repeat`, lines 213–216. -/
def repeatLoop (c : Byte) : Nat → Data → Option Data
  | 0, d => some d
  | n + 1, d =>
    match put d.buf d.len [c] with
    | none => none
    | some b => repeatLoop c n { d with buf := b, len := d.len + 1 }

/-- `append_repeat`, lines 208–217. -/
def appendRepeat (junk : Byte) (s : Str) (c : Byte) (times : Nat) : Option Str :=
  if times = 0 then some s else (repeatLoop c times (reserve junk s times)).map some

/-- `clear`, lines 335–339. -/
def clear : Str → Str
  | none => none
  | some d => some { d with len := 0 }

/-- `chop`, lines 158–162. The contract `new_size <= len` is for the caller to keep. -/
def chop (s : Str) (n : Nat) : Str :=
  match s with
  | none => none
  | some d => some { d with len := n }

/-- `delete`, lines 377–393. -/
def delete (s : Str) (start len : Nat) : Option Str :=
  if len = 0 then some s
  else
    match s with
    | none => none
    | some d =>
      if d.len - len = 0 then some (some { d with len := 0 })
      else
        let after := d.len - start - len
        if after > 0 then
          match slice d.buf (start + len) after with
          | none => none
          | some l =>
            match put d.buf start l with
            | none => none
            | some b => some (some { d with buf := b, len := d.len - len })
        else some (some { d with len := d.len - len })

/-- `delete_range`, lines 368–371. -/
def deleteRange (s : Str) (start stop : Nat) : Option Str := delete s start (stop - start + 1)

/-- `insert_char_at`, lines 468–477. -/
def insertChar (junk : Byte) (s : Str) (index : Nat) (c : Byte) : Option Str := do
  let d := reserve junk s 1
  let l ← slice d.buf index (d.len - index)
  let b ← put d.buf (index + 1) l
  let b ← put b index [c]
  some (some { d with buf := b, len := d.len + 1 })

/-- `insert_chars_at`, lines 423–453, if `str` is not part of the string itself. -/
def insertChars (junk : Byte) (s : Str) (index : Nat) (str : List Byte) : Option Str :=
  if str.length = 0 then some s
  else do
    let d := reserve junk s str.length
    let index := min index d.len
    let l ← slice d.buf index (d.len - index)
    let b ← put d.buf (index + str.length) l
    let b ← put b index str
    some (some { d with buf := b, len := d.len + str.length })

/-- The loop of lines 443–446: `data.chars[index + i] = s[i]` from the last to the first, where `s` begins at `p`. -/
def copyDown (index p : Nat) : Nat → List Byte → Option (List Byte)
  | 0, buf => some buf
  | i + 1, buf =>
    match buf[p + i]? with
    | none => none
    | some c =>
      match put buf (index + i) [c] with
      | none => none
      | some b => copyDown index p i b

/-- `insert_chars_at`, lines 423–453, if `str` is the part of the string from `p` on with the length `n`. If the string has to
grow, the memory `str` points to is given back before it is read. -/
def insertSelf (s : Str) (index p n : Nat) : Option Str :=
  if n = 0 then some s
  else
    match s with
    | none => none
    | some d =>
      if d.buf.length < d.len + n then none
      else if p = 0 then some (some d)
      else do
        let index := min index d.len
        let l ← slice d.buf index (d.len - index)
        let b ← put d.buf (index + n) l
        if p ≤ index ∧ index < p + n then
          let b ← copyDown index p n b
          some (some { d with buf := b, len := d.len + n })
        else if index ≤ p ∧ p < index + d.len then
          let l ← slice b (p + n) n
          let b ← put b index l
          some (some { d with buf := b, len := d.len + n })
        else
          let l ← slice b p n
          let b ← put b index l
          some (some { d with buf := b, len := d.len + n })

/-- `replace_char`, lines 65–72. -/
def replaceChar (s : Str) (ch replacement : Byte) : Option Str :=
  match s with
  | none => none
  | some d =>
    some (some { d with
      buf := (d.buf.take d.len).map (fun c => if c = ch then replacement else c) ++ d.buf.drop d.len })

/-- What has matched so far is appended, lines 104–108 and 111. -/
def flush (junk : Byte) (str : List Byte) (start k : Nat) (s : Str) : Option Str :=
  if k > 0 then
    match slice str start k with
    | none => none
    | some l => appendChars junk s l
  else some s

/-- The loop of `replace`, lines 90–111, with the new `self` as the last argument: `k` is `match`, the list is `str` from `i` on. -/
def replaceLoop (junk : Byte) (str needle replacement : List Byte) : List Byte → Nat → Nat → Str → Option Str
  | [], _, k, s => flush junk str (str.length - k) k s
  | c :: rest, i, k, s =>
    match needle[k]? with
    | none => none
    | some x =>
      if c = x then
        if k + 1 = needle.length then
          match appendChars junk s replacement with
          | none => none
          | some s => replaceLoop junk str needle replacement rest (i + 1) 0 s
        else replaceLoop junk str needle replacement rest (i + 1) (k + 1) s
      else
        match flush junk str (i - k) k s with
        | none => none
        | some s =>
          match appendChar junk s c with
          | none => none
          | some s => replaceLoop junk str needle replacement rest (i + 1) 0 s

/-- `replace`, lines 74–113. -/
def replace (junk : Byte) (s : Str) (needle replacement : List Byte) : Option Str :=
  match s with
  | none => some none
  | some d =>
    if d.len < needle.length then some s
    else
      match needle, replacement with
      | [a], [b] => replaceChar s a b
      | _, _ => replaceLoop junk (view s) needle replacement (view s) 0 0 (clear s)

/-- The loops of `equals` and `less` over both strings, lines 275–278 and 302–305: does `p` hold everywhere? -/
def allPairs (p : Byte → Byte → Bool) : Nat → Nat → List Byte → List Byte → Option Bool
  | 0, _, _, _ => some true
  | n + 1, i, a, b =>
    match a[i]?, b[i]? with
    | some x, some y => if p x y then allPairs p n (i + 1) a b else some false
    | _, _ => none

/-- `equals`, lines 266–280, of two pointers that are not the same, or both null. -/
def equals : Str → Str → Option Bool
  | none, none => some true
  | none, some b => some (b.len == 0)
  | some a, none => some (a.len == 0)
  | some a, some b => if a.len ≠ b.len then some false else allPairs (fun x y => x == y) a.len 0 a.buf b.buf

/-- `less`, lines 291–306, of two pointers that are not the same, or both null. -/
def less : Str → Str → Option Bool
  | none, none => some false
  | none, some b => some (b.len != 0)
  | some a, none => some (a.len == 0)
  | some a, some b =>
    if a.len ≠ b.len then some (a.len < b.len) else allPairs (fun x y => decide (x < y)) a.len 0 a.buf b.buf

/-- `copy`, lines 236–243: the header is copied with the characters. -/
def copy (junk : Byte) (s : Str) (owner : Nat) : Option Data :=
  match s with
  | none => new junk owner []
  | some d =>
    let n := withCapacity junk owner d.buf.length
    match slice d.buf 0 d.len with
    | none => none
    | some l =>
      match put n.buf 0 l with
      | none => none
      | some b => some ⟨d.owner, d.len, b⟩

/-- `concat`, lines 115–122. -/
def concat (junk : Byte) (a b : Str) (owner : Nat) : Option Str :=
  match appendChars junk (some (withCapacity junk owner (len a + len b))) (view a) with
  | none => none
  | some s => appendChars junk s (view b)

/-- The loop of `join`, lines 584–588. -/
def joinLoop (junk : Byte) (joiner : List Byte) : List (List Byte) → Str → Option Str
  | [], s => some s
  | x :: l, s =>
    match appendChars junk s joiner with
    | none => none
    | some s =>
      match appendChars junk s x with
      | none => none
      | some s => joinLoop junk joiner l s

/-- `join`, lines 574–590. -/
def join (junk : Byte) (owner : Nat) (s : List (List Byte)) (joiner : List Byte) : Option Str :=
  match s with
  | [] => (new junk owner []).map some
  | x :: l =>
    let size := joiner.length * (x :: l).length + ((x :: l).map List.length).sum
    match appendChars junk (some (withCapacity junk owner size)) x with
    | none => none
    | some s => joinLoop junk joiner l s

/-- `zstr_view`, lines 126–141, with the string after it; the pointer is to the first byte of `buf`. -/
def zstrView (junk : Byte) (s : Str) : Option Str :=
  match s with
  | none => some none
  | some d =>
    let d := if d.buf.length = d.len then reserve junk s 1 else d
    match put d.buf d.len [0] with
    | none => none
    | some b => some (some { d with buf := b })

/-- The loop of `read_from_stream` for a reader without `available`, lines 649–661. `read st n` is a read of at most `n` bytes, or
an error (`none`). The result is the string with what is returned; `n` bounds the rounds. -/
def readLoop {σ : Type} (junk : Byte) (read : σ → Nat → Option (σ × List Byte)) : Nat → σ → Str → Nat → Option (σ × Str × Nat)
  | 0, _, _, _ => none
  | n + 1, st, s, total =>
    let d := reserve junk s 16
    match read st (d.buf.length - d.len) with
    | none => none
    | some (st, l) =>
      match put d.buf d.len l with
      | none => none
      | some b =>
        let s : Str := some { d with buf := b, len := d.len + l.length }
        if l.length < 16 then some (st, s, total) else readLoop junk read n st s total

end C3.DString
