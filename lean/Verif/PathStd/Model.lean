/-! # POSIX paths of `lib/std/io/path.c3`

A string is the list of its bytes.  `path_env` is `PathEnv.POSIX`, for which
`volume_name_len` (lines 353–387) is 0. -/

set_option autoImplicit false

namespace C3.PathStd

/-- How a function ends that has no result: with a fault, or at an index out of
bounds or a failed assertion. -/
inductive Stop where
  | invalidPath
  | noParent
  | notFound
  | panic
  deriving DecidableEq, Repr

/-- `is_separator`, lines 62–65, for POSIX. -/
def isSep (c : Nat) : Bool := c == 47

/-- `is_reserved_path_char`, lines 635–638 and 656–661, for POSIX. -/
def isReserved (c : Nat) : Bool := c == 0 || c == 47

/-- `path_str[i]`. -/
def rd (s : List Nat) (i : Nat) : Except Stop Nat :=
  match s[i]? with
  | some c => .ok c
  | none => .error .panic

/-- `path_str[i] = c`. -/
def wr (s : List Nat) (i c : Nat) : Except Stop (List Nat) :=
  if i < s.length then .ok (s.set i c) else .error .panic

/-- `dots` of lines 452–470: 0, 1 or 2. -/
def dots (s : List Nat) (i : Nat) : Except Stop Nat :=
  if i == s.length - 1 then .ok 1
  else do
    let next ← rd s (i + 1)
    if next == 46 then
      if i == s.length - 2 then .ok 2
      else do
        let c ← rd s (i + 2)
        .ok (if !isSep c then 0 else 2)
    else .ok (if !isSep next then 0 else 1)

/-- The condition of lines 483–486, `len == path_start` left out: whether `..` is
copied as what is before it cannot be taken back.  (Line 485 has `path_str[len - 3]`
twice.) -/
def afterDotDot (s : List Nat) (start len : Nat) : Except Stop Bool :=
  if ¬ (len - start ≥ 3) then .ok false
  else do
    let c1 ← rd s (len - 1)
    if c1 ≠ 47 then .ok false
    else do
      let c3 ← rd s (len - 3)
      if c3 ≠ 46 then .ok false
      else if len - 3 == 0 then .ok true
      else do
        let c4 ← rd s (len - 4)
        .ok (c4 == 47)

/-- Lines 488–492: the two dots are written, unless they are there. -/
def putDots (s : List Nat) (i len : Nat) : Except Stop (List Nat) :=
  if i ≠ len then do
    let s ← wr s len 46
    wr s (len + 1) 46
  else .ok s

/-- Lines 488–495: `..` is copied. -/
def copyDots (s : List Nat) (i len : Nat) : Except Stop (List Nat × Nat) := do
  let s ← putDots s i len
  if len + 2 < s.length then do
    let s ← wr s (len + 2) 47
    .ok (s, len + 3)
  else .ok (s, len + 2)

/-- The loop of lines 502–505: back until there is a separator, or the start. -/
def back (s : List Nat) (start : Nat) : Nat → Except Stop Nat
  | 0 => .ok 0
  | len + 1 =>
    if len + 1 > start then do
      let c ← rd s len
      if !isSep c then back s start len else .ok (len + 1)
    else .ok (len + 1)

/-- What `normalize` knows at the start of a pass: the bytes, `len`, and
`previous_was_separator`; and by how much `i` grows besides the `i++` of the loop. -/
structure Pass where
  str : List Nat
  len : Nat
  prev : Bool
  skip : Nat

/-- Lines 477–509: `..`. -/
def dotDot (s : List Nat) (start : Nat) (root : Bool) (i len : Nat) : Except Stop Pass := do
  if len == start && root then .error .invalidPath
  else do
    let after ← if len == start then .ok true else afterDotDot s start len
    if after then do
      let r ← copyDots s i len
      .ok ⟨r.1, r.2, true, 2⟩
    else do
      let len ← back s start (len - 1)
      .ok ⟨s, len, true, 2⟩

/-- Lines 514–516: the byte is copied. -/
def plain (s : List Nat) (i len c : Nat) : Except Stop Pass := do
  let s ← if i ≠ len then wr s len c else .ok s
  .ok ⟨s, len + 1, false, 0⟩

/-- One pass of the loop of `normalize`, lines 432–516. -/
def pass (s : List Nat) (start : Nat) (root : Bool) (i len : Nat) (prev : Bool) : Except Stop Pass := do
  let c ← rd s i
  if isSep c then
    if prev then .ok ⟨s, len, prev, 0⟩
    else do
      let s ← wr s len 47
      .ok ⟨s, len + 1, true, 0⟩
  else if isReserved c then .error .invalidPath
  else if c == 46 && prev then do
    let d ← dots s i
    if d == 1 then .ok ⟨s, len, prev, 1⟩
    else if d == 2 then dotDot s start root i len
    else plain s i len c
  else plain s i len c

/-- The loop of `normalize`, lines 430–517: the bytes and `len` after it. -/
def loop (n start : Nat) (root : Bool) (s : List Nat) (i len : Nat) (prev : Bool) :
    Except Stop (List Nat × Nat) :=
  if h : i < n then
    (pass s start root i len prev).bind fun p => loop n start root p.str (i + p.skip + 1) p.len p.prev
  else .ok (s, len)
termination_by n - i
decreasing_by omega

/-- Line 518: a separator at the end is taken away. -/
def trim (s : List Nat) (start len : Nat) : Except Stop Nat :=
  if len > start + 1 then do
    let c ← rd s (len - 1)
    .ok (if isSep c then len - 1 else len)
  else .ok len

/-- Lines 518–526.  The zero written behind the path (line 519) is not part of it. -/
def finish (s : List Nat) (start len : Nat) : Except Stop (List Nat) := do
  let len ← trim s start len
  if len == 0 then do
    let s ← wr s 0 46
    .ok (s.take 1)
  else .ok (s.take len)

/-- `normalize`, lines 409–527. -/
def normalize (s : List Nat) : Except Stop (List Nat) := do
  if s.length == 0 then .ok s
  else do
    let c ← rd s 0
    let root := isSep c
    let start := if root then 1 else 0
    let s := if root then s.set 0 47 else s
    let r ← loop s.length start root s start start true
    finish r.1 start r.2

/-- `Path.append`, lines 181–194. -/
def append (self filename : List Nat) : Except Stop (List Nat) :=
  if self.length == 0 then normalize filename
  else do
    let c ← rd self (self.length - 1)
    if isSep c then .error .panic
    else normalize (self ++ [47] ++ filename)

/-- `Path.is_absolute`, lines 225–232. -/
def isAbsolute (self : List Nat) : Bool :=
  match self with
  | [] => false
  | c :: _ => isSep c

/-- `String.rindex_of_char`, `lib/std/core/string.c3:415-422`. -/
def rindex (c : Nat) (s : List Nat) : Nat → Option Nat
  | 0 => none
  | i + 1 => if s[i]? = some c then some i else rindex c s i

/-- `start_of_base_name`, lines 198–203. -/
def startOfBase (s : List Nat) : Nat :=
  match rindex 47 s s.length with
  | some i => i + 1
  | none => 0

/-- `Path.basename`, lines 278–284. -/
def basename (s : List Nat) : List Nat := s.drop (startOfBase s)

/-- `Path.dirname`, lines 293–307. -/
def dirname (s : List Nat) : List Nat :=
  let b := startOfBase s
  if b == 0 then [46]
  else if b ≤ 1 then s.take b
  else s.take (b - 1)

/-- `Path.has_extension`, lines 319–325. -/
def hasExtension (s ext : List Nat) : Bool :=
  let b := basename s
  if b.length ≤ ext.length then false
  else if b[b.length - (ext.length + 1)]? ≠ some 46 then false
  else b.drop (b.length - ext.length) == ext

/-- `Path.extension`, lines 327–334. -/
def extension (s : List Nat) : Except Stop (List Nat) :=
  let b := basename s
  match rindex 46 b b.length with
  | none => .error .notFound
  | some i => if i == 0 || i == b.length then .ok [] else .ok (b.drop (i + 1))

/-- `Path.parent`, lines 396–407. -/
def parent (s : List Nat) : Except Stop (List Nat) :=
  if s.length == 1 && s.head? == some 47 then .error .noParent
  else
    match rindex 47 s s.length with
    | some i => .ok (s.take i)
    | none => .error .noParent

end C3.PathStd
