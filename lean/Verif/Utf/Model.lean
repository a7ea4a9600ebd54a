import Verif.Codec.Model

/-!
# Model of `lib/std/core/conv.c3`, the conversions of `string.c3` and `string_iterator.c3`

A pointer into a text is the list of the units from it on; a buffer written to is the list of its
cells, `none` while uninitialised.  A read or write outside is `none`.  Lengths are natural numbers:
the sums the code forms are at most the number of bytes of a text in memory, so that `usz` does not
wrap.  In C3 the shift operators bind tighter than `&` and `|`, and these tighter than `+`, which
binds tighter than comparison.
-/

set_option autoImplicit false

namespace C3.Utf
open C3.Codec (store)

abbrev Byte := BitVec 8
abbrev Char16 := BitVec 16
abbrev Char32 := BitVec 32

/-- The faults of `std::core::string` used here and `NO_MORE_ELEMENT`. -/
inductive Fault where
  | CONVERSION_FAILED
  | INVALID_UTF8
  | INVALID_UTF16
  | NO_MORE_ELEMENT
deriving DecidableEq, Repr

/-- The cells behind an output pointer and how far it has been advanced. -/
structure Out (β : Type) where
  buf : List (Option β)
  pos : Nat
deriving Repr, DecidableEq

/-- `(*output)++[0] = v`. -/
def put {β : Type} (o : Out β) (v : β) : Option (Out β) := do
  let b ← store o.buf o.pos (some v)
  some ⟨b, o.pos + 1⟩

/-- `(char)v`. -/
def toChar (v : Char32) : Byte := v.setWidth 8

/-- `char32_to_utf8`, conv.c3 17–47. -/
def char32_to_utf8 (c : Char32) (output : List (Option Byte)) :
    Option (Except Fault (List (Option Byte) × Nat)) :=
  if output.length = 0 then some (.error .CONVERSION_FAILED)
  else if c ≤ 0x7f#32 then do
    let o ← store output 0 (some (toChar c))
    some (.ok (o, 1))
  else if c ≤ 0x7ff#32 then
    if output.length < 2 then some (.error .CONVERSION_FAILED)
    else do
      let o ← store output 0 (some (toChar (0xC0#32 ||| c >>> 6)))
      let o ← store o 1 (some (toChar (0x80#32 ||| (c &&& 0x3F#32))))
      some (.ok (o, 2))
  else if c ≤ 0xffff#32 then
    if output.length < 3 then some (.error .CONVERSION_FAILED)
    else do
      let o ← store output 0 (some (toChar (0xE0#32 ||| c >>> 12)))
      let o ← store o 1 (some (toChar (0x80#32 ||| (c >>> 6 &&& 0x3F#32))))
      let o ← store o 2 (some (toChar (0x80#32 ||| (c &&& 0x3F#32))))
      some (.ok (o, 3))
  else if c ≤ 0x10ffff#32 then
    if output.length < 4 then some (.error .CONVERSION_FAILED)
    else do
      let o ← store output 0 (some (toChar (0xF0#32 ||| c >>> 18)))
      let o ← store o 1 (some (toChar (0x80#32 ||| (c >>> 12 &&& 0x3F#32))))
      let o ← store o 2 (some (toChar (0x80#32 ||| (c >>> 6 &&& 0x3F#32))))
      let o ← store o 3 (some (toChar (0x80#32 ||| (c &&& 0x3F#32))))
      some (.ok (o, 4))
  else some (.error .CONVERSION_FAILED)

/-- `char32_to_utf16_unsafe`, conv.c3 55–68. -/
def char32_to_utf16_unsafe (c : Char32) (output : Out Char16) : Option (Out Char16) :=
  if c < 0x10000#32 then put output (c.setWidth 16)
  else do
    let c := c - 0x10000#32
    let low : Char16 := (0xDC00#32 ||| (c &&& 0x3FF#32)).setWidth 16
    let c := c >>> 10
    let high : Char16 := (0xD800#32 ||| (c &&& 0x3FF#32)).setWidth 16
    let o ← put output high
    put o low

/-- `char32_to_utf8_unsafe`, conv.c3 108–131. -/
def char32_to_utf8_unsafe (c : Char32) (output : Out Byte) : Option (Out Byte × Nat) :=
  if c ≤ 0x7f#32 then do
    let o ← put output (toChar c)
    some (o, 1)
  else if c ≤ 0x7ff#32 then do
    let o ← put output (toChar (0xC0#32 ||| c >>> 6))
    let o ← put o (toChar (0x80#32 ||| (c &&& 0x3F#32)))
    some (o, 2)
  else if c ≤ 0xffff#32 then do
    let o ← put output (toChar (0xE0#32 ||| c >>> 12))
    let o ← put o (toChar (0x80#32 ||| (c >>> 6 &&& 0x3F#32)))
    let o ← put o (toChar (0x80#32 ||| (c &&& 0x3F#32)))
    some (o, 3)
  else do
    let o ← put output (toChar (0xF0#32 ||| c >>> 18))
    let o ← put o (toChar (0x80#32 ||| (c >>> 12 &&& 0x3F#32)))
    let o ← put o (toChar (0x80#32 ||| (c >>> 6 &&& 0x3F#32)))
    let o ← put o (toChar (0x80#32 ||| (c &&& 0x3F#32)))
    some (o, 4)

/-- `char16_to_utf8_unsafe`, conv.c3 77–102: the output and the value left in `*available`.  A
`Char16` is widened to 32 bits for the arithmetic. -/
def char16_to_utf8_unsafe (ptr : List Char16) (available : Nat) (output : Out Byte) :
    Option (Except Fault (Out Byte × Nat)) := do
  let h16 ← ptr[0]?
  let high : Char32 := h16.setWidth 32
  if high &&& 0xF800#32 ≠ 0xD800#32 then do
    let (o, _) ← char32_to_utf8_unsafe high output
    some (.ok (o, 1))
  else if high &&& 0xFC00#32 ≠ 0xD800#32 then some (.error .INVALID_UTF16)
  else if available = 1 then some (.error .INVALID_UTF16)
  else do
    let l16 ← ptr[1]?
    let low : Char32 := l16.setWidth 32
    if low &&& 0xFC00#32 ≠ 0xDC00#32 then some (.error .INVALID_UTF16)
    else do
      let uc := ((high &&& 0x3FF#32) <<< 10 ||| (low &&& 0x3FF#32)) + 0x10000#32
      let (o, _) ← char32_to_utf8_unsafe uc output
      some (.ok (o, 2))

/-- `utf8_to_char32`, conv.c3 138–186: the code point and the value left in `*size`.  A `char` is
widened to 32 bits for the arithmetic. -/
def utf8_to_char32 (ptr : List Byte) (size : Nat) : Option (Except Fault (Char32 × Nat)) :=
  if size < 1 then some (.error .INVALID_UTF8)
  else do
    let c : Char32 := (← ptr[0]?).setWidth 32
    if c &&& 0x80#32 = 0#32 then some (.ok (c, 1))
    else if c &&& 0xE0#32 = 0xC0#32 then
      if size < 2 then some (.error .INVALID_UTF8)
      else do
        let uc := (c &&& 0x1F#32) <<< 6
        let c : Char32 := (← ptr[1]?).setWidth 32
        if uc = 0#32 ∨ c &&& 0xC0#32 ≠ 0x80#32 then some (.error .INVALID_UTF8)
        else some (.ok (uc + (c &&& 0x3F#32), 2))
    else if c &&& 0xF0#32 = 0xE0#32 then
      if size < 3 then some (.error .INVALID_UTF8)
      else do
        let uc := (c &&& 0x0F#32) <<< 12
        let c : Char32 := (← ptr[1]?).setWidth 32
        if c &&& 0xC0#32 ≠ 0x80#32 then some (.error .INVALID_UTF8)
        else do
          let uc := uc + (c &&& 0x3F#32) <<< 6
          let c : Char32 := (← ptr[2]?).setWidth 32
          if uc = 0#32 ∨ c &&& 0xC0#32 ≠ 0x80#32 then some (.error .INVALID_UTF8)
          else some (.ok (uc + (c &&& 0x3F#32), 3))
    else if size < 4 then some (.error .INVALID_UTF8)
    else if c &&& 0xF8#32 ≠ 0xF0#32 then some (.error .INVALID_UTF8)
    else do
      let uc := (c &&& 0x07#32) <<< 18
      let c : Char32 := (← ptr[1]?).setWidth 32
      if c &&& 0xC0#32 ≠ 0x80#32 then some (.error .INVALID_UTF8)
      else do
        let uc := uc + (c &&& 0x3F#32) <<< 12
        let c : Char32 := (← ptr[2]?).setWidth 32
        if c &&& 0xC0#32 ≠ 0x80#32 then some (.error .INVALID_UTF8)
        else do
          let uc := uc + (c &&& 0x3F#32) <<< 6
          let c : Char32 := (← ptr[3]?).setWidth 32
          if uc = 0#32 ∨ c &&& 0xC0#32 ≠ 0x80#32 then some (.error .INVALID_UTF8)
          else some (.ok (uc + (c &&& 0x3F#32), 4))

/-- `utf8_codepoints`, conv.c3 192–200, and `String.utf8_codepoints`, string.c3 685–693. -/
def utf8_codepoints : List Byte → Nat
  | [] => 0
  | c :: cs => (if c.setWidth 32 &&& 0xC0#32 ≠ 0x80#32 then 1 else 0) + utf8_codepoints cs

/-- `utf8len_for_utf32`, conv.c3 207–225. -/
def utf8len_for_utf32 : List Char32 → Nat
  | [] => 0
  | uc :: us =>
    (if uc ≤ 0x7f#32 then 1 else if uc ≤ 0x7ff#32 then 2 else if uc ≤ 0xffff#32 then 3 else 4) + utf8len_for_utf32 us

/-- `utf8len_for_utf16`, conv.c3 232–257. -/
def utf8len_for_utf16 : List Char16 → Nat
  | [] => 0
  | c :: cs =>
    (if c.setWidth 32 &&& 0xF800#32 ≠ 0xD800#32 then
      (if c ≤ 0x7f#16 then 1 else if c ≤ 0x7ff#16 then 2 else 3)
    else 4) + utf8len_for_utf16 cs

/-- The loop of `utf16len_for_utf8`, conv.c3 268–279, from index `i`. -/
def utf16lenLoop (utf8 : List Byte) (i : Nat) : Nat :=
  if h : i < utf8.length then
    let c : Char32 := utf8[i].setWidth 32
    if c &&& 0x80#32 = 0#32 then 1 + utf16lenLoop utf8 (i + 1)
    else if c &&& 0xE0#32 = 0xC0#32 then 1 + utf16lenLoop utf8 (i + 2)
    else if c &&& 0xF0#32 = 0xE0#32 then 1 + utf16lenLoop utf8 (i + 3)
    else 2 + utf16lenLoop utf8 (i + 4)
  else 0
termination_by utf8.length - i

/-- `utf16len_for_utf8`, conv.c3 264–281. -/
def utf16len_for_utf8 (utf8 : List Byte) : Nat := utf16lenLoop utf8 0

/-- `utf16len_for_utf32`, conv.c3 287–295. -/
def utf16len_for_utf32 (utf32 : List Char32) : Nat :=
  utf32.foldl (fun len uc => if uc ≥ 0x10000#32 then len + 1 else len) utf32.length

/-- The loop of `utf32to8`, conv.c3 307–311: `done` are the cells before the slice `buffer`. -/
def utf32to8Loop : List Char32 → List (Option Byte) → List (Option Byte) →
    Option (Except Fault (List (Option Byte) × List (Option Byte)))
  | [], done, buffer => some (.ok (done, buffer))
  | uc :: us, done, buffer => do
    match ← char32_to_utf8 uc buffer with
    | .error e => some (.error e)
    | .ok (b, used) =>
      if used ≤ b.length then utf32to8Loop us (done ++ b.take used) (b.drop used) else none

/-- `utf32to8`, conv.c3 304–315: the buffer afterwards and the count. -/
def utf32to8 (utf32 : List Char32) (utf8_buffer : List (Option Byte)) :
    Option (Except Fault (List (Option Byte) × Nat)) := do
  match ← utf32to8Loop utf32 [] utf8_buffer with
  | .error e => some (.error e)
  | .ok (done, buffer) =>
    let n := utf8_buffer.length - buffer.length
    if buffer.length > 0 then do
      let b ← store buffer 0 (some 0)
      some (.ok (done ++ b, n))
    else some (.ok (done ++ buffer, n))

/-- The loop of `utf8to32`, conv.c3 330–337. -/
def utf8to32Loop (utf8 : List Byte) (i : Nat) (ptr : List (Option Char32)) (len32 : Nat) :
    Option (Except Fault (List (Option Char32) × Nat)) :=
  if i < utf8.length then
    if len32 = ptr.length then some (.error .CONVERSION_FAILED)
    else do
      match ← utf8_to_char32 (utf8.drop i) (utf8.length - i) with
      | .error e => some (.error e)
      | .ok (uc, width) => do
        let p ← store ptr len32 (some uc)
        utf8to32Loop utf8 (i + width) p (len32 + 1)
  else some (.ok (ptr, len32))
partial_fixpoint

/-- `utf8to32`, conv.c3 324–341. -/
def utf8to32 (utf8 : List Byte) (utf32_buffer : List (Option Char32)) :
    Option (Except Fault (List (Option Char32) × Nat)) := do
  match ← utf8to32Loop utf8 0 utf32_buffer 0 with
  | .error e => some (.error e)
  | .ok (ptr, len32) =>
    if len32 + 1 < ptr.length then do
      let p ← store ptr len32 (some 0)
      some (.ok (p, len32))
    else some (.ok (ptr, len32))

/-- `utf16to8_unsafe`, conv.c3 351–360, from index `i`. -/
def utf16to8_unsafe (utf16 : List Char16) (i : Nat) (o : Out Byte) : Option (Except Fault (Out Byte)) :=
  if i < utf16.length then do
    match ← char16_to_utf8_unsafe (utf16.drop i) (utf16.length - i) o with
    | .error e => some (.error e)
    | .ok (o, available) => utf16to8_unsafe utf16 (i + available) o
  else some (.ok o)
partial_fixpoint

/-- `utf8to32_unsafe`, conv.c3 370–380, from index `i`. -/
def utf8to32_unsafe (utf8 : List Byte) (i : Nat) (o : Out Char32) : Option (Except Fault (Out Char32)) :=
  if i < utf8.length then do
    match ← utf8_to_char32 (utf8.drop i) (utf8.length - i) with
    | .error e => some (.error e)
    | .ok (uc, width) => do
      let o ← put o uc
      utf8to32_unsafe utf8 (i + width) o
  else some (.ok o)
partial_fixpoint

/-- `utf8to16_unsafe`, conv.c3 390–400, from index `i`. -/
def utf8to16_unsafe (utf8 : List Byte) (i : Nat) (o : Out Char16) : Option (Except Fault (Out Char16)) :=
  if i < utf8.length then do
    match ← utf8_to_char32 (utf8.drop i) (utf8.length - i) with
    | .error e => some (.error e)
    | .ok (uc, width) => do
      let o ← char32_to_utf16_unsafe uc o
      utf8to16_unsafe utf8 (i + width) o
  else some (.ok o)
partial_fixpoint

/-- `utf32to8_unsafe`, conv.c3 410–417. -/
def utf32to8_unsafe : List Char32 → Out Byte → Option (Out Byte)
  | [], o => some o
  | uc :: us, o => do
    let (o, _) ← char32_to_utf8_unsafe uc o
    utf32to8_unsafe us o

/-- Memory from `allocator::alloc_array_try` or `malloc_try`, which succeeds. -/
def alloc (β : Type) (n : Nat) : Out β := ⟨List.replicate n none, 0⟩

/-- `data[len] = 0; return data[:len]`. -/
def finish {β : Type} (zero : β) (o : Out β) (len : Nat) : Option (List (Option β)) := do
  let b ← store o.buf len (some zero)
  some (b.take len)

/-- `String.to_utf16`, string.c3 562–569: the cells of the slice returned. -/
def to_utf16 (self : List Byte) : Option (Except Fault (List (Option Char16))) := do
  let len16 := utf16len_for_utf8 self
  match ← utf8to16_unsafe self 0 (alloc Char16 (len16 + 1)) with
  | .error e => some (.error e)
  | .ok o => do
    let r ← finish 0 o len16
    some (.ok r)

/-- `String.to_utf32`, string.c3 580–587. -/
def to_utf32 (self : List Byte) : Option (Except Fault (List (Option Char32))) := do
  let codepoints := utf8_codepoints self
  match ← utf8to32_unsafe self 0 (alloc Char32 (codepoints + 1)) with
  | .error e => some (.error e)
  | .ok o => do
    let r ← finish 0 o codepoints
    some (.ok r)

/-- `from_utf32`, string.c3 654–662. -/
def from_utf32 (utf32 : List Char32) : Option (List (Option Byte)) := do
  let len := utf8len_for_utf32 utf32
  let o ← utf32to8_unsafe utf32 (alloc Byte (len + 1))
  finish 0 o len

/-- `from_utf16`, string.c3 664–672. -/
def from_utf16 (utf16 : List Char16) : Option (Except Fault (List (Option Byte))) := do
  let len := utf8len_for_utf16 utf16
  match ← utf16to8_unsafe utf16 0 (alloc Byte (len + 1)) with
  | .error e => some (.error e)
  | .ok o => do
    let r ← finish 0 o len
    some (.ok r)

/-- `struct StringIterator`, string_iterator.c3 3–7. -/
structure StringIterator where
  utf8 : List Byte
  current : Nat
deriving DecidableEq

/-- `StringIterator.next`, string_iterator.c3 14–23. -/
def StringIterator.next (self : StringIterator) : Option (Except Fault (StringIterator × Char32)) :=
  let len := self.utf8.length
  if self.current ≥ len then some (.error .NO_MORE_ELEMENT)
  else do
    let read := if len - self.current < 4 then len - self.current else 4
    match ← utf8_to_char32 (self.utf8.drop self.current) read with
    | .error e => some (.error e)
    | .ok (res, read) => some (.ok ({ self with current := self.current + read }, res))

/-- `StringIterator.peek`, string_iterator.c3 25–33. -/
def StringIterator.peek (self : StringIterator) : Option (Except Fault Char32) :=
  let len := self.utf8.length
  if self.current ≥ len then some (.error .NO_MORE_ELEMENT)
  else do
    let read := if len - self.current < 4 then len - self.current else 4
    match ← utf8_to_char32 (self.utf8.drop self.current) read with
    | .error e => some (.error e)
    | .ok (res, _) => some (.ok res)

/-- A caller's loop `while (try c = it.next())`: the code points until `next` faults, and the
fault. -/
def StringIterator.drain (self : StringIterator) : Option (List Char32 × Fault) := do
  match ← self.next with
  | .error e => some ([], e)
  | .ok (it, c) => do
    let (cs, e) ← it.drain
    some (c :: cs, e)
partial_fixpoint

end C3.Utf
