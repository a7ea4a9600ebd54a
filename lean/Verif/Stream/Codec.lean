import Verif.Stream.Model

set_option autoImplicit false

/-! Model of the encodings of numbers and byte arrays in lib/std/io/stream.c3. Bytes are natural numbers below 256, integers are the
natural numbers (or, if signed, the integers) of their range. -/

namespace C3.Stream

variable {σ τ : Type}

/-- A sequence of `stream.write_byte(c)!`. -/
def writeBytes (W : Out τ Nat) : τ → List Nat → Option (τ × Res Unit)
  | s, [] => some (s, .ok ())
  | s, c :: l =>
    match W.writeByte s c with
    | none => none
    | some (t, .ok ()) => writeBytes W t l
    | some (t, .eof) => some (t, .eof)
    | some (t, .fault) => some (t, .fault)

/-- The shifts in `write_be_short`, `_int`, `_long`, `_int128` (stream.c3 264-268, 292-298, 326-336, 372-390) and in the functions that
read, for `n` bytes. -/
def beShifts : Nat → List Nat
  | 0 => []
  | n + 1 => 8 * n :: beShifts n

/-- `write_be_short`, `_int`, `_long`, `_int128`, see `beShifts`: `(char)(s >> k)` for each shift `k`. -/
def writeBE (W : Out τ Nat) (n : Nat) (s : τ) (x : Nat) : Option (τ × Res Unit) :=
  writeBytes W s ((beShifts n).map fun k => (x >>> k) % 256)

/-- `read_be_uint`, `_ulong`, `_uint128`, stream.c3 273-279, 303-313, 341-359: the sum of the shifted bytes, in `w` bits. -/
def readBELoop (R : In σ Nat) (w : Nat) : List Nat → σ → Nat → Option (σ × Res Nat)
  | [], s, v => some (s, .ok v)
  | k :: ks, s, v =>
    match R.readByte s with
    | none => none
    | some (t, .ok c) => readBELoop R w ks t ((v + (c <<< k)) % 2 ^ w)
    | some (t, .eof) => some (t, .eof)
    | some (t, .fault) => some (t, .fault)

/-- See `readBELoop`. -/
def readBE (R : In σ Nat) (n : Nat) (s : σ) : Option (σ × Res Nat) := readBELoop R (8 * n) (beShifts n) s 0

/-- `read_be_ushort`, stream.c3 246-251. -/
def readBEShort (R : In σ Nat) (s : σ) : Option (σ × Res Nat) :=
  match R.readByte s with
  | none => none
  | some (t, .eof) => some (t, .eof)
  | some (t, .fault) => some (t, .fault)
  | some (t, .ok hi) =>
    match R.readByte t with
    | none => none
    | some (u, .eof) => some (u, .eof)
    | some (u, .fault) => some (u, .fault)
    | some (u, .ok lo) => some (u, .ok (((hi <<< 8) ||| lo) % 2 ^ 16))

/-- `write_tiny_bytearray` (396-400) and `write_short_bytearray` (418-422), with `n` bytes for the length and the contract
`data.len < limit`: 256 and 0x1000. -/
def writeArray (W : Out τ Nat) (n limit : Nat) (s : τ) (data : List Nat) : Option (τ × Res Nat) :=
  if data.length < limit then
    match writeBE W n s data.length with
    | none => none
    | some (t, .eof) => some (t, .eof)
    | some (t, .fault) => some (t, .fault)
    | some (t, .ok ()) =>
      match W.write t data with
      | none => none
      | some (u, .ok m) => some (u, .ok (m + n))
      | some (u, .eof) => some (u, .eof)
      | some (u, .fault) => some (u, .fault)
  else none

/-- The array from its length on. -/
def readArrayData (R : In σ Nat) : Option (σ × Res Nat) → Option (σ × Res (List Nat))
  | none => none
  | some (t, .eof) => some (t, .eof)
  | some (t, .fault) => some (t, .fault)
  | some (t, .ok len) => if len = 0 then some (t, .ok []) else readAll R t len

/-- `read_tiny_bytearray` (405-412). -/
def readTiny (R : In σ Nat) (s : σ) : Option (σ × Res (List Nat)) := readArrayData R (R.readByte s)

/-- `read_short_bytearray` (427-434). -/
def readShort (R : In σ Nat) (s : σ) : Option (σ × Res (List Nat)) := readArrayData R (readBEShort R s)

/-- The loop of `write_varint`, stream.c3 233-239, for a value that is not negative; `fuel` bounds it. `MAX_VARS` bytes are enough for
the types of two and four bytes. -/
def varBytes : Nat → Nat → List Nat
  | 0, x => [x % 256]
  | fuel + 1, x => if x ≥ 0x80 then ((x ||| 0x80) % 256) :: varBytes fuel (x >>> 7) else [x % 256]

/-- `write_varint` of an integer: a negative one does not enter the loop. -/
def varBytesInt (x : Int) : List Nat := if x < 0 then [(x % 256).toNat] else varBytes x.toNat x.toNat

/-- What `read_varint` returns. -/
inductive Var (β : Type) where
  | value (x : β)
  | unexpectedEof
  | overflow
  | fault
deriving DecidableEq, Repr

/-- The loop of `read_varint`, stream.c3 199-221, `left` times, for an unsigned type. Types of two and four bytes only: for that of eight
bytes the shift of an `int` would exceed its size. The values fit without truncation. -/
def readVarLoop (R : In σ Nat) : Nat → σ → Nat → Nat → Option (σ × Var Nat)
  | 0, s, _, _ => some (s, .overflow)
  | left + 1, s, x, shift =>
    match R.readByte s with
    | none => none
    | some (t, .eof) => some (t, .unexpectedEof)
    | some (t, .fault) => some (t, .fault)
    | some (t, .ok c) =>
      if c &&& 0x80 = 0 then
        if left = 0 ∧ c > 1 then some (t, .overflow) else some (t, .value (x ||| (c <<< shift)))
      else readVarLoop R left t (x ||| ((c &&& 0x7F) <<< shift)) (shift + 7)

/-- `MAX_VARS`, stream.c3 186, for types of two and four bytes. -/
def maxVars (size : Nat) : Nat := if size = 2 then 3 else 5

/-- `read_varint` of an unsigned type of `size` bytes. -/
def readVar (R : In σ Nat) (size : Nat) (s : σ) : Option (σ × Var Nat) := readVarLoop R (maxVars size) s 0 0

/-- Lines 212-214: `x & 1 == 0 ? x >> 1 : ~(x >> 1)`. -/
def unzigzag (x : Nat) : Int := if x &&& 1 = 0 then ((x >>> 1 : Nat) : Int) else -((x >>> 1 : Nat) : Int) - 1

/-- `read_varint` of a signed type of `size` bytes. -/
def readVarInt (R : In σ Nat) (size : Nat) (s : σ) : Option (σ × Var Int) :=
  match readVar R size s with
  | none => none
  | some (t, .value x) => some (t, .value (unzigzag x))
  | some (t, .unexpectedEof) => some (t, .unexpectedEof)
  | some (t, .overflow) => some (t, .overflow)
  | some (t, .fault) => some (t, .fault)

end C3.Stream
