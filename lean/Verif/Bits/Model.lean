/-! # `lib/std/io/bits.c3`

The stream below a `BitWriter` takes every byte, the stream below a `BitReader` gives the bytes of
a list and then the end of the file. A `uint` that counts bits is a number; the theorems show that
it stays below 33. A panic of the safe build (a broken contract, a shift by the width or more) is
`none`. -/

set_option autoImplicit false

namespace C3.Bits

abbrev Byte := BitVec 8

/-- `BitWriter`, lines 41–46: the bytes written so far, the bits kept and how many of them count. -/
structure Writer where
  out : List Byte
  bits : BitVec 32
  len : Nat

/-- `BitWriter.init`, lines 52–55. -/
def Writer.init : Writer := { out := [], bits := 0, len := 0 }

/-- `bitorder::write(bits, &buffer, UIntBE)`: the bytes of the word, the highest first. -/
def bytesBE (x : BitVec 32) : List Byte :=
  [(x >>> 24).truncate 8, (x >>> 16).truncate 8, (x >>> 8).truncate 8, x.truncate 8]

/-- `x << n` and `x >> n`, which panic when `n` is the width or more. -/
def shl (x : BitVec 32) (n : Nat) : Option (BitVec 32) := if n < 32 then some (x <<< n) else none
def shr (x : BitVec 32) (n : Nat) : Option (BitVec 32) := if n < 32 then some (x >>> n) else none

/-- `(1 << n) - 1`. -/
def mask (n : Nat) : Option (BitVec 32) := do
  let x ← shl 1 n
  some (x - 1)

/-- `BitWriter.flush`, lines 57–68. -/
def Writer.flush (w : Writer) : Option Writer :=
  if w.len = 0 then some w
  else do
    if w.len > 32 then none
    let padding := 32 - w.len
    let bits ← shl w.bits padding
    let n := (w.len + 7) / 8
    some { w with out := w.out ++ (bytesBE bits).take n, len := 0 }

/-- The body of the loop of `BitWriter.write_bits`, lines 78–86. -/
def Writer.push (w : Writer) (bits : BitVec 32) (nbits : Nat) : Option Writer := do
  let to_push := 24 - w.len
  let x ← shr bits (nbits - to_push)
  let m ← mask to_push
  let b ← shl w.bits to_push
  Writer.flush { w with bits := b ||| (x &&& m), len := w.len + to_push }

/-- The loop, lines 76–87: the writer and what is left of `nbits`. `fuel` bounds the rounds; the
theorems show that three are enough. -/
def Writer.loop (bits : BitVec 32) : Nat → Writer → Nat → Option (Writer × Nat)
  | 0, _, _ => none
  | fuel + 1, w, nbits =>
    if w.len + nbits > 24 then do
      let w' ← w.push bits nbits
      Writer.loop bits fuel w' (nbits - (24 - w.len))
    else some (w, nbits)

/-- The end of `BitWriter.write_bits`, lines 89–93. -/
def Writer.rest (w : Writer) (bits : BitVec 32) (nbits : Nat) : Option Writer :=
  if nbits = 0 then some w
  else do
    let b ← shl w.bits nbits
    let m ← mask nbits
    some { w with bits := b ||| (bits &&& m), len := w.len + nbits }

/-- `BitWriter.write_bits`, lines 70–94. -/
def Writer.write (w : Writer) (bits : BitVec 32) (nbits : Nat) : Option Writer :=
  if 32 < nbits then none
  else if nbits = 0 then some w
  else do
    let r ← Writer.loop bits 3 w nbits
    r.1.rest bits r.2

/-- `BitReader`, lines 3–8: the bytes not yet read, the bits kept and how many of them count. -/
structure Reader where
  input : List Byte
  bits : BitVec 32
  len : Nat

/-- `BitReader.init`, lines 10–13. -/
def Reader.init (input : List Byte) : Reader := { input := input, bits := 0, len := 0 }

/-- `BitReader.clear`, lines 15–18. -/
def Reader.clear (r : Reader) : Reader := { r with len := 0 }

/-- The end of `BitReader.read_bits`, lines 36–38. -/
def Reader.take (r : Reader) (nbits : Nat) : Option (Reader × Option Byte) := do
  let len := r.len - nbits
  let m ← mask nbits
  let x ← shr r.bits len
  some ({ r with len := len }, some ((x &&& m).truncate 8))

/-- `BitReader.read_bits`, lines 20–39. The inner `none` is the fault of the stream: the end. -/
def Reader.read (r : Reader) (nbits : Nat) : Option (Reader × Option Byte) :=
  if 8 < nbits ∨ 32 < r.len + nbits then none
  else if r.len < nbits then
    match r.input with
    | [] => some (r, none)
    | c :: l =>
      Reader.take { input := l, bits := (r.bits <<< 8) ||| c.zeroExtend 32, len := r.len + 8 } nbits
  else r.take nbits

end C3.Bits
