import Mathlib.Data.Nat.Digits.Lemmas
import Verif.Fmt.Model

/-! # What `printf` prints

After C11 7.21.6.1, with the conversions C3 adds: `b` and `B` for binary, `h` and `H` for bytes, and
prefixes `0o` and `0b`. Of the model only the names of bytes (`ch`) and the type of the arguments are used. UTF-8 is Lean's
`String.utf8EncodeChar`. -/

set_option autoImplicit false

namespace C3.Fmt.Std

/-- The flag characters `0 - + ␣ #`. -/
inductive Flag where
  | zero | minus | plus | space | alt
  deriving DecidableEq, Repr

def Flag.char : Flag → Byte
  | .zero => ch '0'
  | .minus => ch '-'
  | .plus => ch '+'
  | .space => ch ' '
  | .alt => ch '#'

/-- The flags, the width (0 is the same as none) and the precision of a directive. -/
structure Dir where
  flags : List Flag
  width : Nat
  prec : Option Nat

/-- The digits of a number, the highest first. -/
def numeral (base : Nat) (upper : Bool) (n : Nat) : List Byte :=
  if n = 0 then [ch '0']
  else ((Nat.digits base n).map fun d => ch ((if upper then ['0', '1', '2', '3', '4', '5', '6', '7', '8', '9', 'A',
    'B', 'C', 'D', 'E', 'F'] else ['0', '1', '2', '3', '4', '5', '6', '7', '8', '9', 'a', 'b', 'c', 'd', 'e', 'f']).getD
    d ' ')).reverse

def spaces (n : Nat) : List Byte := List.replicate n (ch ' ')
def zeros (n : Nat) : List Byte := List.replicate n (ch '0')

/-- Text in a field of the width. -/
def Dir.field (D : Dir) (s : List Byte) : List Byte :=
  if .minus ∈ D.flags then s ++ spaces (D.width - s.length) else spaces (D.width - s.length) ++ s

/-- The conversions of integers. -/
inductive Conv where
  | d | x | X | o | O | b | B
  deriving DecidableEq, Repr

def Conv.char : Conv → Byte
  | .d => ch 'd' | .x => ch 'x' | .X => ch 'X' | .o => ch 'o' | .O => ch 'O' | .b => ch 'b' | .B => ch 'B'

def Conv.base : Conv → Nat
  | .d => 10 | .x => 16 | .X => 16 | .o => 8 | .O => 8 | .b => 2 | .B => 2

def Conv.upper : Conv → Bool
  | .X => true | .O => true | .B => true | _ => false

/-- The digits printed: none for zero with precision zero. -/
def Dir.digits (D : Dir) (c : Conv) (v : Int) : List Byte :=
  if v = 0 ∧ D.prec = some 0 then [] else numeral c.base c.upper v.natAbs

/-- The sign; `+` and a space are of the decimal conversion only. -/
def Dir.sign (D : Dir) (c : Conv) (v : Int) : List Byte :=
  if v < 0 then [ch '-']
  else if c ≠ .d then []
  else if .plus ∈ D.flags then [ch '+'] else if .space ∈ D.flags then [ch ' '] else []

/-- The prefix of the flag `#`; none for zero. -/
def Dir.pre (D : Dir) (c : Conv) (v : Int) : List Byte :=
  if .alt ∈ D.flags ∧ c ≠ .d ∧ v ≠ 0 then [ch '0', c.char] else []

/-- What a directive prints for an integer. -/
def Dir.int (D : Dir) (c : Conv) (v : Int) : List Byte :=
  let ds := D.digits c v
  let body := zeros (D.prec.getD 0 - ds.length) ++ ds
  let front := D.sign c v ++ D.pre c v
  if .zero ∈ D.flags ∧ .minus ∉ D.flags ∧ D.prec = none then
    front ++ zeros (D.width - (front.length + body.length)) ++ body
  else D.field (front ++ body)

/-- The bytes of a character. -/
def utf8 (c : Char) : List Byte := (String.utf8EncodeChar c).map UInt8.toBitVec

/-- `%c`. -/
def Dir.chr (D : Dir) (c : Char) : List Byte := D.field (utf8 c)

/-- `%s` of a string: no more characters than the precision. -/
def Dir.str (D : Dir) (s : List Char) : List Byte :=
  D.field ((match D.prec with | none => s | some p => s.take p).flatMap utf8)

/-- `%s` of an integer. -/
def Dir.dec (D : Dir) (v : Int) : List Byte :=
  D.field ((if v < 0 then [ch '-'] else []) ++ numeral 10 false v.natAbs)

/-- `%h` of bytes. -/
def Dir.hex (D : Dir) (upper : Bool) (s : List Byte) : List Byte :=
  D.field (s.flatMap fun b => (if b.toNat < 16 then [ch '0'] else []) ++ numeral 16 upper b.toNat)

/-- What a directive looks like: `%`, flags, width, precision, conversion. -/
def Dir.text (D : Dir) (conv : Byte) : List Byte :=
  ch '%' :: D.flags.map Flag.char ++ (if D.width = 0 then [] else numeral 10 false D.width) ++
    (match D.prec with | none => [] | some p => ch '.' :: numeral 10 false p) ++ [conv]

/-- The value of an integer argument. -/
def val (signed : Bool) {w : Nat} (x : BitVec w) : Int := if signed then x.toInt else x.toNat

/-- A piece of a format, with its arguments: a character, `%%`, or a directive. -/
inductive Item where
  | lit (c : Byte)
  | percent
  | int (D : Dir) (c : Conv) (signed : Bool) (w : Nat) (x : BitVec w)
  | chr (D : Dir) (c : Char)
  | str (D : Dir) (s : List Char)
  | dec (D : Dir) (signed : Bool) (w : Nat) (x : BitVec w)
  | hex (D : Dir) (upper : Bool) (s : List Byte)

def Item.text : Item → List Byte
  | .lit c => [c]
  | .percent => [ch '%', ch '%']
  | .int D c _ _ _ => D.text c.char
  | .chr D _ => D.text (ch 'c')
  | .str D _ => D.text (ch 's')
  | .dec D _ _ _ => D.text (ch 's')
  | .hex D upper _ => D.text (if upper then ch 'H' else ch 'h')

def Item.args : Item → List Arg
  | .lit _ => []
  | .percent => []
  | .int _ _ s w x => [.int s w x]
  | .chr _ c => [.int false 32 (BitVec.ofNat 32 c.toNat)]
  | .str _ s => [.str (s.flatMap utf8)]
  | .dec _ s w x => [.int s w x]
  | .hex _ _ s => [.bytes s]

/-- What the piece is to print. -/
def Item.out : Item → List Byte
  | .lit c => [c]
  | .percent => [ch '%']
  | .int D c s _ x => D.int c (val s x)
  | .chr D c => D.chr c
  | .str D s => D.str s
  | .dec D s _ x => D.dec (val s x)
  | .hex D upper s => D.hex upper s

/-- Width and precision are numbers of 31 bits. -/
def Dir.Ok (D : Dir) : Prop := D.width < 2 ^ 31 ∧ ∀ p, D.prec = some p → p < 2 ^ 31

/-- What `C117` leaves out. `prec` and `width`: the digits are put into a buffer of 256 characters. `minus`: the
precision is not used in a field that is filled from the left. `alt`: the zeros of the flag `0` do not
make room for the prefix. `empty`: a field with nothing in it is not filled. -/
structure Clean (D : Dir) (c : Conv) (v : Int) : Prop where
  prec : D.prec.getD 0 ≤ 253
  width : .zero ∈ D.flags → D.width ≤ 253
  minus : ∀ p, .minus ∈ D.flags → D.prec = some p → 0 < p → v ≠ 0 ∧ p ≤ (numeral c.base c.upper v.natAbs).length
  alt : .alt ∈ D.flags → .zero ∈ D.flags → .minus ∉ D.flags → D.prec = none → c ≠ .d → v ≠ 0 →
    D.width ≤ (D.sign c v).length + (numeral c.base c.upper v.natAbs).length
  empty : v = 0 → D.prec = some 0 → D.sign c 0 = [] → D.width = 0

/-- What `C122` leaves out, for a piece. -/
def Item.Good : Item → Prop
  | .lit c => c ≠ ch '%'
  | .percent => True
  | .int D c s w x => D.Ok ∧ w ≤ 128 ∧ Clean D c (val s x)
  | .chr D c => D.Ok ∧ D.width ≤ 1 ∧ c.toNat ∉ [0x7f, 0x7ff, 0xffff]
  | .str D _ => D.Ok
  | .dec D _ w _ => D.Ok ∧ w ≤ 128 ∧ D.prec = none
  | .hex D _ _ => D.Ok

/-- The number returned counts the bytes of the piece: integers without a width, ASCII characters. -/
def Item.Counted : Item → Prop
  | .int D _ _ _ _ => D.width = 0
  | .chr _ c => c.toNat < 128
  | _ => True

end C3.Fmt.Std
