import Verif.Fmt.Spec
import Verif.FmtCheck.Model

/-! # Formats and the types they take

The documented form of formats: text, `%%`, and directives `%[flags][width][.precision]conversion` with width and
precision in digits (`C3.Fmt.Std.Dir`, as in `C117` to `C122`). -/

set_option autoImplicit false

namespace C3.FmtCheck.Spec
open C3.Fmt (Byte ch Arg)
open C3.Fmt.Std

/-- The conversions. -/
inductive Letter where
  | s | c | d | X | x | B | b | o | a | A | F | f | e | E | g | G | p | H | h
  deriving DecidableEq, Repr

def Letter.char : Letter → Byte
  | .s => ch 's' | .c => ch 'c' | .d => ch 'd' | .X => ch 'X' | .x => ch 'x' | .B => ch 'B' | .b => ch 'b'
  | .o => ch 'o' | .a => ch 'a' | .A => ch 'A' | .F => ch 'F' | .f => ch 'f' | .e => ch 'e' | .E => ch 'E'
  | .g => ch 'g' | .G => ch 'G' | .p => ch 'p' | .H => ch 'H' | .h => ch 'h'

/-- Conversions of floating point numbers; the model of the formatter leaves them out. -/
def Letter.Float : Letter → Prop
  | .a | .A | .F | .f | .e | .E | .g | .G => True
  | _ => False

/-- The types a conversion takes. -/
def Letter.Takes : Letter → Ty → Prop
  | .s, _ => True
  | .c, t => t = .integer
  | .p, t => t = .pointer ∨ t = .integer
  | .H, t => t = .chars
  | .h, t => t = .chars
  | _, t => t = .bool ∨ t = .integer ∨ t = .float ∨ t = .pointer

/-- A part of a format. -/
inductive Part where
  | lit (c : Byte)
  | percent
  | dir (D : Dir) (l : Letter)

def Part.text : Part → List Byte
  | .lit c => [c]
  | .percent => [ch '%', ch '%']
  | .dir D l => D.text l.char

/-- The conversions of a part. -/
def Part.letters : Part → List Letter
  | .dir _ l => [l]
  | _ => []

/-- Text does not have `%` in it; widths and precisions are numbers of 31 bits. -/
def Part.Ok : Part → Prop
  | .lit c => c ≠ ch '%'
  | .percent => True
  | .dir D _ => D.Ok

/-- The formatter of the library is modelled for the part. -/
def Part.Modelled : Part → Prop
  | .dir _ l => ¬ l.Float
  | _ => True

/-- Digits fit into the buffer of the formatter (256 characters). -/
def Part.Short : Part → Prop
  | .dir D _ => D.width ≤ 253 ∧ D.prec.getD 0 ≤ 253
  | _ => True

/-- A value of the type, for the arguments of the formatter's model: a `char[]` is a slice, its bytes may be those of an
array as well. -/
def HasType : Arg → Ty → Prop
  | .int _ _ _, t => t = .integer
  | .str _, t => t = .other
  | .bytes _, t => t = .chars ∨ t = .other

/-- The ways for the formatter to fail for which the check is there: too few arguments, arguments of the wrong type, directives
that are none, reading behind the end of the format. What is left is the size of the formatter's buffer, and what the
model of the formatter leaves out. -/
def Mismatch (r : Except C3.Fmt.Stop (List Byte × Nat)) : Prop :=
  ∃ e, r = .error e ∧ e ≠ .fault .internalBufferExceeded ∧ e ≠ .unmodelled

end C3.FmtCheck.Spec
