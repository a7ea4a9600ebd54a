import Verif.Url.Model
import Verif.Hex.Spec

/-!
# Percent encoding, RFC 3986

Nothing but the type `Mode` is taken from the model.
-/

set_option autoImplicit false

namespace C3.Url.Spec
open C3.Codec

/-- The characters of a string. -/
def chars (s : String) : List Nat := s.toList.map Char.toNat

/-- Letters, digits and the marks of section 2.3: characters that stand for themselves everywhere. -/
def Unreserved (n : Nat) : Prop :=
  (65 ≤ n ∧ n ≤ 90) ∨ (97 ≤ n ∧ n ≤ 122) ∨ (48 ≤ n ∧ n ≤ 57) ∨ n ∈ chars "-._~"

/-- The delimiters that stand for themselves in a part of an URL. -/
def extra : Mode → List Nat
  | .UNRESERVED => []
  | .PATH => chars "/:@$&+,;="
  | .HOST => chars ":[]!$&'()*+,;="
  | .USERPASS => chars ":$&+,;="
  | .QUERY => []
  | .FRAGMENT => chars "/?:@!$&()*+,;="

/-- Bytes that stand for themselves. -/
def Legal (mode : Mode) (b : Byte) : Prop := Unreserved b.toNat ∨ b.toNat ∈ extra mode

instance (mode : Mode) (b : Byte) : Decidable (Legal mode b) := by
  unfold Legal Unreserved; infer_instance

/-- An upper case hexadecimal digit. -/
def upper (v : Nat) : Byte := BitVec.ofNat 8 (if v < 10 then 48 + v else 65 + (v - 10))

/-- The text of a byte. -/
def text (mode : Mode) (b : Byte) : List Byte :=
  if Legal mode b then [b]
  else if b.toNat = 32 ∧ mode = .QUERY then ascii ['+']
  else ascii ['%'] ++ [upper (b.toNat / 16), upper (b.toNat % 16)]

/-- `Denotes mode s t`: the text `s` stands for the bytes `t`; hexadecimal digits of either case, and other bytes stand for
themselves even where they should have been encoded. -/
inductive Denotes (mode : Mode) : List Byte → List Byte → Prop where
  | nil : Denotes mode [] []
  | byte (c : Byte) (s t : List Byte) : c ≠ 37#8 → ¬ (c = 43#8 ∧ mode = .QUERY) → Denotes mode s t →
      Denotes mode (c :: s) (c :: t)
  | plus (s t : List Byte) : mode = .QUERY → Denotes mode s t → Denotes mode (43#8 :: s) (32#8 :: t)
  | hex (x y : Byte) (h l : Nat) (s t : List Byte) : Hex.digitVal x = some h → Hex.digitVal y = some l → Denotes mode s t →
      Denotes mode (37#8 :: x :: y :: s) (BitVec.ofNat 8 (h * 16 + l) :: t)

/-- A `%` that is not followed by two hexadecimal digits. -/
def BadPercent (s : List Byte) : Prop :=
  ∃ a t, s = a ++ 37#8 :: t ∧ ¬ ∃ x y u, t = x :: y :: u ∧ (Hex.digitVal x).isSome ∧ (Hex.digitVal y).isSome

end C3.Url.Spec
