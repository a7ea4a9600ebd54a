import Verif.ByteLiteral.Model
import Verif.Codec.Spec

/-! # Specification vocabulary for byte literals -/

set_option autoImplicit false

namespace C3.ByteLiteral
open C3.Codec (Decodes)

/-- The value of a hexadecimal digit. -/
def hexVal (c : Byte) : Option Nat :=
  if 48 ≤ c.toNat ∧ c.toNat ≤ 57 then some (c.toNat - 48)
  else if 97 ≤ c.toNat ∧ c.toNat ≤ 102 then some (c.toNat - 97 + 10)
  else if 65 ≤ c.toNat ∧ c.toNat ≤ 70 then some (c.toNat - 65 + 10)
  else none

/-- The value of a base64 symbol (RFC 4648, standard alphabet); `=` is not one. -/
def b64Val (c : Byte) : Option Nat :=
  if 65 ≤ c.toNat ∧ c.toNat ≤ 90 then some (c.toNat - 65)
  else if 97 ≤ c.toNat ∧ c.toNat ≤ 122 then some (c.toNat - 97 + 26)
  else if 48 ≤ c.toNat ∧ c.toNat ≤ 57 then some (c.toNat - 48 + 52)
  else if c = 43 then some 62
  else if c = 47 then some 63
  else none

def isSpace (c : Byte) : Prop := c = 32 ∨ c = 9 ∨ c = 10

/-- `text` starts with a hex literal (its opening quote) that denotes `bytes`: digits and white space
up to the closing quote. -/
def HexLiteral (text : List Byte) (bytes : List Byte) : Prop :=
  ∃ q cs rest, text = q :: (cs ++ q :: rest) ∧ q ∉ cs ∧ (∀ c ∈ cs, (∃ v, hexVal c = some v) ∨ isSpace c) ∧
    (cs.filterMap hexVal).length % 2 = 0 ∧ Decodes 4 (cs.filterMap hexVal) bytes

/-- `text` starts with a base64 literal that denotes `bytes`; `cs` are the characters between the
quotes and `rest` is the text behind it.  The number of `=` is that of RFC 4648, or there are none. -/
def B64Literal (text cs rest : List Byte) (bytes : List Byte) : Prop :=
  ∃ q, text = q :: (cs ++ q :: rest) ∧ q ∉ cs ∧
    (∃ body tail, cs = body ++ tail ∧ (∀ c ∈ body, (∃ v, b64Val c = some v) ∨ isSpace c) ∧
      (∀ c ∈ tail, c = 61 ∨ isSpace c) ∧
      (tail.count 61 = 0 ∨ ((body.filterMap b64Val).length + tail.count 61) % 4 = 0) ∧ tail.count 61 ≤ 2) ∧
    (cs.filterMap b64Val).length % 4 ≠ 1 ∧ Decodes 6 (cs.filterMap b64Val) bytes

/-- The number of characters of the base64 alphabet, `=` included. -/
def b64Count (cs : List Byte) : Nat := cs.countP fun c => (b64Val c).isSome || c == 61

/-- The base64 literal is padded or needs no padding. -/
def Complete (cs : List Byte) : Prop := b64Count cs % 4 = 0

/-- The text behind an unpadded literal holds enough base64 characters to fill its last group. -/
def FilledBehind (cs rest : List Byte) : Prop := b64Count cs % 4 + b64Count rest ≥ 4

end C3.ByteLiteral
