import Verif.StdJson.Model
import Verif.Utf.Spec

/-!
# JSON texts and what they denote

The grammar of RFC 8259, apart from escapes of surrogates.  `empty` is what both `[]` and `{}` denote.
-/

set_option autoImplicit false

namespace C3.StdJson
open C3.Utf (Byte nums utf8)

/-- White space: space, tab, line feed, carriage return. -/
def Ws (w : List Byte) : Prop := ∀ c ∈ w, c = 0x20 ∨ c = 9 ∨ c = 10 ∨ c = 13

/-- A digit of base ten. -/
def Dig (c : Byte) : Prop := 48 ≤ c.toNat ∧ c.toNat ≤ 57

/-- Digits, at least one. -/
def Digits (ds : List Byte) : Prop := ds ≠ [] ∧ ∀ c ∈ ds, Dig c

/-- Numbers: a sign, digits without a leading zero, a fraction, an exponent. -/
inductive NumText : List Byte → Prop where
  | mk (sg ip fr ex : List Byte) :
    (sg = [] ∨ sg = [0x2d]) →
    Digits ip → (ip.head? = some 0x30 → ip = [0x30]) →
    (fr = [] ∨ ∃ ds, Digits ds ∧ fr = 0x2e :: ds) →
    (ex = [] ∨ ∃ e s ds, (e = 0x65 ∨ e = 0x45) ∧ (s = [] ∨ s = [0x2b] ∨ s = [0x2d]) ∧ Digits ds ∧ ex = e :: (s ++ ds)) →
    NumText (sg ++ ip ++ fr ++ ex)

/-- The value of a hexadecimal digit. -/
def hexVal (c : Byte) : Option Nat :=
  if 48 ≤ c.toNat ∧ c.toNat ≤ 57 then some (c.toNat - 48)
  else if 65 ≤ c.toNat ∧ c.toNat ≤ 70 then some (c.toNat - 55)
  else if 97 ≤ c.toNat ∧ c.toNat ≤ 102 then some (c.toNat - 87)
  else none

/-- The escapes with one character and what they stand for. -/
def escapes : List (Byte × Byte) :=
  [(0x22, 0x22), (0x5c, 0x5c), (0x2f, 0x2f), (0x62, 8), (0x66, 12), (0x6e, 10), (0x72, 13), (0x74, 9)]

/-- What is between the quotes, and the string it denotes. -/
inductive StrText : List Byte → List Byte → Prop where
  | nil : StrText [] []
  | raw (c : Byte) (t s : List Byte) : 32 ≤ c.toNat → c ≠ 0x22 → c ≠ 0x5c → StrText t s → StrText (c :: t) (c :: s)
  | esc (e c : Byte) (t s : List Byte) : (e, c) ∈ escapes → StrText t s → StrText (0x5c :: e :: t) (c :: s)
  | uni (h1 h2 h3 h4 : Byte) (v1 v2 v3 v4 : Nat) (u t s : List Byte) :
    hexVal h1 = some v1 → hexVal h2 = some v2 → hexVal h3 = some v3 → hexVal h4 = some v4 →
    Utf.IsScalar (v1 * 4096 + v2 * 256 + v3 * 16 + v4) →
    nums u = utf8 (v1 * 4096 + v2 * 256 + v3 * 16 + v4) →
    StrText t s → StrText (0x5c :: 0x75 :: h1 :: h2 :: h3 :: h4 :: t) (u ++ s)

/-- A value, elements between brackets, or members between braces. -/
inductive Item (D : Type) where
  | val (v : Val D)
  | elems (vs : List (Val D))
  | members (ms : List (List Byte × Val D))

/-- The texts of an item, `to_double` giving what numbers denote. -/
inductive Text {D : Type} (to_double : List Byte → Option D) : Item D → List Byte → Prop where
  | null : Text to_double (.val .null) [0x6e, 0x75, 0x6c, 0x6c]
  | true : Text to_double (.val (.bool true)) [0x74, 0x72, 0x75, 0x65]
  | false : Text to_double (.val (.bool false)) [0x66, 0x61, 0x6c, 0x73, 0x65]
  | num (t : List Byte) (d : D) : NumText t → to_double t = some d → Text to_double (.val (.num d)) t
  | str (t s : List Byte) : StrText t s → Text to_double (.val (.str s)) (0x22 :: t ++ [0x22])
  | noElems (w : List Byte) : Ws w → Text to_double (.val .empty) (0x5b :: w ++ [0x5d])
  | noMembers (w : List Byte) : Ws w → Text to_double (.val .empty) (0x7b :: w ++ [0x7d])
  | arr (vs : List (Val D)) (t : List Byte) : Text to_double (.elems vs) t →
    Text to_double (.val (.arr vs)) (0x5b :: t ++ [0x5d])
  | obj (ms : List (List Byte × Val D)) (t : List Byte) : Text to_double (.members ms) t → (ms.map (·.1)).Nodup →
    Text to_double (.val (.obj ms)) (0x7b :: t ++ [0x7d])
  | elem (v : Val D) (t w1 w2 : List Byte) : Ws w1 → Ws w2 → Text to_double (.val v) t →
    Text to_double (.elems [v]) (w1 ++ t ++ w2)
  | elemsCons (v : Val D) (vs : List (Val D)) (t t' w1 w2 : List Byte) : Ws w1 → Ws w2 →
    Text to_double (.val v) t → Text to_double (.elems vs) t' →
    Text to_double (.elems (v :: vs)) (w1 ++ t ++ w2 ++ 0x2c :: t')
  | member (k : List Byte) (v : Val D) (kt t w1 w2 w3 w4 : List Byte) : Ws w1 → Ws w2 → Ws w3 → Ws w4 →
    StrText kt k → Text to_double (.val v) t →
    Text to_double (.members [(k, v)]) (w1 ++ 0x22 :: kt ++ 0x22 :: w2 ++ 0x3a :: w3 ++ t ++ w4)
  | membersCons (k : List Byte) (v : Val D) (ms : List (List Byte × Val D)) (kt t t' w1 w2 w3 w4 : List Byte) :
    Ws w1 → Ws w2 → Ws w3 → Ws w4 → StrText kt k → Text to_double (.val v) t → Text to_double (.members ms) t' →
    Text to_double (.members ((k, v) :: ms)) (w1 ++ 0x22 :: kt ++ 0x22 :: w2 ++ 0x3a :: w3 ++ t ++ w4 ++ 0x2c :: t')

/-- Values whose objects have no name twice, in which no array or object that is not `empty` is
without elements. -/
inductive Good {D : Type} : Val D → Prop where
  | null : Good .null
  | bool (b : Bool) : Good (.bool b)
  | num (d : D) : Good (.num d)
  | str (s : List Byte) : Good (.str s)
  | empty : Good .empty
  | arr (vs : List (Val D)) : vs ≠ [] → (∀ v ∈ vs, Good v) → Good (.arr vs)
  | obj (ms : List (List Byte × Val D)) : ms ≠ [] → (ms.map (·.1)).Nodup → (∀ m ∈ ms, Good m.2) → Good (.obj ms)

end C3.StdJson
