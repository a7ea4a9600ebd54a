import Verif.StdJson.Spec

/-!
# The texts the parser accepts

The grammar of `Spec` made wider: more white space, a comma after the last element, digits missing in
numbers, and surrogates escaped one by one.
-/

set_option autoImplicit false

namespace C3.StdJson
open C3.Utf (Byte nums utf8)

/-- White space, vertical tabs, and slashes. -/
def LaxWs (w : List Byte) : Prop := ∀ c ∈ w, c = 0x20 ∨ c = 9 ∨ c = 10 ∨ c = 13 ∨ c = 11 ∨ c = 0x2f

/-- Numbers: digits may begin with zeros, and may be missing after a sign and after the point. -/
inductive LaxNum : List Byte → Prop where
  | mk (sg ip fr ex : List Byte) :
    (sg = [] ∨ sg = [0x2d]) → (∀ c ∈ ip, Dig c) → (sg = [] → ip ≠ []) →
    (fr = [] ∨ ∃ ds, (∀ c ∈ ds, Dig c) ∧ fr = 0x2e :: ds) →
    (ex = [] ∨ ∃ e s ds, (e = 0x65 ∨ e = 0x45) ∧ (s = [] ∨ s = [0x2b] ∨ s = [0x2d]) ∧ Digits ds ∧ ex = e :: (s ++ ds)) →
    LaxNum (sg ++ ip ++ fr ++ ex)

/-- What is between quotes: escapes with `u` may be of any number. -/
inductive LaxStr : List Byte → List Byte → Prop where
  | nil : LaxStr [] []
  | raw (c : Byte) (t s : List Byte) : 32 ≤ c.toNat → c ≠ 0x22 → c ≠ 0x5c → LaxStr t s → LaxStr (c :: t) (c :: s)
  | esc (e c : Byte) (t s : List Byte) : (e, c) ∈ escapes → LaxStr t s → LaxStr (0x5c :: e :: t) (c :: s)
  | uni (h1 h2 h3 h4 : Byte) (v1 v2 v3 v4 : Nat) (u t s : List Byte) :
    hexVal h1 = some v1 → hexVal h2 = some v2 → hexVal h3 = some v3 → hexVal h4 = some v4 →
    nums u = utf8 (v1 * 4096 + v2 * 256 + v3 * 16 + v4) →
    LaxStr t s → LaxStr (0x5c :: 0x75 :: h1 :: h2 :: h3 :: h4 :: t) (u ++ s)

/-- The texts of an item. -/
inductive LaxText {D : Type} (to_double : List Byte → Option D) : Item D → List Byte → Prop where
  | null : LaxText to_double (.val .null) [0x6e, 0x75, 0x6c, 0x6c]
  | true : LaxText to_double (.val (.bool true)) [0x74, 0x72, 0x75, 0x65]
  | false : LaxText to_double (.val (.bool false)) [0x66, 0x61, 0x6c, 0x73, 0x65]
  | num (t : List Byte) (d : D) : LaxNum t → to_double t = some d → LaxText to_double (.val (.num d)) t
  | str (t s : List Byte) : LaxStr t s → LaxText to_double (.val (.str s)) (0x22 :: t ++ [0x22])
  | emptyArr (t : List Byte) : LaxText to_double (.elems []) t → LaxText to_double (.val .empty) (0x5b :: t ++ [0x5d])
  | emptyObj (t : List Byte) : LaxText to_double (.members []) t → LaxText to_double (.val .empty) (0x7b :: t ++ [0x7d])
  | arr (vs : List (Val D)) (t : List Byte) : vs ≠ [] → LaxText to_double (.elems vs) t →
    LaxText to_double (.val (.arr vs)) (0x5b :: t ++ [0x5d])
  | obj (ms : List (List Byte × Val D)) (t : List Byte) : ms ≠ [] → LaxText to_double (.members ms) t →
    (ms.map (·.1)).Nodup → LaxText to_double (.val (.obj ms)) (0x7b :: t ++ [0x7d])
  | noElem (w : List Byte) : LaxWs w → LaxText to_double (.elems []) w
  | elem (v : Val D) (t w1 w2 : List Byte) : LaxWs w1 → LaxWs w2 → LaxText to_double (.val v) t →
    LaxText to_double (.elems [v]) (w1 ++ t ++ w2)
  | elemsCons (v : Val D) (vs : List (Val D)) (t t' w1 w2 : List Byte) : LaxWs w1 → LaxWs w2 →
    LaxText to_double (.val v) t → LaxText to_double (.elems vs) t' →
    LaxText to_double (.elems (v :: vs)) (w1 ++ t ++ w2 ++ 0x2c :: t')
  | noMember (w : List Byte) : LaxWs w → LaxText to_double (.members []) w
  | member (k : List Byte) (v : Val D) (kt t w1 w2 w3 w4 : List Byte) : LaxWs w1 → LaxWs w2 → LaxWs w3 → LaxWs w4 →
    LaxStr kt k → LaxText to_double (.val v) t →
    LaxText to_double (.members [(k, v)]) (w1 ++ 0x22 :: kt ++ 0x22 :: w2 ++ 0x3a :: w3 ++ t ++ w4)
  | membersCons (k : List Byte) (v : Val D) (ms : List (List Byte × Val D)) (kt t t' w1 w2 w3 w4 : List Byte) :
    LaxWs w1 → LaxWs w2 → LaxWs w3 → LaxWs w4 → LaxStr kt k → LaxText to_double (.val v) t →
    LaxText to_double (.members ms) t' →
    LaxText to_double (.members ((k, v) :: ms)) (w1 ++ 0x22 :: kt ++ 0x22 :: w2 ++ 0x3a :: w3 ++ t ++ w4 ++ 0x2c :: t')

end C3.StdJson
