import Verif.Json.Model
import Mathlib.Data.Rat.Defs

/-!
# JSON texts

Nothing here refers to the functions of the model, only to its data types.
-/

set_option autoImplicit false

namespace C3.Json.Spec

/-- The bytes of an ASCII string. -/
def str (s : String) : List Nat := s.toList.map Char.toNat

/-- White space and, as an extension, comments. -/
inductive Blank : List Nat → Prop where
  | nil : Blank []
  | space (c : Nat) (s : List Nat) : c ∈ [32, 9, 10, 13] → Blank s → Blank (c :: s)
  | line (b s : List Nat) : 10 ∉ b → Blank s → Blank (str "//" ++ (b ++ 10 :: s))
  | block (b s : List Nat) : ¬ str "*/" <:+: b ++ [42] → Blank s → Blank (str "/*" ++ (b ++ (str "*/" ++ s)))

/-- The escapes of one character and their bytes. -/
def escapes : List (Nat × Nat) := [(34, 34), (92, 92), (47, 47), (98, 8), (102, 12), (110, 10), (114, 13), (116, 9)]

def IsHex (c : Nat) : Prop := (48 ≤ c ∧ c ≤ 57) ∨ (65 ≤ c ∧ c ≤ 70) ∨ (97 ≤ c ∧ c ≤ 102)

instance (c : Nat) : Decidable (IsHex c) := inferInstanceAs (Decidable (_ ∨ _))

def hexDigit (c : Nat) : Nat := if c ≤ 57 then c - 48 else if c ≤ 70 then c - 55 else c - 87

/-- The number written by hex digits. -/
def hexValue (ds : List Nat) : Nat := ds.foldl (fun v c => v * 16 + hexDigit c) 0

/-- `Text char s t`: the text `s` between the quotes stands for the bytes `t`, if `\uhhhh` stands for `char` of its
value. -/
inductive Text (char : Nat → Option (List Nat)) : List Nat → List Nat → Prop where
  | nil : Text char [] []
  | plain (c : Nat) (s t : List Nat) : c ∉ [34, 92] → 32 ≤ c → Text char s t → Text char (c :: s) (c :: t)
  | escape (e v : Nat) (s t : List Nat) : (e, v) ∈ escapes → Text char s t → Text char (92 :: e :: s) (v :: t)
  | u (d b s t : List Nat) : d.length = 4 → (∀ c ∈ d, IsHex c) → char (hexValue d) = some b → Text char s t →
      Text char (92 :: 117 :: (d ++ s)) (b ++ t)

def Digits (s : List Nat) : Prop := s ≠ [] ∧ ∀ c ∈ s, 48 ≤ c ∧ c ≤ 57

/-- The number written by decimal digits. -/
def decimal (ds : List Nat) : Nat := ds.foldl (fun v c => v * 10 + (c - 48)) 0

/-- What texts are for. -/
inductive Item where
  | val (v : Obj)
  | elems (vs : List Obj)
  | members (ms : List (List Nat × Obj))

/-- `Renders char item s`: `s` is a text for the value, for the elements of an array, or for the members of an object.
A comma may follow the last of them, as an extension. -/
inductive Renders (char : Nat → Option (List Nat)) : Item → List Nat → Prop where
  | null : Renders char (.val .null) (str "null")
  | true : Renders char (.val (.bool true)) (str "true")
  | false : Renders char (.val (.bool false)) (str "false")
  | str (s t : List Nat) : Text char s t → Renders char (.val (.str t)) (34 :: (s ++ [34]))
  | int (d : List Nat) : Digits d → Renders char (.val (.num (decimal d))) d
  | frac (d e : List Nat) : Digits d → Digits e →
      Renders char (.val (.num (decimal d + decimal e / 10 ^ e.length))) (d ++ 46 :: e)
  | arr0 (w : List Nat) : Blank w → Renders char (.val (.arr [])) (91 :: (w ++ [93]))
  | arr (vs : List Obj) (s : List Nat) : Renders char (.elems vs) s → Renders char (.val (.arr vs)) (91 :: (s ++ [93]))
  | obj0 (w : List Nat) : Blank w → Renders char (.val (.obj [])) (123 :: (w ++ [125]))
  | obj (ms : List (List Nat × Obj)) (s : List Nat) : Renders char (.members ms) s →
      Renders char (.val (.obj ms)) (123 :: (s ++ [125]))
  | elem (w1 w2 s : List Nat) (v : Obj) : Blank w1 → Renders char (.val v) s → Blank w2 →
      Renders char (.elems [v]) (w1 ++ (s ++ w2))
  | elemComma (w1 w2 w3 s : List Nat) (v : Obj) : Blank w1 → Renders char (.val v) s → Blank w2 → Blank w3 →
      Renders char (.elems [v]) (w1 ++ (s ++ (w2 ++ 44 :: w3)))
  | elems (w1 w2 s t : List Nat) (v : Obj) (vs : List Obj) : Blank w1 → Renders char (.val v) s → Blank w2 →
      Renders char (.elems vs) t → Renders char (.elems (v :: vs)) (w1 ++ (s ++ (w2 ++ 44 :: t)))
  | member (w1 w2 w3 w4 k key s : List Nat) (v : Obj) : Blank w1 → Text char k key → Blank w2 → Blank w3 →
      Renders char (.val v) s → Blank w4 →
      Renders char (.members [(key, v)]) (w1 ++ 34 :: (k ++ 34 :: (w2 ++ 58 :: (w3 ++ (s ++ w4)))))
  | memberComma (w1 w2 w3 w4 w5 k key s : List Nat) (v : Obj) : Blank w1 → Text char k key → Blank w2 → Blank w3 →
      Renders char (.val v) s → Blank w4 → Blank w5 →
      Renders char (.members [(key, v)]) (w1 ++ 34 :: (k ++ 34 :: (w2 ++ 58 :: (w3 ++ (s ++ (w4 ++ 44 :: w5))))))
  | members (w1 w2 w3 w4 k key s t : List Nat) (v : Obj) (ms : List (List Nat × Obj)) : Blank w1 → Text char k key →
      Blank w2 → Blank w3 → Renders char (.val v) s → Blank w4 → Renders char (.members ms) t →
      Renders char (.members ((key, v) :: ms)) (w1 ++ 34 :: (k ++ 34 :: (w2 ++ 58 :: (w3 ++ (s ++ (w4 ++ 44 :: t))))))

/-- `\uhhhh` for ASCII other than NUL; nothing else. -/
def ascii (v : Nat) : Option (List Nat) := if 0 < v ∧ v < 128 then some [v] else none

/-- Strings that need no escape. -/
def Plain (s : List Nat) : Prop := ∀ c ∈ s, 32 ≤ c ∧ c ≠ 34 ∧ c ≠ 92

/-- The values that can be written: no `null`, strings and keys without escapes, numbers that `float` renders. -/
inductive Writable (float : Rat → List Nat) : Obj → Prop where
  | bool (b : Bool) : Writable float (.bool b)
  | str (s : List Nat) : Plain s → Writable float (.str s)
  | num (q : Rat) : Renders ascii (.val (.num q)) (float q) → Writable float (.num q)
  | arr (vs : List Obj) : (∀ v ∈ vs, Writable float v) → Writable float (.arr vs)
  | obj (ms : List (List Nat × Obj)) : (∀ m ∈ ms, Plain m.1) → (∀ m ∈ ms, Writable float m.2) → Writable float (.obj ms)

end C3.Json.Spec
