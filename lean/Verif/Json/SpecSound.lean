import Verif.Json.Spec

/-!
# The texts the JSON reader may accept

A superset of JSON: comments, trailing commas, vertical tabs, control characters in strings, and numbers
with a dropped sign or without digits.  Nothing here refers to the functions of the model.
-/

set_option autoImplicit false

namespace C3.Json.Spec

/-- White space, including the vertical tab, and comments. -/
inductive Gap : List Nat → Prop where
  | nil : Gap []
  | space (c : Nat) (s : List Nat) : c ∈ [32, 9, 10, 11, 13] → Gap s → Gap (c :: s)
  | line (b s : List Nat) : 10 ∉ b → Gap s → Gap (str "//" ++ (b ++ 10 :: s))
  | block (b s : List Nat) : ¬ str "*/" <:+: b ++ [42] → Gap s → Gap (str "/*" ++ (b ++ (str "*/" ++ s)))

/-- A comment that runs to the end of the text. -/
def OpenComment (s : List Nat) : Prop :=
  (∃ b, 10 ∉ b ∧ s = str "//" ++ b) ∨ ∃ b, ¬ str "*/" <:+: b ∧ s = str "/*" ++ b

/-- `Chars s t`: the text `s` between the quotes stands for the bytes `t`, `\uhhhh` for the last byte of its
value. -/
inductive Chars : List Nat → List Nat → Prop where
  | nil : Chars [] []
  | plain (c : Nat) (s t : List Nat) : c ∉ [34, 92] → Chars s t → Chars (c :: s) (c :: t)
  | escape (e v : Nat) (s t : List Nat) : (e, v) ∈ escapes → Chars s t → Chars (92 :: e :: s) (v :: t)
  | u (d s t : List Nat) : d.length = 4 → (∀ c ∈ d, IsHex c) → Chars s t →
      Chars (92 :: 117 :: (d ++ s)) (hexValue d % 256 :: t)

/-- `t` up to its first zero byte. -/
def upToZero (t : List Nat) : List Nat := t.takeWhile (· ≠ 0)

/-- Numbers: a sign without meaning, then digits, of which there may be none after the sign, and a
fraction, of which the digits may be missing. -/
inductive Number : Rat → List Nat → Prop where
  | int (sign d : List Nat) : sign ∈ [[], [45]] → sign ++ d ≠ [] → (∀ c ∈ d, 48 ≤ c ∧ c ≤ 57) →
      Number (decimal d) (sign ++ d)
  | frac (sign d e : List Nat) : sign ∈ [[], [45]] → sign ++ d ≠ [] → (∀ c ∈ d, 48 ≤ c ∧ c ≤ 57) →
      (∀ c ∈ e, 48 ≤ c ∧ c ≤ 57) →
      Number (decimal d + decimal e / 10 ^ e.length) (sign ++ d ++ 46 :: e)

/-- `Loose item s`: `s` is an accepted text for the value, the elements of an array, or the members of an
object. -/
inductive Loose : Item → List Nat → Prop where
  | null : Loose (.val .null) (str "null")
  | true : Loose (.val (.bool true)) (str "true")
  | false : Loose (.val (.bool false)) (str "false")
  | str (s t : List Nat) : Chars s t → Loose (.val (.str (upToZero t))) (34 :: (s ++ [34]))
  | num (q : Rat) (s : List Nat) : Number q s → Loose (.val (.num q)) s
  | arr (vs : List Obj) (s : List Nat) : Loose (.elems vs) s → Loose (.val (.arr vs)) (91 :: (s ++ [93]))
  | obj (ms : List (List Nat × Obj)) (s : List Nat) : Loose (.members ms) s →
      Loose (.val (.obj ms)) (123 :: (s ++ [125]))
  | noElem (w : List Nat) : Gap w → Loose (.elems []) w
  | elem (w1 w2 s : List Nat) (v : Obj) : Gap w1 → Loose (.val v) s → Gap w2 → Loose (.elems [v]) (w1 ++ (s ++ w2))
  | elems (w1 w2 s t : List Nat) (v : Obj) (vs : List Obj) : Gap w1 → Loose (.val v) s → Gap w2 →
      Loose (.elems vs) t → Loose (.elems (v :: vs)) (w1 ++ (s ++ (w2 ++ 44 :: t)))
  | noMember (w : List Nat) : Gap w → Loose (.members []) w
  | member (w1 w2 w3 w4 k key s : List Nat) (v : Obj) : Gap w1 → Chars k key → Gap w2 → Gap w3 →
      Loose (.val v) s → Gap w4 →
      Loose (.members [(upToZero key, v)]) (w1 ++ 34 :: (k ++ 34 :: (w2 ++ 58 :: (w3 ++ (s ++ w4)))))
  | members (w1 w2 w3 w4 k key s t : List Nat) (v : Obj) (ms : List (List Nat × Obj)) : Gap w1 → Chars k key →
      Gap w2 → Gap w3 → Loose (.val v) s → Gap w4 → Loose (.members ms) t →
      Loose (.members ((upToZero key, v) :: ms))
        (w1 ++ 34 :: (k ++ 34 :: (w2 ++ 58 :: (w3 ++ (s ++ (w4 ++ 44 :: t))))))

/-- What may come after the value: white space, and then the end, a comment that is not closed, or
anything that begins like a token. -/
def Trail (r : List Nat) : Prop :=
  ∃ w t, Gap w ∧ r = w ++ t ∧ (t = [] ∨ OpenComment t ∨ ∃ c g, t = c :: g ∧
    (c ∈ str "{}[]:,\"-tfn" ∨ (48 ≤ c ∧ c ≤ 57)))

end C3.Json.Spec
