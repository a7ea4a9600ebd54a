/-!
# What searching, trimming and splitting mean

Nothing here refers to the model.
-/

set_option autoImplicit false

namespace C3.Str.Spec

variable {α : Type}

/-- `sub` stands in `s` at the index `i`. -/
def At (s sub : List α) (i : Nat) : Prop := ∃ a b, s = a ++ (sub ++ b) ∧ a.length = i

/-- `Pieces d s ps`: cutting `s` at the delimiters `d`, found from the left and without overlap, gives `ps`. -/
inductive Pieces (d : List α) : List α → List (List α) → Prop where
  | last (s : List α) : (∀ i, ¬ At s d i) → Pieces d s [s]
  | cut (p t : List α) (ps : List (List α)) : (∀ i < p.length, ¬ At (p ++ (d ++ t)) d i) → Pieces d t ps →
      Pieces d (p ++ (d ++ t)) (p :: ps)

/-- The same with at most `n` pieces, where the last one is the rest, whatever it holds. -/
inductive PiecesMax (d : List α) : Nat → List α → List (List α) → Prop where
  | rest (s : List α) : PiecesMax d 1 s [s]
  | last (n : Nat) (s : List α) : (∀ i, ¬ At s d i) → PiecesMax d (n + 2) s [s]
  | cut (n : Nat) (p t : List α) (ps : List (List α)) : (∀ i < p.length, ¬ At (p ++ (d ++ t)) d i) → PiecesMax d (n + 1) t ps →
      PiecesMax d (n + 2) (p ++ (d ++ t)) (p :: ps)

/-- The pieces with the delimiter between them. -/
def interleave (d : List α) : List (List α) → List α
  | [] => []
  | [p] => p
  | p :: q :: ps => p ++ (d ++ interleave d (q :: ps))

end C3.Str.Spec
