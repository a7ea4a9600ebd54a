import Verif.DString.Model

/-! # What the operations of a string builder are to do -/

set_option autoImplicit false

namespace C3.DString.Spec

/-- The length does not exceed the capacity. -/
def Valid : Str → Prop
  | none => True
  | some d => d.len ≤ d.buf.length

instance : (s : Str) → Decidable (Valid s)
  | none => .isTrue trivial
  | some d => inferInstanceAs (Decidable (d.len ≤ d.buf.length))

/-- Some occurrences of `needle` in the first list, no two of which overlap, are replaced in the second. -/
inductive Replaced (needle repl : List Byte) : List Byte → List Byte → Prop
  | nil : Replaced needle repl [] []
  | keep (c : Byte) {s t : List Byte} : Replaced needle repl s t → Replaced needle repl (c :: s) (c :: t)
  | hit {s t : List Byte} : Replaced needle repl s t → Replaced needle repl (needle ++ s) (repl ++ t)

/-- All occurrences from left to right are. -/
inductive AllReplaced (needle repl : List Byte) : List Byte → List Byte → Prop
  | nil : AllReplaced needle repl [] []
  | keep (c : Byte) {s t : List Byte} : ¬ needle <+: c :: s → AllReplaced needle repl s t →
      AllReplaced needle repl (c :: s) (c :: t)
  | hit {s t : List Byte} : AllReplaced needle repl s t → AllReplaced needle repl (needle ++ s) (repl ++ t)

/-- The first character of `first :: more` is in the list only where an occurrence of it begins. -/
inductive Apart (first : Byte) (more : List Byte) : List Byte → Prop
  | nil : Apart first more []
  | keep (c : Byte) {s : List Byte} : c ≠ first → Apart first more s → Apart first more (c :: s)
  | hit {s : List Byte} : Apart first more s → Apart first more (first :: more ++ s)

end C3.DString.Spec
