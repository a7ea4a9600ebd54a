import Verif.ConstInit.LemmasEmit
import Verif.ConstInit.LemmasProgress

/-!
# C58: constants are what their initializers say

A global, a `const` or a literal with a constant initializer holds, in every scalar part of it, the value that its initializer gives to
this part, and zero where it gives none.  A later designator replaces what an earlier one stored, and only that, save that other members
of a union are lost.
-/

set_option autoImplicit false

namespace C3.ConstInit

variable {α : Type}

/-- An initializer that sema accepts, and that has none of the three forms below, is emitted as a constant of the type, and it holds what
the initializer says.  Missing: the initializers that are not `plain`, for which it is false. -/
theorem C58_content_partial (t : Ty) (i : Init α) (h : (build t i []).isSome = true) (hp : plain t i = true) :
    ∃ n0, ∀ n, n0 ≤ n → ∃ c, compile n t i = some c ∧ Fits t c ∧ ∀ q, read c q = denote t i q := by
  obtain ⟨⟨v, h'⟩, hb⟩ := Option.isSome_iff_exists.1 h
  obtain ⟨-, ⟨F, ov, -⟩, -, -⟩ := build_spec i t [] v h' hb hp
  obtain ⟨-, F', o, -⟩ := cellOf_spec ov
  obtain ⟨n0, h0⟩ := o.emits
  refine ⟨n0, fun n hn => ?_⟩
  obtain ⟨c, hc, hr, hf⟩ := h0 n hn
  exact ⟨c, by simp [compile, hb, hc], hf, fun q => by rw [hr]⟩

/-- An initializer that fits its type is accepted, and no assertion fails, if no designator leads into an array that was given by a list.
Missing: those where one does (see `C58_index_after_list`), and the forms that are not `plain`. -/
theorem C58_accepted_partial (t : Ty) (i : Init α) (ht : typed t i = true) (hs : settled t i = true) (hp : plain t i = true) :
    (build t i []).isSome = true := by
  obtain ⟨v, h', hb⟩ := build_some i t [] ht hp hs
  simp [hb]

/-- An initializer that does not fit its type is not accepted.  Missing: ranges that end behind the array, see `C58_range_too_long`. -/
theorem C58_rejected_partial (t : Ty) (i : Init α) (ht : typed t i = false) (hp : plain t i = true) : build t i [] = none := by
  cases hb : build t i [] with
  | none => rfl
  | some r => rw [build_typed i t [] r hb hp] at ht; cases ht

/-- `struct { int x; struct { int a, b; } s; union { int u; int[2] v; } w; int[8] arr; }` -/
def exTy : Ty := .struct [.scalar, .struct [.scalar, .scalar], .union [.scalar, .array 2 .scalar], .array 8 .scalar]

/-- `{ .x = 1, .s = { 2, 3 }, .s.b = 4, .w.u = 5, .w.v[1] = 6, .arr[5] = 7, .arr[1..2] = 8, .arr[6] = 9 }` -/
def exInit : Init Nat := .desig (.cons [.field 0] (.scalar 1) (.cons [.field 1] (.list (.cons (.scalar 2) (.cons (.scalar 3) .nil)))
  (.cons [.field 1, .field 1] (.scalar 4) (.cons [.field 2, .field 0] (.scalar 5) (.cons [.field 2, .field 1, .index 1] (.scalar 6)
  (.cons [.field 3, .index 5] (.scalar 7) (.cons [.field 3, .range 1 2] (.scalar 8) (.cons [.field 3, .index 6] (.scalar 9) .nil))))))))

example : (build exTy exInit []).isSome = true ∧ plain exTy exInit = true := by decide +kernel

example : [[0], [1, 0], [1, 1], [2, 0], [2, 1, 0], [2, 1, 1], [3, 0], [3, 1], [3, 2], [3, 5], [3, 6], [3, 7]].map (denote exTy exInit) =
    [some 1, some 2, some 4, none, none, some 6, none, some 8, some 8, some 7, some 9, none] := by decide +kernel

example : (compile 4 exTy exInit).map (fun c => [[2, 1, 1], [3, 0], [3, 2], [3, 5], [3, 7]].map (read c)) =
    some [some 6, none, some 8, some 7, none] := by decide +kernel

example : typed exTy exInit = true ∧ settled exTy exInit = true := by decide +kernel

example : typed exTy (.desig (.cons [.field 3, .index 8] (.scalar 1) .nil)) = false ∧
    plain exTy (.desig (.cons [.field 3, .index 8] (.scalar 1) .nil)) = true := by decide +kernel

/-! ## Where it fails -/

/-- `{ .x = 5, .s = {} }`: the `{}` clears all of the struct, so `x` is zero. -/
theorem C58_blank_member_clears :
    ∃ (t : Ty) (i : Init Nat) (c : Const Nat), compile 2 t i = some c ∧ denote t i [0] = some 5 ∧ read c [0] = none := by
  refine ⟨.struct [.scalar, .struct [.scalar]], .desig (.cons [.field 0] (.scalar 5) (.cons [.field 1] .empty .nil)), .zero, ?_, ?_, ?_⟩
  · rfl
  · decide +kernel
  · decide +kernel

/-- `{ [0..1] = { .a = 1, .b = 2 }, [0].a = 3 }`: the elements share their members, so `a` of element 1 is 3 too. -/
theorem C58_range_shares :
    ∃ (t : Ty) (i : Init Nat), denote t i [1, 0] = some 1 ∧ (compile 3 t i).map (read · [1, 0]) = some (some 3) := by
  refine ⟨.array 2 (.struct [.scalar, .scalar]), .desig (.cons [.range 0 1] (.list (.cons (.scalar 1) (.cons (.scalar 2) .nil)))
    (.cons [.index 0, .field 0] (.scalar 3) .nil)), ?_, ?_⟩
  · decide +kernel
  · decide +kernel

/-- `{ [0..2] = 7 }` for an `int[2]` is accepted; the constant has three elements. -/
theorem C58_range_too_long :
    ∃ (len : Nat) (i : Init Nat) (ps : List (Const Nat)), compile 2 (.array len .scalar) i = some (.array ps) ∧ width ps = len + 1 := by
  refine ⟨2, .desig (.cons [.range 0 2] (.scalar 7) .nil), [.value (some 7), .value (some 7), .value (some 7)], ?_, ?_⟩
  · rfl
  · decide +kernel

/-- `{ .arr = { 1, 2 }, .arr[1] = 3 }`: sema accepts every designator and value, but the store takes elements of a full array for indexed ones. -/
theorem C58_index_after_list :
    ∃ (t : Ty) (ds : Desigs Nat) (l : List (List Step × Val Nat)) (h : Heap Nat),
      buildDesigs t ds [] = some (l, h) ∧ plainDesigs t ds = true ∧ applyAll h.length l (h ++ [(t, .zero)]) = none := by
  refine ⟨.struct [.array 2 .scalar], .cons [.field 0] (.list (.cons (.scalar 1) (.cons (.scalar 2) .nil)))
    (.cons [.field 0, .index 1] (.scalar 3) .nil), [([.field 0], .init 2), ([.field 0, .index 1], .scalar (some 3))],
    [(.scalar, .value (some 1)), (.scalar, .value (some 2)), (.array 2 .scalar, .arrayFull [0, 1])], ?_, ?_, ?_⟩
  · rfl
  · decide +kernel
  · rfl

end C3.ConstInit
