import Verif.Vec.Lemmas

/-! # C20: growable vectors behave like sequences -/

set_option autoImplicit false

namespace C3.Vec
open C3.Codec (store)

/-- C20: starting from `NULL`, any history of fewer than 2^31 calls within their preconditions stays
inside its allocations and gives the results of the sequence operations; afterwards the vector holds
that sequence. -/
theorem C20_history (ops : List Op) (s : List Elem) (rs : List (List Elem)) (hl : ops.length < 2 ^ 31)
    (hs : specRun [] ops = some (s, rs)) : ∃ v, run none ops = some (v, rs) ∧ step v .foreach = some (v, s) := by
  obtain ⟨v, h1, h2⟩ := run_refines ops none [] s rs (Or.inl ⟨rfl, rfl⟩) (by simpa using hl) hs
  refine ⟨v, h1, ?_⟩
  rw [step, h2.size]
  rcases h2 with ⟨rfl, rfl⟩ | ⟨b, rest, rfl, h⟩
  · rfl
  · have := foreach_spec s [] rest b (by rw [h.data]; rfl)
    rw [List.length_nil] at this
    rw [this]
    rfl

example : specRun [] [.add 1#64, .add 2#64, .insertFirst 3#64, .insertAt 1#32 4#64, .foreach, .eraseAt 2#32, .eraseFront 1#32,
    .pop, .last, .size, .resize 0#32, .last] =
      some ([], [[], [], [], [], [3#64, 4#64, 1#64, 2#64], [], [], [], [4#64], [1#64], [], [0#64]]) := by decide

/-- C20: the same from `VECNEW(T, capacity)`, for a capacity other than 0.

Missing for the full property: capacity 0, for which it is false (`C20_zero_capacity`). -/
theorem C20_reserved_partial (capacity : Nat) (h0 : 0 < capacity) (hc : capacity < 0xFFFFFFFF) (ops : List Op) (s : List Elem)
    (rs : List (List Elem)) (hl : ops.length < 2 ^ 31) (hs : specRun [] ops = some (s, rs)) :
    ∃ b v, vecNew capacity = some b ∧ run (some b) ops = some (v, rs) := by
  obtain ⟨b, rest, g1, g2, -⟩ := vecNew_holds capacity h0 hc
  obtain ⟨v, h1, h2⟩ := run_refines ops (some b) [] s rs (rep_some g2) (by simpa using hl) hs
  exact ⟨b, v, g1, h1⟩

example : specRun [] [.add 1#64, .add 2#64, .add 3#64, .get 2#32] = some ([1#64, 2#64, 3#64], [[], [], [], [3#64]]) := by decide

/-- C20 fails after `VECNEW(T, 0)`: the first `vec_add` doubles capacity 0 to 0 and its element happens to
fit the padding, and the second one sees a size other than the capacity, does not grow, and writes past
the block, whatever is added. -/
theorem C20_zero_capacity (x y : Elem) : ∃ b b1, vecNew 0 = some b ∧ vecAdd (some b) x = some b1 ∧ vecAdd (some b1) y = none :=
  ⟨_, ⟨1#32, 0#32, [x]⟩, rfl, rfl, by simp [vecAdd, expand, store]⟩

example : specRun [] [.add 1#64, .add 2#64] = some ([1#64, 2#64], [[], []]) := by decide

/-- C20: `vec_resize` checks nothing: one step beyond the block's room, the element it makes visible is
read outside the allocation. -/
theorem C20_resize_beyond (capacity : Nat) (b : Block) (n : BitVec 32) (h : vecNew capacity = some b) (hn : room capacity < n.toNat) :
    run (some b) [.resize n, .foreach] = none := by
  unfold vecNew at h
  split at h
  · simp only [Option.some.injEq] at h
    subst h
    have hgen : ∀ (m i : Nat) (bl : Block), bl.data.length < i + m → foreachIdx (some bl) i m = none ∨ bl.data.length < i := by
      intro m
      induction m with
      | zero => intro i bl hb; right; omega
      | succ m ih =>
        intro i bl hb
        by_cases hi : bl.data.length < i
        · exact Or.inr hi
        · left
          rw [foreachIdx, vecGet]
          simp only [Option.bind_eq_bind, Option.bind_some]
          by_cases hi2 : i < bl.data.length
          · rw [List.getElem?_eq_getElem hi2]
            rcases ih (i + 1) bl (by omega) with h | h
            · rw [Option.bind_some, h]; rfl
            · omega
          · rw [List.getElem?_eq_none (by omega)]; rfl
    rcases hgen n.toNat 0 ⟨n, BitVec.ofNat 32 capacity, List.replicate (room capacity) 0#64⟩ (by
      show (List.replicate (room capacity) 0#64).length < 0 + n.toNat
      simp; omega) with h | h
    · simp only [run, step, vecResize, vecSize, h, Option.bind_eq_bind, Option.bind_some, Option.map_none, Option.bind_none]
    · simp at h
  · simp at h

example : room 4 = 5 := rfl

end C3.Vec
