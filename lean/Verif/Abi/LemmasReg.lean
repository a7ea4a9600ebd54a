import Verif.Abi.LemmasMem

/-! # Lemmas about the types of registers -/

set_option autoImplicit false

namespace C3.Abi
open Std

/-! ### The numbers of a value -/

theorem leafMs_low (s a : Nat) : ∀ (f : Nat) (ms : Ms), ValidMs false s f ms → ∀ l ∈ leavesMs ms a, a + f ≤ l.off
  | _, .nil, _, l, hl => by cases hl
  | f, .cons o t rest, h, l, hl => by
    rw [leavesMs] at hl
    have h3 : f ≤ o := h.2.2.1
    rcases List.mem_append.1 hl with h1 | h1
    · have := (leaf_bounds t (a + o) h.1 l h1).1
      omega
    · have := leafMs_low s a _ rest h.2.2.2 l h1
      omega

mutual
theorem leaf_aligned : ∀ (t : Ty) (a : Nat), Valid t → aligned t a → a % align t = 0 → ∀ l ∈ leaves t a, l.off % l.size = 0
  | .void, _, h, _, _ => h.elim
  | .int _ b, a, _, _, h2 => by
    intro l hl
    rw [leaves] at hl
    cases List.mem_singleton.1 hl
    exact h2
  | .ptr, a, _, _, h2 => by
    intro l hl
    rw [leaves] at hl
    cases List.mem_singleton.1 hl
    exact h2
  | .i128, a, _, _, h2 => by
    intro l hl
    rw [leaves] at hl
    cases List.mem_singleton.1 hl
    exact h2
  | .f128, a, _, _, h2 => by
    intro l hl
    rw [leaves] at hl
    cases List.mem_singleton.1 hl
    exact h2
  | .float k, a, _, _, h2 => by
    intro l hl
    rw [leaves] at hl
    cases List.mem_singleton.1 hl
    exact h2
  | .slice, a, _, _, h2 => by
    have : a % 8 = 0 := h2
    simp [leaves]; omega
  | .any, a, _, _, h2 => by
    have : a % 8 = 0 := h2
    simp [leaves]; omega
  | .agg u s al fl ms, a, h, h1, _ => leafMs_aligned ms a u s 0 h.2.2.2 h1
  | .array e n, a, h, h1, _ => by
    intro l hl
    rw [leaves] at hl
    obtain ⟨i, hi, hl⟩ := List.mem_flatMap.1 hl
    obtain ⟨z1, z2, z3⟩ := valid_size e h.1
    exact leaf_aligned e _ h.1 (h1.2 i (List.mem_range.1 hi))
      (by rw [Nat.add_mod, h1.1, Nat.mul_mod, z1, Nat.mul_zero, Nat.zero_mod, Nat.add_zero, Nat.zero_mod]) l hl
theorem leafMs_aligned : ∀ (ms : Ms) (a : Nat) (u : Bool) (s f : Nat), ValidMs u s f ms → alignedMs ms a → ∀ l ∈ leavesMs ms a, l.off % l.size = 0
  | .nil, _, _, _, _, _, _ => by intro l hl; cases hl
  | .cons o t rest, a, u, s, f, h, h1 => by
    intro l hl
    rw [leavesMs] at hl
    rcases List.mem_append.1 hl with h2 | h2
    · exact leaf_aligned t _ h.1 h1.1.2 h1.1.1 l h2
    · exact leafMs_aligned rest a u s _ h.2.2.2 h1.2 l h2
end

mutual
/-- A value starts with a number. -/
theorem leaf_first : ∀ (t : Ty) (a : Nat), Valid t → ∃ l ∈ leaves t a, l.off = a
  | .void, _, h => h.elim
  | .int _ b, a, _ => ⟨_, by rw [leaves]; exact List.mem_cons_self, rfl⟩
  | .ptr, a, _ => ⟨_, by rw [leaves]; exact List.mem_cons_self, rfl⟩
  | .i128, a, _ => ⟨_, by rw [leaves]; exact List.mem_cons_self, rfl⟩
  | .f128, a, _ => ⟨_, by rw [leaves]; exact List.mem_cons_self, rfl⟩
  | .float _, a, _ => ⟨_, by rw [leaves]; exact List.mem_cons_self, rfl⟩
  | .slice, a, _ => ⟨_, by rw [leaves]; exact List.mem_cons_self, rfl⟩
  | .any, a, _ => ⟨_, by rw [leaves]; exact List.mem_cons_self, rfl⟩
  | .agg u s al fl ms, a, h => leafMs_first ms a u s h.2.2.1 h.2.2.2
  | .array e n, a, h => by
    obtain ⟨l, h1, h2⟩ := leaf_first e (a + 0 * size e) h.1
    refine ⟨l, ?_, by omega⟩
    rw [leaves]
    exact List.mem_flatMap.2 ⟨0, List.mem_range.2 h.2, h1⟩
theorem leafMs_first : ∀ (ms : Ms) (a : Nat) (u : Bool) (s : Nat), starts ms → ValidMs u s 0 ms → ∃ l ∈ leavesMs ms a, l.off = a
  | .nil, _, _, _, h, _ => h.elim
  | .cons o t rest, a, u, s, h, h1 => by
    have h0 : o = 0 := h
    obtain ⟨l, h2, h3⟩ := leaf_first t (a + o) h1.1
    refine ⟨l, ?_, by omega⟩
    rw [leavesMs]
    exact List.mem_append_left _ h2
end

abbrev Before (x y : Leaf) : Prop := x.off + x.size ≤ y.off

mutual
/-- The numbers of a value without unions are one behind the other. -/
theorem leaves_order : ∀ (t : Ty) (a : Nat), Valid t → plain t → (leaves t a).Pairwise Before
  | .void, _, h, _ => h.elim
  | .int _ b, a, _, _ => by rw [leaves]; exact List.pairwise_singleton _ _
  | .ptr, a, _, _ => by rw [leaves]; exact List.pairwise_singleton _ _
  | .i128, a, _, _ => by rw [leaves]; exact List.pairwise_singleton _ _
  | .f128, a, _, _ => by rw [leaves]; exact List.pairwise_singleton _ _
  | .float _, a, _, _ => by rw [leaves]; exact List.pairwise_singleton _ _
  | .slice, a, _, _ => by simp [leaves, Before]
  | .any, a, _, _ => by simp [leaves, Before]
  | .agg u s al fl ms, a, h, hp => by
    obtain ⟨rfl, hp⟩ := hp
    exact leavesMs_order ms a s 0 h.2.2.2 hp
  | .array e n, a, h, hp => by
    rw [leaves]
    refine List.pairwise_flatMap.2 ⟨fun i _ => leaves_order e _ h.1 hp, ?_⟩
    refine List.Pairwise.imp ?_ (List.pairwise_lt_range)
    intro i j hij x hx y hy
    have h1 := leaf_bounds e _ h.1 x hx
    have h2 := leaf_bounds e _ h.1 y hy
    have : (i + 1) * size e ≤ j * size e := Nat.mul_le_mul_right _ hij
    rw [Nat.add_mul] at this
    show x.off + x.size ≤ y.off
    omega
theorem leavesMs_order : ∀ (ms : Ms) (a s f : Nat), ValidMs false s f ms → plainMs ms → (leavesMs ms a).Pairwise Before
  | .nil, _, _, _, _, _ => by rw [leavesMs]; exact List.Pairwise.nil
  | .cons o t rest, a, s, f, h, hp => by
    rw [leavesMs]
    refine List.pairwise_append.2 ⟨leaves_order t _ h.1 hp.1, leavesMs_order rest a s _ h.2.2.2 hp.2, ?_⟩
    intro x hx y hy
    have h1 := leaf_bounds t _ h.1 x hx
    have h2 := leafMs_low s a _ rest h.2.2.2 y hy
    show x.off + x.size ≤ y.off
    omega
end

theorem order_apart : ∀ {L : List Leaf} {x y : Leaf}, L.Pairwise Before → x ∈ L → y ∈ L → x = y ∨ Before x y ∨ Before y x
  | [], _, _, _, hx, _ => by cases hx
  | z :: L, x, y, h, hx, hy => by
    obtain ⟨h1, h2⟩ := List.pairwise_cons.1 h
    rcases List.mem_cons.1 hx with hx | hx
    · rcases List.mem_cons.1 hy with hy | hy
      · exact Or.inl (hx.trans hy.symm)
      · exact Or.inr (Or.inl (hx ▸ h1 y hy))
    · rcases List.mem_cons.1 hy with hy | hy
      · exact Or.inr (Or.inr (hy ▸ h1 x hx))
      · exact order_apart h2 hx hy

/-! ### Padding -/

theorem noDataLoop_sound (f : Nat → Nat → Bool) (g : Nat → List Leaf) (es start stop a : Nat)
    (hb : ∀ i, ∀ l ∈ g i, a + i * es ≤ l.off ∧ 0 < l.size)
    (hf : ∀ i x y, f x y = true → ∀ l ∈ g i, l.off + l.size ≤ a + i * es + x ∨ a + i * es + y ≤ l.off) :
    ∀ (n i : Nat), noDataLoop f es start stop n i = true →
    ∀ j, j < n → ∀ l ∈ g (i + j), l.off + l.size ≤ a + start ∨ a + stop ≤ l.off
  | 0, _, _, j, hj, _, _ => absurd hj (Nat.not_lt_zero _)
  | n + 1, i, h, j, hj, l, hl => by
    unfold noDataLoop at h
    by_cases c : i * es ≥ stop
    · have h1 := (hb _ l hl).1
      rw [Nat.add_mul] at h1
      right; omega
    · rw [if_neg c] at h
      by_cases d : f (if i * es < start then start - i * es else 0) (stop - i * es) = false
      · rw [if_pos d] at h; cases h
      · rw [if_neg d] at h
        cases j with
        | zero =>
          have h2 := hf i _ _ (by simpa using d) l hl
          have h3 := hb i l hl
          by_cases e : i * es < start
          · rw [if_pos e] at h2
            omega
          · rw [if_neg e] at h2
            omega
        | succ j =>
          refine noDataLoop_sound f g es start stop a hb hf n (i + 1) h j (by omega) l ?_
          rw [Nat.add_assoc, Nat.add_comm 1 j]
          exact hl

theorem noData_flat {t : Ty} {a start stop : Nat} (hv : Valid t) (h : decide (size t ≤ start) = true) :
    ∀ l ∈ leaves t a, l.off + l.size ≤ a + start ∨ a + stop ≤ l.off := by
  intro l hl
  have := leaf_bounds t a hv l hl
  have := of_decide_eq_true h
  left; omega

mutual
theorem noData_sound : ∀ (t : Ty) (a start stop : Nat), Valid t → noData t start stop = true →
    ∀ l ∈ leaves t a, l.off + l.size ≤ a + start ∨ a + stop ≤ l.off
  | .void, _, _, _, h, _ => h.elim
  | .int _ _, _, _, _, h, hn => by rw [noData] at hn <;> first | exact noData_flat h hn | simp
  | .ptr, _, _, _, h, hn => by rw [noData] at hn <;> first | exact noData_flat h hn | simp
  | .i128, _, _, _, h, hn => by rw [noData] at hn <;> first | exact noData_flat h hn | simp
  | .f128, _, _, _, h, hn => by rw [noData] at hn <;> first | exact noData_flat h hn | simp
  | .float _, _, _, _, h, hn => by rw [noData] at hn <;> first | exact noData_flat h hn | simp
  | .slice, _, _, _, h, hn => by rw [noData] at hn <;> first | exact noData_flat h hn | simp
  | .any, _, _, _, h, hn => by rw [noData] at hn <;> first | exact noData_flat h hn | simp
  | .agg u s al fl ms, a, start, stop, h, hn => by
    rw [noData] at hn
    by_cases c : s ≤ start
    · exact noData_flat (t := .agg u s al fl ms) h (decide_eq_true c)
    · rw [if_neg c] at hn
      exact noDataMembers_sound ms a start stop u s 0 h.2.2.2 hn
  | .array e n, a, start, stop, h, hn => by
    rw [noData] at hn
    by_cases c : size e * n ≤ start
    · exact noData_flat (t := .array e n) h (decide_eq_true c)
    · rw [if_neg c] at hn
      intro l hl
      rw [leaves] at hl
      obtain ⟨i, hi, hl⟩ := List.mem_flatMap.1 hl
      have := noDataLoop_sound (noData e) (fun i => leaves e (a + i * size e)) (size e) start stop a
        (fun i l hl => by
          have := leaf_bounds e _ h.1 l hl
          exact ⟨this.1, this.2.2⟩)
        (fun i x y hxy => noData_sound e _ x y h.1 hxy) n 0 hn i (List.mem_range.1 hi)
      rw [Nat.zero_add] at this
      exact this l hl
theorem noDataMembers_sound : ∀ (ms : Ms) (a start stop : Nat) (u : Bool) (s f : Nat), ValidMs u s f ms → noDataMembers start stop ms = true →
    ∀ l ∈ leavesMs ms a, l.off + l.size ≤ a + start ∨ a + stop ≤ l.off
  | .nil, _, _, _, _, _, _, _, _ => by intro l hl; cases hl
  | .cons o t rest, a, start, stop, u, s, f, h, hn => by
    intro l hl
    rw [noDataMembers] at hn
    rw [leavesMs] at hl
    by_cases c : o ≥ stop
    · right
      rcases List.mem_append.1 hl with hl | hl
      · have := (leaf_bounds t _ h.1 l hl).1
        omega
      · cases u with
        | false =>
          have := leafMs_low s a _ rest h.2.2.2 l hl
          omega
        | true =>
          have h3 : o = 0 := h.2.2.1
          have := (leafMs_bounds rest a _ _ _ h.2.2.2 l hl).1
          omega
    · rw [if_neg c] at hn
      by_cases d : noData t (if o < start then start - o else 0) (stop - o) = false
      · rw [if_pos d] at hn; cases hn
      · rw [if_neg d] at hn
        rcases List.mem_append.1 hl with hl | hl
        · have h2 := noData_sound t (a + o) _ _ h.1 (by simpa using d) l hl
          have h3 := leaf_bounds t _ h.1 l hl
          by_cases e : o < start
          · rw [if_pos e] at h2
            omega
          · rw [if_neg e] at h2
            omega
        · exact noDataMembers_sound rest a start stop u s _ h.2.2.2 hn l hl
end

/-! ### General registers -/

/-- What `intType` gives. -/
def IntReg (src : Ty) (so : Nat) (r : AbiType) : Prop :=
  (r = .ptr ∨ (∃ s, r = .int s 8)) ∨ (∃ s b, r = .int s b ∧ (b = 1 ∨ b = 2 ∨ b = 4) ∧ noData src (so + b) (so + 8) = true) ∨ intRest src so = some r

def Rest (src : Ty) (so : Nat) : Prop := ∃ r, intRest src so = some r

theorem rest_some {src : Ty} {so : Nat} (h : so < size src) : Rest src so := by
  unfold Rest intRest
  rw [if_neg (by omega)]
  by_cases c : size src < so ∨ size src - so > 8
  · rw [if_pos c]; exact ⟨_, rfl⟩
  · rw [if_neg c]; exact ⟨_, rfl⟩

theorem rest_reg {src : Ty} {so : Nat} (h : Rest src so) : ∃ r, intRest src so = some r ∧ IntReg src so r :=
  h.imp fun _ hr => ⟨hr, Or.inr (Or.inr hr)⟩

mutual
theorem intType_reg (src : Ty) (so : Nat) (hR : Rest src so) : ∀ (t : Ty) (off : Nat), Valid t → ∃ r, intType src so t off = some r ∧ IntReg src so r
  | .void, _, h => h.elim
  | .ptr, off, _ => by
    rw [intType]
    by_cases c : off = 0
    · rw [if_pos c]; exact ⟨_, rfl, Or.inl (Or.inl rfl)⟩
    · rw [if_neg c]; exact rest_reg hR
  | .int s b, off, h => by
    have hb : b = 1 ∨ b = 2 ∨ b = 4 ∨ b = 8 := h
    rw [intType]
    by_cases c : b = 8
    · rw [if_pos c]
      by_cases d : off = 0
      · rw [if_pos d]; exact ⟨_, rfl, Or.inl (Or.inr ⟨s, by rw [c]⟩)⟩
      · rw [if_neg d]; exact rest_reg hR
    · rw [if_neg c]
      by_cases d : off ≠ 0
      · rw [if_pos d]; exact rest_reg hR
      · rw [if_neg d]
        by_cases e : noData src (so + b) (so + 8) = true
        · rw [if_pos e]; exact ⟨_, rfl, Or.inr (Or.inl ⟨s, b, rfl, by omega, e⟩)⟩
        · rw [if_neg e]; exact rest_reg hR
  | .agg u sz al fl ms, off, h => by
    rw [intType]
    by_cases c : u = true
    · rw [if_pos c]; exact rest_reg hR
    · rw [if_neg c]
      by_cases d : sz ≤ off
      · rw [if_pos d]; exact rest_reg hR
      · rw [if_neg d]
        have hs := h.2.2.1
        have hv := h.2.2.2
        cases ms with
        | nil => exact hs.elim
        | cons o t rest =>
          have h0 : o = 0 := hs
          rw [intMembers, if_neg (by omega)]
          exact intMembers_reg src so off hR u sz _ rest _ hv.2.2.2 (intType_reg src so hR t (off - o) hv.1)
  | .any, off, _ => by
    rw [intType]
    by_cases c : off < 8
    · rw [if_pos c]; exact ⟨_, rfl, Or.inl (Or.inr ⟨_, rfl⟩)⟩
    · rw [if_neg c]
      by_cases d : off < 16
      · rw [if_pos d]; exact ⟨_, rfl, Or.inl (Or.inl rfl)⟩
      · rw [if_neg d]; exact rest_reg hR
  | .slice, off, _ => by
    rw [intType]
    by_cases c : off < 8
    · rw [if_pos c]; exact ⟨_, rfl, Or.inl (Or.inl rfl)⟩
    · rw [if_neg c]
      by_cases d : off < 16
      · rw [if_pos d]; exact ⟨_, rfl, Or.inl (Or.inr ⟨_, rfl⟩)⟩
      · rw [if_neg d]; exact rest_reg hR
  | .array e n, off, h => by
    rw [intType]
    exact intType_reg src so hR e _ h.1
  | .i128, _, _ => by rw [intType]; exact rest_reg hR
  | .float _, _, _ => by rw [intType]; exact rest_reg hR
  | .f128, _, _ => by rw [intType]; exact rest_reg hR
theorem intMembers_reg (src : Ty) (so off : Nat) (hR : Rest src so) (u : Bool) (s : Nat) : ∀ (f : Nat) (ms : Ms) (last : Option AbiType), ValidMs u s f ms →
    (∃ r, last = some r ∧ IntReg src so r) → ∃ r, intMembers src so off ms last = some r ∧ IntReg src so r
  | _, .nil, last, _, h => by rw [intMembers]; exact h
  | f, .cons o t rest, last, hv, h => by
    rw [intMembers]
    by_cases c : o > off
    · rw [if_pos c]; exact h
    · rw [if_neg c]
      exact intMembers_reg src so off hR u s _ rest _ hv.2.2.2 (intType_reg src so hR t (off - o) hv.1)
end

theorem intBits_size {n : Nat} (h1 : 0 < n) (h2 : n ≤ 8) : (intBits (n * 8)).size = n ∧
    ((intBits (n * 8)).align = 1 ∨ (intBits (n * 8)).align = 2 ∨ (intBits (n * 8)).align = 4 ∨ (intBits (n * 8)).align = 8) ∧
    ((∃ b, intBits (n * 8) = .int false b) ∨ intBits (n * 8) = .bits (n * 8)) := by
  have : n = 1 ∨ n = 2 ∨ n = 3 ∨ n = 4 ∨ n = 5 ∨ n = 6 ∨ n = 7 ∨ n = 8 := by omega
  rcases this with rfl | rfl | rfl | rfl | rfl | rfl | rfl | rfl <;>
    refine ⟨by decide, by decide, ?_⟩ <;> first | exact Or.inl ⟨_, rfl⟩ | exact Or.inr rfl

/-- What a general register holds: its type, its size, its alignment, and that it has all numbers of the eightbyte. -/
theorem intReg_facts {src : Ty} {so : Nat} {r : AbiType} (hv : Valid src) (hso : so < size src) (h : IntReg src so r) :
    (r = .ptr ∨ (∃ s b, r = .int s b) ∨ (r = .bits ((size src - so) * 8) ∧ size src - so ≤ 8)) ∧ r.size ≤ 8 ∧
    (r.align = 1 ∨ r.align = 2 ∨ r.align = 4 ∨ r.align = 8) ∧
    (∀ l ∈ leaves src 0, ∀ k, l.off ≤ k → k < l.off + l.size → so ≤ k → k < so + 8 → k < so + r.size) := by
  rcases h with (rfl | ⟨s, rfl⟩) | ⟨s, b, rfl, hb, hn⟩ | hr
  · exact ⟨Or.inl rfl, by decide, by decide, fun l _ k _ _ _ h => h⟩
  · exact ⟨Or.inr (Or.inl ⟨_, _, rfl⟩), Nat.le_refl 8, Or.inr (Or.inr (Or.inr rfl)), fun l _ k _ _ _ h => h⟩
  · refine ⟨Or.inr (Or.inl ⟨_, _, rfl⟩), ?_, ?_, ?_⟩
    · show b ≤ 8
      omega
    · show b = 1 ∨ b = 2 ∨ b = 4 ∨ b = 8
      omega
    · intro l hl k h1 h2 h3 h4
      show k < so + b
      have := noData_sound src 0 _ _ hv hn l hl
      omega
  · unfold intRest at hr
    rw [if_neg (by omega)] at hr
    by_cases c : size src < so ∨ size src - so > 8
    · rw [if_pos c] at hr
      cases hr
      exact ⟨Or.inr (Or.inl ⟨_, _, rfl⟩), Nat.le_refl 8, Or.inr (Or.inr (Or.inr rfl)), fun l _ k _ _ _ h => h⟩
    · rw [if_neg c] at hr
      cases hr
      obtain ⟨f1, f2, f3⟩ := intBits_size (n := size src - so) (by omega) (by omega)
      refine ⟨?_, by omega, f2, ?_⟩
      · rcases f3 with ⟨b, f3⟩ | f3
        · exact Or.inr (Or.inl ⟨_, _, f3⟩)
        · exact Or.inr (Or.inr ⟨f3, by omega⟩)
      · intro l hl k h1 h2 h3 h4
        have := leaf_bounds src 0 hv l hl
        omega

/-! ### Vector registers -/

/-- The type of a floating point number. -/
def kindType : Kind → Option AbiType
  | .integer => none
  | .float k => some (.float k)
  | .quad => some .f128

mutual
/-- What is found is the type of some number. -/
theorem fpAt_some : ∀ (t : Ty) (off : Nat) (f : AbiType), Valid t → fpAt t off = some (some f) → ∃ l ∈ leaves t 0, kindType l.kind = some f
  | .void, _, _, h, _ => h.elim
  | .int _ _, _, _, _, h => by rw [fpAt] at h <;> first | exact absurd h (by simp) | simp
  | .ptr, _, _, _, h => by rw [fpAt] at h <;> first | exact absurd h (by simp) | simp
  | .i128, _, _, _, h => by rw [fpAt] at h <;> first | exact absurd h (by simp) | simp
  | .slice, _, _, _, h => by rw [fpAt] at h <;> first | exact absurd h (by simp) | simp
  | .any, _, _, _, h => by rw [fpAt] at h <;> first | exact absurd h (by simp) | simp
  | .float k, off, f, _, h => by
    rw [fpAt] at h
    by_cases c : off = 0
    · rw [if_pos c] at h
      cases h
      exact ⟨_, by rw [leaves]; exact List.mem_cons_self, rfl⟩
    · rw [if_neg c] at h; cases h
  | .f128, off, f, _, h => by
    rw [fpAt] at h
    by_cases c : off = 0
    · rw [if_pos c] at h
      cases h
      exact ⟨_, by rw [leaves]; exact List.mem_cons_self, rfl⟩
    · rw [if_neg c] at h; cases h
  | .agg u s al fl ms, off, f, hv, h => by
    rw [fpAt] at h
    by_cases c : s ≤ off
    · rw [if_pos c] at h; cases h
    · rw [if_neg c] at h
      rw [leaves]
      rcases fpMembers_some ms off f u s 0 none hv.2.2.2 h with g | g
      · cases g
      · exact g
  | .array e n, off, f, hv, h => by
    rw [fpAt] at h
    obtain ⟨l, h1, h2⟩ := fpAt_some e _ f hv.1 h
    rw [leaves]
    refine ⟨l, List.mem_flatMap.2 ⟨0, List.mem_range.2 hv.2, ?_⟩, h2⟩
    rw [Nat.zero_mul]; exact h1
theorem fpMembers_some : ∀ (ms : Ms) (off : Nat) (f : AbiType) (u : Bool) (s fr : Nat) (last : Option (Option AbiType)), ValidMs u s fr ms →
    fpMembers off ms last = some (some f) → last = some (some f) ∨ ∃ l ∈ leavesMs ms 0, kindType l.kind = some f
  | .nil, _, _, _, _, _, _, _, h => by rw [fpMembers] at h; exact Or.inl h
  | .cons o t rest, off, f, u, s, fr, last, hv, h => by
    rw [fpMembers] at h
    by_cases c : o > off
    · rw [if_pos c] at h; exact Or.inl h
    · rw [if_neg c] at h
      right
      rw [leavesMs]
      rcases fpMembers_some rest off f u s _ _ hv.2.2.2 h with g | ⟨l, g1, g2⟩
      · obtain ⟨l, h1, h2⟩ := fpAt_some t _ f hv.1 g
        refine ⟨shift o l, List.mem_append_left _ ?_, h2⟩
        rw [Nat.zero_add, ← Nat.add_zero o, leaves_shift, Nat.add_zero]
        exact List.mem_map_of_mem h1
      · exact ⟨l, List.mem_append_right _ g1, g2⟩
end

theorem fpMembers_stop (off s : Nat) : ∀ (fr : Nat) (ms : Ms) (last : Option (Option AbiType)), ValidMs false s fr ms → off < fr → fpMembers off ms last = last
  | _, .nil, _, _, _ => by rw [fpMembers]
  | fr, .cons o t rest, last, hv, h => by
    have h3 : fr ≤ o := hv.2.2.1
    rw [fpMembers, if_pos (by omega)]

mutual
/-- What is found at a byte of a number of a value without unions. -/
theorem fpAt_leaf : ∀ (t : Ty) (a : Nat), Valid t → plain t → ∀ l ∈ leaves t a, ∀ k, l.off ≤ k → k < l.off + l.size →
    fpAt t (k - a) = some (if k = l.off then kindType l.kind else none)
  | .void, _, h, _ => h.elim
  | .int _ _, a, _, _ => by
    intro l hl k h1 h2
    rw [leaves] at hl; cases List.mem_singleton.1 hl
    rw [fpAt] <;> first | (split <;> rfl) | simp
  | .ptr, a, _, _ => by
    intro l hl k h1 h2
    rw [leaves] at hl; cases List.mem_singleton.1 hl
    rw [fpAt] <;> first | (split <;> rfl) | simp
  | .i128, a, _, _ => by
    intro l hl k h1 h2
    rw [leaves] at hl; cases List.mem_singleton.1 hl
    rw [fpAt] <;> first | (split <;> rfl) | simp
  | .slice, a, _, _ => by
    intro l hl k h1 h2
    have hk : kindType l.kind = none := by
      rw [leaves] at hl
      rcases List.mem_cons.1 hl with rfl | hl
      · rfl
      · cases List.mem_singleton.1 hl; rfl
    rw [fpAt] <;> first | (rw [hk]; split <;> rfl) | simp
  | .any, a, _, _ => by
    intro l hl k h1 h2
    have hk : kindType l.kind = none := by
      rw [leaves] at hl
      rcases List.mem_cons.1 hl with rfl | hl
      · rfl
      · cases List.mem_singleton.1 hl; rfl
    rw [fpAt] <;> first | (rw [hk]; split <;> rfl) | simp
  | .float kk, a, _, _ => by
    intro l hl k h1 h2
    rw [leaves] at hl; cases List.mem_singleton.1 hl
    have h1 : a ≤ k := h1
    rw [fpAt]
    by_cases c : k = a
    · rw [if_pos (by omega), if_pos c]; rfl
    · rw [if_neg (by omega), if_neg c]
  | .f128, a, _, _ => by
    intro l hl k h1 h2
    rw [leaves] at hl; cases List.mem_singleton.1 hl
    have h1 : a ≤ k := h1
    rw [fpAt]
    by_cases c : k = a
    · rw [if_pos (by omega), if_pos c]; rfl
    · rw [if_neg (by omega), if_neg c]
  | .agg u s al fl ms, a, h, hp => by
    intro l hl k h1 h2
    obtain ⟨rfl, hp⟩ := hp
    have hb := leaf_bounds (.agg false s al fl ms) a h l hl
    have hs : size (.agg false s al fl ms) = s := rfl
    rw [leaves] at hl
    rw [fpAt, if_neg (by omega)]
    exact fpMembers_leaf ms a s 0 none h.2.2.2 hp l hl k h1 h2
  | .array e n, a, h, hp => by
    intro l hl k h1 h2
    rw [leaves] at hl
    obtain ⟨i, hi, hl⟩ := List.mem_flatMap.1 hl
    have hb := leaf_bounds e _ h.1 l hl
    rw [fpAt]
    have hi : k - a = (k - (a + i * size e)) + size e * i := by
      have := Nat.mul_comm (size e) i
      omega
    have hd : (k - a) / size e = i := by
      rw [hi, Nat.add_mul_div_left _ _ (valid_size e h.1).2.2, Nat.div_eq_of_lt (by omega), Nat.zero_add]
    rw [hd]
    have : k - a - size e * i = k - (a + i * size e) := by omega
    rw [this]
    exact fpAt_leaf e _ h.1 hp l hl k h1 h2
theorem fpMembers_leaf : ∀ (ms : Ms) (a s f : Nat) (last : Option (Option AbiType)), ValidMs false s f ms → plainMs ms → ∀ l ∈ leavesMs ms a, ∀ k, l.off ≤ k → k < l.off + l.size →
    fpMembers (k - a) ms last = some (if k = l.off then kindType l.kind else none)
  | .nil, _, _, _, _, _, _ => by intro l hl; cases hl
  | .cons o t rest, a, s, f, last, h, hp => by
    intro l hl k h1 h2
    rw [leavesMs] at hl
    rcases List.mem_append.1 hl with hl | hl
    · have hb := leaf_bounds t _ h.1 l hl
      rw [fpMembers, if_neg (by omega), fpMembers_stop _ s _ rest _ h.2.2.2 (by omega)]
      have : k - a - o = k - (a + o) := by omega
      rw [this]
      exact fpAt_leaf t _ h.1 hp.1 l hl k h1 h2
    · have := leafMs_low s a _ rest h.2.2.2 l hl
      rw [fpMembers, if_neg (by omega)]
      exact fpMembers_leaf rest a s _ _ h.2.2.2 hp.2 l hl k h1 h2
end

theorem kindType_floating {k : Kind} {f : AbiType} (h : kindType k = some f) : (∃ j, f = .float j ∧ k = .float j) ∨ (f = .f128 ∧ k = .quad) := by
  cases k with
  | integer => cases h
  | float j => cases h; exact Or.inl ⟨j, rfl, rfl⟩
  | quad => cases h; exact Or.inr ⟨rfl, rfl⟩

theorem sseJoin_floating {t : Ty} {so : Nat} {f r : AbiType} {g : Option AbiType} (hf : floating f = true) (h : sseJoin t so f g = some r) : floating r = true := by
  cases g with
  | none => cases h; exact hf
  | some g =>
    unfold sseJoin at h
    simp only at h
    by_cases c : f = .float .f32 ∧ g = .float .f32
    · rw [if_pos c] at h; cases h; rfl
    · rw [if_neg c] at h
      by_cases d : f.half = true ∧ g.half = true
      · rw [if_pos d] at h
        split at h
        · cases h; rfl
        · cases h
      · rw [if_neg d] at h
        by_cases e : f.half = true ∨ g.half = true
        · rw [if_pos e] at h; cases h; rfl
        · rw [if_neg e] at h; cases h; rfl

theorem sseType_floating {t : Ty} {so : Nat} {r : AbiType} (hv : Valid t) (h : sseType t so = some r) : floating r = true := by
  unfold sseType at h
  cases hf : fpAt t so with
  | none => rw [hf] at h; cases h
  | some f =>
    rw [hf] at h
    cases f with
    | none => cases h; rfl
    | some f =>
      obtain ⟨l, -, hl⟩ := fpAt_some t so f hv hf
      have hff : floating f = true := by
        rcases kindType_floating hl with ⟨j, h1, -⟩ | ⟨h1, -⟩ <;> rw [h1] <;> rfl
      have h : (if f = .float .f64 then some (.float .f64) else (sseSecond t so f).bind (sseJoin t so f)) = some r := h
      by_cases c : f = .float .f64
      · rw [if_pos c] at h; cases h; rfl
      · rw [if_neg c] at h
        obtain ⟨g, -, h⟩ := Option.bind_eq_some_iff.1 h
        exact sseJoin_floating hff h

end C3.Abi
