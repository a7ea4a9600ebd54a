import Verif.Arena.Spec

/-! # Helper lemmas for the arena -/

set_option autoImplicit false

namespace C3.Arena

theorem and_not_15 (x : Nat) (h : x < 2 ^ 64) : x &&& (2 ^ 64 - 16) = x / 16 * 16 := by
  apply Nat.eq_of_testBit_eq
  intro i
  have h1 : (2 ^ 64 - 16 : Nat) = (2 ^ 60 - 1) * 2 ^ 4 := by decide
  have h2 : x / 16 * 16 = x / 2 ^ 4 * 2 ^ 4 := rfl
  rw [Nat.testBit_and, h1, h2, Nat.testBit_mul_two_pow, Nat.testBit_mul_two_pow, Nat.testBit_two_pow_sub_one, Nat.testBit_div_two_pow]
  by_cases h4 : 4 ≤ i
  · simp only [h4, decide_true, Bool.true_and]
    rw [show i - 4 + 4 = i by omega]
    by_cases h60 : i - 4 < 60
    · simp [h60]
    · have : x.testBit i = false := by
        apply Nat.testBit_lt_two_pow
        exact Nat.lt_of_lt_of_le h (Nat.pow_le_pow_right (by decide) (by omega))
      simp [this]
  · simp [h4]

theorem roundUp_toNat (m : Word) (h : m.toNat + 15 < 2 ^ 64) : ((m + 15#64) &&& ~~~ 15#64).toNat = roundUp m.toNat := by
  rw [BitVec.toNat_and, BitVec.toNat_add, show (~~~ 15#64 : BitVec 64).toNat = 2 ^ 64 - 16 from rfl,
    show (15#64).toNat = 15 from rfl, Nat.mod_eq_of_lt h, and_not_15 _ h, roundUp]

/-- What one request does when nothing wraps around; `len` is the length set aside. -/
theorem vmemAlloc_spec (v : Vmem) (n : Word) (hs : v.ptr.toNat + v.size.toNat ≤ 2 ^ 64) (ha : v.allocated.toNat ≤ v.size.toNat)
    (hn : n.toNat + v.allocated.toNat < 2 ^ 64) (hn0 : n.toNat ≠ 0) :
    (v.size.toNat < v.allocated.toNat + n.toNat ∧ vmemAlloc v n = none) ∨
    (v.allocated.toNat + n.toNat ≤ v.size.toNat ∧ ∃ v' p, vmemAlloc v n = some (v', p) ∧ v'.ptr = v.ptr ∧ v'.size = v.size ∧
      v'.allocated.toNat = v.allocated.toNat + n.toNat ∧ p.toNat = v.ptr.toNat + v.allocated.toNat) := by
  have hafter : (n + v.allocated).toNat = v.allocated.toNat + n.toNat := by
    rw [BitVec.toNat_add, Nat.mod_eq_of_lt hn, Nat.add_comm]
  unfold vmemAlloc
  dsimp only
  by_cases h : v.size < n + v.allocated
  · rw [if_pos h]
    left
    rw [BitVec.lt_def, hafter] at h
    exact ⟨h, rfl⟩
  · rw [if_neg h]
    right
    rw [BitVec.lt_def, hafter] at h
    refine ⟨by omega, _, _, rfl, rfl, rfl, hafter, ?_⟩
    rw [BitVec.toNat_add, Nat.mod_eq_of_lt (by omega)]

/-- A request function that sets aside `len m` bytes for a request of `m`. -/
structure Allocates (alloc : Vmem → Word → Option (Vmem × Word)) (len : Nat → Nat) (limit : Nat) : Prop where
  pos : ∀ m, 0 < m → m ≤ len m
  step : ∀ (v : Vmem) (m : Word), 0 < m.toNat → m.toNat ≤ limit → v.ptr.toNat + v.size.toNat ≤ 2 ^ 64 →
    v.allocated.toNat ≤ v.size.toNat → v.size.toNat ≤ 2 ^ 62 →
    (v.size.toNat < v.allocated.toNat + len m.toNat ∧ alloc v m = none) ∨
    (v.allocated.toNat + len m.toNat ≤ v.size.toNat ∧ ∃ v' p, alloc v m = some (v', p) ∧ v'.ptr = v.ptr ∧ v'.size = v.size ∧
      v'.allocated.toNat = v.allocated.toNat + len m.toNat ∧ p.toNat = v.ptr.toNat + v.allocated.toNat)

theorem allocates_arena : Allocates callocArena roundUp (2 ^ 63) := by
  constructor
  · intro m _; unfold roundUp; omega
  · intro v m h0 hm hs ha hsz
    have hr := roundUp_toNat m (by omega)
    have hle : roundUp m.toNat ≤ 2 ^ 63 + 15 := by unfold roundUp; omega
    have := vmemAlloc_spec v ((m + 15#64) &&& ~~~ 15#64) hs ha (by rw [hr]; omega) (by rw [hr]; unfold roundUp; omega)
    rw [hr] at this
    rw [callocArena, if_neg (fun e => by rw [e] at h0; simp at h0)]
    exact this

theorem allocates_string : Allocates callocString id (2 ^ 63) := by
  constructor
  · intro m _; exact Nat.le_refl m
  · intro v m h0 hm hs ha hsz
    rw [callocString, if_neg (fun e => by rw [e] at h0; simp at h0)]
    exact vmemAlloc_spec v m hs ha (by omega) (by omega)

variable {alloc : Vmem → Word → Option (Vmem × Word)} {len : Nat → Nat} {limit : Nat}

theorem run_spec (hal : Allocates alloc len limit) (reqs : List Word) : ∀ (v : Vmem), (∀ m ∈ reqs, 0 < m.toNat ∧ m.toNat ≤ limit) →
    v.ptr.toNat + v.size.toNat ≤ 2 ^ 64 → v.allocated.toNat ≤ v.size.toNat → v.size.toNat ≤ 2 ^ 62 →
    (v.size.toNat < v.allocated.toNat + ((reqs.map BitVec.toNat).map len).sum ∧ run alloc v reqs = none) ∨
    ∃ v' ps, run alloc v reqs = some (v', ps) ∧ ps.length = reqs.length ∧
      v.allocated.toNat + ((reqs.map BitVec.toNat).map len).sum ≤ v.size.toNat ∧
      (∀ b ∈ areas reqs ps, v.ptr.toNat + v.allocated.toNat ≤ b.1 ∧ b.last ≤ v.ptr.toNat + v.size.toNat) ∧
      Disjoint (areas reqs ps) ∧
      ((∀ m ∈ reqs, 16 ∣ len m.toNat) → 16 ∣ v.ptr.toNat + v.allocated.toNat → ∀ p ∈ ps, 16 ∣ p.toNat) := by
  induction reqs with
  | nil =>
    intro v _ h1 h2 h3
    right
    refine ⟨v, [], rfl, rfl, by simpa using h2, by simp [areas], by simp [areas, Disjoint], by simp⟩
  | cons m reqs ih =>
    intro v hr h1 h2 h3
    have hm := hr m (by simp)
    rcases hal.step v m hm.1 hm.2 h1 h2 h3 with ⟨g1, g2⟩ | ⟨g1, v1, p, g2, g3, g4, g5, g6⟩
    · left
      refine ⟨?_, by simp [run, g2]⟩
      simp only [List.map_cons, List.sum_cons]
      omega
    · have hlen := hal.pos m.toNat hm.1
      rcases ih v1 (fun x hx => hr x (by simp [hx])) (by rw [g3, g4]; exact h1) (by rw [g4, g5]; exact g1) (by rw [g4]; exact h3)
        with ⟨f1, f2⟩ | ⟨v2, ps, f1, f2, f3, f4, f5, f6⟩
      · left
        refine ⟨?_, by simp [run, g2, f2]⟩
        simp only [List.map_cons, List.sum_cons]
        rw [g4, g5] at f1
        omega
      · right
        rw [g3, g4, g5] at f4
        have har : areas (m :: reqs) (p :: ps) = (p.toNat, m.toNat) :: areas reqs ps := by simp [areas]
        refine ⟨v2, p :: ps, by simp [run, g2, f1], by simp [f2], ?_, ?_, ?_, ?_⟩
        · simp only [List.map_cons, List.sum_cons]
          rw [g4, g5] at f3
          omega
        · intro b hb
          rw [har] at hb
          rcases List.mem_cons.1 hb with rfl | hb
          · show _ ≤ p.toNat ∧ p.toNat + m.toNat ≤ _
            omega
          · have := f4 b hb
            omega
        · rw [har]
          refine List.Pairwise.cons ?_ f5
          intro b hb
          left
          have := (f4 b hb).1
          show p.toNat + m.toNat ≤ b.1
          omega
        · intro hd h16 q hq
          rcases List.mem_cons.1 hq with rfl | hq
          · rw [g6]; exact h16
          · refine f6 (fun x hx => hd x (by simp [hx])) ?_ q hq
            rw [g3, g5, ← Nat.add_assoc]
            exact Nat.dvd_add h16 (hd m (by simp))

end C3.Arena
