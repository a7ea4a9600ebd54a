import Verif.RandGen.Lemmas
import Mathlib.Order.Interval.Finset.Nat

/-! # How often a value is given -/

set_option autoImplicit false

namespace C3.RandGen

theorem count_perm {p : Nat} (f : Nat → Nat) (hf : ∀ n, n < p → f n < p) (hi : ∀ i j, i < j → j < p → f i ≠ f j)
    (P : Nat → Prop) [DecidablePred P] :
    ((Finset.range p).filter fun n => P (f n)).card = ((Finset.range p).filter P).card := by
  have hinj : Set.InjOn f (Finset.range p) := by
    intro i hi' j hj' h
    have h1 : i < p := by simpa using hi'
    have h2 : j < p := by simpa using hj'
    rcases Nat.lt_trichotomy i j with h3 | h3 | h3
    · exact absurd h (hi _ _ h3 h2)
    · exact h3
    · exact absurd h.symm (hi _ _ h3 h1)
  have himg : (Finset.range p).image f = Finset.range p := by
    apply Finset.eq_of_subset_of_card_le
    · intro x hx
      obtain ⟨n, hn, rfl⟩ := Finset.mem_image.1 hx
      exact Finset.mem_range.2 (hf n (Finset.mem_range.1 hn))
    · rw [Finset.card_image_of_injOn hinj]
  conv_rhs => rw [← himg, Finset.filter_image]
  rw [Finset.card_image_of_injOn (hinj.mono fun x hx => (Finset.mem_filter.1 hx).1)]

theorem count_high (h k v : Nat) (hv : v < 2 ^ k) :
    ((Finset.range (2 ^ (h + k))).filter fun t => t / 2 ^ h = v).card = 2 ^ h := by
  have hp : 0 < 2 ^ h := Nat.pow_pos (by decide)
  have e : ((Finset.range (2 ^ (h + k))).filter fun t => t / 2 ^ h = v) = Finset.Ico (v * 2 ^ h) ((v + 1) * 2 ^ h) := by
    ext t
    simp only [Finset.mem_filter, Finset.mem_range, Finset.mem_Ico]
    rw [← Nat.le_div_iff_mul_le hp, ← Nat.div_lt_iff_lt_mul hp]
    refine ⟨fun g => by omega, fun g => ⟨?_, by omega⟩⟩
    have h1 := (Nat.div_lt_iff_lt_mul hp).1 g.2
    have h2 := Nat.mul_le_mul_right (2 ^ h) (show v + 1 ≤ 2 ^ k from hv)
    rw [Nat.pow_add, Nat.mul_comm]
    omega
  rw [e, Nat.card_Ico, ← Nat.sub_mul]
  simp

/-- The values that are the upper bits of the state of a linear generator. -/
theorem lcg_uniform {h k : Nat} {next : BitVec (h + k) → BitVec k × BitVec (h + k)} {m c : BitVec (h + k)}
    (hn : ∀ s, next s = ((s >>> h).setWidth k, s * m + c)) (hm : m.toNat % 4 = 1) (hc : c.toNat % 2 = 1) :
    Uniform (2 ^ (h + k)) (2 ^ h) next := by
  intro s v
  have ha := after_lcg (next := next) (m := m) (c := c) fun s => by rw [hn]
  have hs := s.isLt
  have hv : ∀ n, (next (after next n s)).1 = v ↔ lins m.toNat c.toNat (h + k) n s.toNat / 2 ^ h = v.toNat := by
    intro n
    rw [hn, ← BitVec.toNat_inj, BitVec.toNat_setWidth, BitVec.toNat_ushiftRight, ha, Nat.shiftRight_eq_div_pow,
      Nat.mod_eq_of_lt]
    have := lins_lt (a := m.toNat) (c := c.toNat) hs n
    rw [Nat.pow_add] at this
    exact Nat.div_lt_of_lt_mul this
  have hl := count_high h k v.toNat v.isLt
  have hp := count_perm (p := 2 ^ (h + k)) (fun n => lins m.toNat c.toNat (h + k) n s.toNat) (fun n _ => lins_lt hs n) (by
    intro i j hij hj e
    obtain ⟨d, rfl⟩ : ∃ d, j = i + d := ⟨j - i, by omega⟩
    simp only [lins_add] at e
    have := Nat.le_of_dvd (by omega) ((lcg_back hm hc (lins_lt hs i) d).1 e.symm)
    omega) (fun t => t / 2 ^ h = v.toNat)
  rw [hl] at hp
  rw [← hp]
  simp only [hv]
  rfl

end C3.RandGen
