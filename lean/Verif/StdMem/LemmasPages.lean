import Verif.StdMem.Pages
import Verif.StdMem.LemmasMem

set_option autoImplicit false

namespace C3.StdMem

/-- Rounding up to a multiple of `a`. -/
theorem ceil_mul (a x r : Nat) (hr : r < a) :
    a * ((a * x + r + a - 1) / a) = a * x + if r = 0 then 0 else a := by
  have ha : 0 < a := by omega
  by_cases h0 : r = 0
  · subst h0
    rw [if_pos rfl, show a * x + 0 + a - 1 = (a - 1) + a * x by omega,
      Nat.add_mul_div_left _ _ ha, Nat.div_eq_of_lt (by omega)]
    simp
  · rw [if_neg h0, show a * x + r + a - 1 = (r - 1) + a * (x + 1) by rw [Nat.mul_add]; omega,
      Nat.add_mul_div_left _ _ ha, Nat.div_eq_of_lt (by omega), Nat.zero_add, Nat.mul_add, Nat.mul_one]

theorem alignedOffset_eq (a x : Nat) (hk : a ≤ 2 ^ 28) (h0 : 0 < a) (hx : x + 2 ^ 28 ≤ 2 ^ 64) :
    alignedOffset x a = a * (x / a) + if x % a = 0 then 0 else a := by
  have hd := Nat.div_add_mod x a
  have hm := Nat.mod_lt x h0
  unfold alignedOffset
  rw [wrap_eq (x + a - 1) (by omega)]
  have e := ceil_mul a (x / a) (x % a) hm
  rw [show a * (x / a) + x % a + a - 1 = x + a - 1 by omega] at e
  rw [e, wrap_eq]
  split <;> omega

/-- When a header of `h` bytes and `n` bytes fit into both together, each rounded
up. -/
theorem page_fits (a h n : Nat) (hk : a ≤ 2 ^ 28) (h0 : 0 < a) (hx : h + n + 2 ^ 28 ≤ 2 ^ 64) :
    alignedOffset h a + n ≤ alignedOffset (h + n) a ↔
      h % a = 0 ∨ n % a = 0 ∨ a < h % a + n % a := by
  rw [alignedOffset_eq a h hk h0 (by omega), alignedOffset_eq a (h + n) hk h0 (by omega)]
  have d1 := Nat.div_add_mod h a
  have d2 := Nat.div_add_mod n a
  have m1 := Nat.mod_lt h h0
  have m2 := Nat.mod_lt n h0
  by_cases hs : h % a + n % a < a
  · have e1 : (h + n) % a = h % a + n % a := by
      rw [Nat.add_mod, Nat.mod_eq_of_lt hs]
    have d3 := Nat.div_add_mod (h + n) a
    rw [e1]
    have e2 : a * ((h + n) / a) = a * (h / a) + a * (n / a) := by omega
    rw [e2]
    split <;> split <;> omega
  · have e1 : (h + n) % a = h % a + n % a - a := by
      rw [Nat.add_mod, Nat.mod_eq_sub_mod (by omega), Nat.mod_eq_of_lt (by omega)]
    have d3 := Nat.div_add_mod (h + n) a
    rw [e1]
    have e2 : a * ((h + n) / a) = a * (h / a) + a * (n / a) + a := by omega
    rw [e2]
    split <;> split <;> omega

theorem Pages.place_spec {S : Type} (s : Pages S) (align : Nat) (hb : s.base + s.used ≤ 2 ^ 62)
    (ha : AlignOk align) :
    s.base + s.used + 8 ≤ s.place align ∧ s.place align ≤ 2 ^ 62 + 2 ^ 29 ∧ 
      s.place align < s.base + s.used + 16 + alignFor align ∧
      alignFor align ∣ s.place align ∧ 16 ∣ s.place align := by
  obtain ⟨k, hk4, hk28, hke, hkd⟩ := alignFor_spec align ha
  have hp28 : (2 : Nat) ^ k ≤ 2 ^ 28 := Nat.pow_le_pow_right (by omega) hk28
  have hp4 : (2 : Nat) ^ 4 ≤ 2 ^ k := Nat.pow_le_pow_right (by omega) hk4
  unfold Pages.place
  simp only [hke]
  rw [wrap_eq (s.base + s.used) (by omega)]
  obtain ⟨a1, a2, a3⟩ := alignedOffset_spec (s.base + s.used) 3 (by omega) (by omega)
  rw [show (2 : Nat) ^ 3 = 8 by rfl] at a1 a2 a3
  generalize alignedOffset (s.base + s.used) 8 = h at *
  rw [wrap_eq (h + 8) (by omega), if_pos (by omega)]
  obtain ⟨b1, b2, b3⟩ := alignedOffset_spec (h + 8) k hk28 (by omega)
  exact ⟨by omega, by omega, by omega, b3, Nat.dvd_trans (Nat.pow_dvd_pow 2 hk4) b3⟩

theorem Pages.acquire_room {S : Type} (A : Allocator S) (s : Pages S) (size align q : Nat)
    (zero : Bool) (hq : s.place align = q) (hu : wrap (sub64 q s.base + size) ≤ s.capacity) :
    s.acquire A size zero align = .ok { s with
      used := wrap (sub64 q s.base + size)
      back := A.setMem s.back (if zero then clearMem (wr64 (A.mem s.back) (q - 8) size) q size
        else wr64 (A.mem s.back) (q - 8) size) } q := by
  unfold Pages.acquire
  rw [hq]
  exact if_pos hu

theorem Pages.backedResize_room {S : Type} (A : Allocator S) (s : Pages S) (size align q old : Nat)
    (hm : ∀ b m, A.mem (A.setMem b m) = m)
    (hq : s.place align = q) (hu : wrap (sub64 q s.base + size) ≤ s.capacity)
    (hq8 : 8 ≤ q) (ho : q ≤ old - 8 ∨ old - 8 + 8 ≤ q - 8) :
    ∃ s', s.backedResize A old size align = .ok s' q ∧
      A.mem s'.back = copyMem (wr64 (A.mem s.back) (q - 8) size) q old
        (rd64 (A.mem s.back) (old - 8)) := by
  have hr : s.backedResize A old size align = .ok (Pages.copied A { s with
      used := wrap (sub64 q s.base + size)
      back := A.setMem s.back (if false = true then clearMem (wr64 (A.mem s.back) (q - 8) size) q size
        else wr64 (A.mem s.back) (q - 8) size) } q old) q := by
    unfold Pages.backedResize
    rw [Pages.acquire_room A s size align q false hq hu]
    rfl
  refine ⟨_, hr, ?_⟩
  have e1 : ∀ (c : Mem), (if false = true then c else wr64 (A.mem s.back) (q - 8) size) =
      wr64 (A.mem s.back) (q - 8) size := fun c => if_neg Bool.false_ne_true
  rw [e1]
  unfold Pages.copied
  dsimp only
  rw [hm, hm, rd64_wr64_ne _ _ _ _ (by omega)]

end C3.StdMem
