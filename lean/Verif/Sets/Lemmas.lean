import Verif.Sets.Run
import Mathlib.Tactic.Tauto
import Mathlib.Tactic.ByContra
/-
Helper lemmas: the bits of a list of words.
-/
set_option autoImplicit false

namespace C3.Sets
open Std

/-- Bit `i` of a list of words. -/
def bit {w : Nat} (d : List (BitVec w)) (i : Nat) : Bool := (d[i / w]?.getD 0).getLsbD (i % w)

theorem shlOne_lt {r : Nat} (h : r < 32) : shlOne r = some (1#32 <<< r) := by
  simp [shlOne, h]

theorem getLsbD_oneShl (r k : Nat) (hk : k < 32) :
    (1#32 <<< r).getLsbD k = decide (k = r) := by
  rw [BitVec.getLsbD_shiftLeft]
  simp only [BitVec.getLsbD_one]
  by_cases h : k = r
  · subst h; simp [hk]
  · by_cases h2 : k < r
    · simp [h, h2]
    · simp [h, hk]; omega

theorem and_oneShl (x : BitVec 32) (r : Nat) (hr : r < 32) :
    (x &&& 1#32 <<< r != 0) = x.getLsbD r := by
  cases hx : x.getLsbD r
  · have : x &&& 1#32 <<< r = 0 := by
      apply BitVec.eq_of_getLsbD_eq
      intro k hk
      rw [BitVec.getLsbD_and, getLsbD_oneShl r k hk]
      by_cases h : k = r
      · subst h; simp [hx]
      · simp [h]
    rw [this]; rfl
  · have : x &&& 1#32 <<< r ≠ 0 := by
      intro h
      have := congrArg (fun y => BitVec.getLsbD y r) h
      simp only [BitVec.getLsbD_and, getLsbD_oneShl r r hr, hx] at this
      simp at this
    simpa using this

theorem bit_set {w : Nat} (d : List (BitVec w)) (q : Nat) (y : BitVec w) (hq : q < d.length) (i : Nat) :
    bit (d.set q y) i = if i / w = q then y.getLsbD (i % w) else bit d i := by
  unfold bit
  rw [List.getElem?_set]
  by_cases h : i / w = q
  · rw [if_pos h.symm, if_pos hq, if_pos h]; rfl
  · rw [if_neg (Ne.symm h), if_neg h]

theorem bit_replicate {w : Nat} (n i : Nat) : bit (List.replicate n (0 : BitVec w)) i = false := by
  unfold bit
  rw [List.getElem?_replicate]
  split <;> simp

theorem bit_nil {w : Nat} (i : Nat) : bit ([] : List (BitVec w)) i = false := by simp [bit]

theorem bit_ge {w : Nat} (d : List (BitVec w)) (i : Nat) (h : d.length ≤ i / w) : bit d i = false := by
  unfold bit; rw [List.getElem?_eq_none h]; simp

theorem eq_iff_divmod (w i j : Nat) : (i = j) ↔ (i / w = j / w ∧ i % w = j % w) := by
  constructor
  · rintro rfl; exact ⟨rfl, rfl⟩
  · rintro ⟨h1, h2⟩
    rw [← Nat.div_add_mod i w, ← Nat.div_add_mod j w, h1, h2]

/-- The number of set bits of a list of words. -/
theorem foldl_popcount {w : Nat} (d : List (BitVec w)) :
    ∀ n, d.foldl (fun n x => n + popcount x) n = n + (d.map popcount).sum := by
  induction d with
  | nil => intro n; simp
  | cons x r ih => intro n; simp [ih]; omega

theorem countP_bits {w : Nat} (hw : 0 < w) (d : List (BitVec w)) :
    (List.range (w * d.length)).countP (bit d) = (d.map popcount).sum := by
  induction d with
  | nil => simp
  | cons x r ih =>
    have e : w * (x :: r).length = w + w * r.length := by
      simp [Nat.mul_add]; omega
    rw [e, List.range_add, List.countP_append, List.countP_map, List.map_cons, List.sum_cons, ← ih]
    congr 1
    · apply List.countP_congr
      intro k hk
      have hk := List.mem_range.1 hk
      simp [bit, Nat.div_eq_of_lt hk, Nat.mod_eq_of_lt hk]
    · apply List.countP_congr
      intro k _
      have : (w + k) / w = k / w + 1 := by rw [Nat.add_comm, Nat.add_div_right _ hw]
      simp [bit, this]

theorem card_of_bits {w : Nat} (hw : 0 < w) (d : List (BitVec w)) (S : Finset Nat)
    (h : ∀ i, bit d i = decide (i ∈ S)) : d.foldl (fun n x => n + popcount x) 0 = S.card := by
  rw [foldl_popcount, Nat.zero_add, ← countP_bits hw]
  have hS : S = (Finset.range (w * d.length)).filter (fun i => bit d i = true) := by
    ext i
    simp only [Finset.mem_filter, Finset.mem_range]
    constructor
    · intro hi
      have hb : bit d i = true := by rw [h]; simpa using hi
      refine ⟨?_, hb⟩
      by_contra hlt
      have : d.length ≤ i / w := by
        rw [Nat.le_div_iff_mul_le hw, Nat.mul_comm]; omega
      rw [bit_ge d i this] at hb
      cases hb
    · rintro ⟨-, hb⟩
      rw [h] at hb; simpa using hb
  rw [hS, List.countP_eq_length_filter]
  rw [← List.toFinset_card_of_nodup (List.Nodup.filter _ List.nodup_range)]
  congr 1
  ext i; simp

/-! ### BitSet -/

namespace BitSet

theorem div_lt_SZ {size i : Nat} (h : i < size) : i / 32 < SZ size := by
  unfold SZ BITS; omega

theorem set_eq {size : Nat} {d : Data} (hd : d.length = SZ size) {i : Nat} (h : i < size) :
    ∃ d', set size d i = some d' ∧ d'.length = SZ size ∧
      ∀ j, bit d' j = (decide (j = i) || bit d j) := by
  have hq : i / 32 < d.length := by rw [hd]; exact div_lt_SZ h
  have hr : i % 32 < 32 := Nat.mod_lt _ (by decide)
  refine ⟨d.set (i / 32) (d[i / 32] ||| 1#32 <<< (i % 32)), ?_, by simp [hd], ?_⟩
  · simp [set, BITS, h, hq, shlOne_lt hr]
  · intro j
    rw [bit_set _ _ _ hq]
    have hj : j % 32 < 32 := Nat.mod_lt _ (by decide)
    split
    · rename_i e
      rw [BitVec.getLsbD_or, getLsbD_oneShl _ _ hj]
      have : (j = i) ↔ j % 32 = i % 32 := by rw [eq_iff_divmod 32 j i]; simp [e]
      simp [this, bit, e, hq, Bool.or_comm]
    · rename_i e
      have : ¬ j = i := by rintro rfl; exact e rfl
      simp [this]

theorem unset_eq {size : Nat} {d : Data} (hd : d.length = SZ size) {i : Nat} (h : i < size) :
    ∃ d', unset size d i = some d' ∧ d'.length = SZ size ∧
      ∀ j, bit d' j = (!decide (j = i) && bit d j) := by
  have hq : i / 32 < d.length := by rw [hd]; exact div_lt_SZ h
  have hr : i % 32 < 32 := Nat.mod_lt _ (by decide)
  refine ⟨d.set (i / 32) (d[i / 32] &&& ~~~ (1#32 <<< (i % 32))), ?_, by simp [hd], ?_⟩
  · simp [unset, BITS, h, hq, shlOne_lt hr]
  · intro j
    rw [bit_set _ _ _ hq]
    have hj : j % 32 < 32 := Nat.mod_lt _ (by decide)
    split
    · rename_i e
      rw [BitVec.getLsbD_and, BitVec.getLsbD_not, getLsbD_oneShl _ _ hj]
      have : (j = i) ↔ j % 32 = i % 32 := by rw [eq_iff_divmod 32 j i]; simp [e]
      simp [this, bit, e, hq, hj, Bool.and_comm]
    · rename_i e
      have : ¬ j = i := by rintro rfl; exact e rfl
      simp [this]

theorem get_eq {size : Nat} {d : Data} (hd : d.length = SZ size) {i : Nat} (h : i < size) :
    get size d i = some (bit d i) := by
  have hq : i / 32 < d.length := by rw [hd]; exact div_lt_SZ h
  have hr : i % 32 < 32 := Nat.mod_lt _ (by decide)
  have e : get size d i = some (d[i / 32] &&& 1#32 <<< (i % 32) != 0) := by
    simp [get, BITS, h, hq, shlOne_lt hr]
  rw [e, and_oneShl _ _ hr]
  simp [bit, hq]

theorem zipLoop_eq (op : BitVec 32 → BitVec 32 → BitVec 32) (other : Data) :
    ∀ (d : Data) (i : Nat), i + d.length ≤ other.length →
      ∃ d', zipLoop op other d i = some d' ∧ d'.length = d.length ∧
        ∀ k (h : k < d.length), d'[k]? = some (op d[k] (other[i + k]?.getD 0)) := by
  intro d
  induction d with
  | nil => intro i _; exact ⟨[], rfl, rfl, fun k h => absurd h (by simp)⟩
  | cons x r ih =>
    intro i hi
    simp only [List.length_cons] at hi
    obtain ⟨d', h1, h2, h3⟩ := ih (i + 1) (by omega)
    have hi' : i < other.length := by omega
    refine ⟨op x other[i] :: d', ?_, by simp [h2], ?_⟩
    · simp [zipLoop, hi', h1]
    · intro k hk
      cases k with
      | zero => simp [hi']
      | succ k =>
        have hk' : k < r.length := by simpa using hk
        have := h3 k hk'
        rw [show i + (k + 1) = i + 1 + k by omega]
        simpa using this

theorem zip_bit (op : BitVec 32 → BitVec 32 → BitVec 32) (f : Bool → Bool → Bool)
    (hf : ∀ x y k, k < 32 → (op x y).getLsbD k = f (x.getLsbD k) (y.getLsbD k))
    (h0 : f false false = false) {n : Nat} {a b : Data} (ha : a.length = n) (hb : b.length = n) :
    ∃ d', zipLoop op b a 0 = some d' ∧ d'.length = n ∧ ∀ j, bit d' j = f (bit a j) (bit b j) := by
  obtain ⟨d', h1, h2, h3⟩ := zipLoop_eq op b a 0 (by omega)
  refine ⟨d', h1, by omega, ?_⟩
  intro j
  have hj : j % 32 < 32 := Nat.mod_lt _ (by decide)
  by_cases h : j / 32 < n
  · have := h3 (j / 32) (by omega)
    rw [Nat.zero_add] at this
    unfold bit
    rw [this, List.getElem?_eq_getElem (by omega : j / 32 < a.length)]
    exact hf _ _ _ hj
  · rw [bit_ge _ _ (by omega), bit_ge _ _ (by omega), bit_ge _ _ (by omega), h0]

theorem or_eq {n : Nat} {a b : Data} (ha : a.length = n) (hb : b.length = n) :
    ∃ d', or a b = some d' ∧ d'.length = n ∧ ∀ j, bit d' j = (bit a j || bit b j) :=
  zip_bit _ _ (fun x y k _ => by simp) rfl ha hb

theorem and_eq {n : Nat} {a b : Data} (ha : a.length = n) (hb : b.length = n) :
    ∃ d', and a b = some d' ∧ d'.length = n ∧ ∀ j, bit d' j = (bit a j && bit b j) :=
  zip_bit _ _ (fun x y k _ => by simp) rfl ha hb

theorem xor_eq {n : Nat} {a b : Data} (ha : a.length = n) (hb : b.length = n) :
    ∃ d', xor a b = some d' ∧ d'.length = n ∧ ∀ j, bit d' j = (bit a j ^^ bit b j) :=
  zip_bit _ _ (fun x y k _ => by simp) rfl ha hb

theorem run_eq (size : Nat) (p : Prog) (hp : p.Below size) (hn : p.NoDiff) :
    ∃ d, run size p = some d ∧ d.length = SZ size ∧ ∀ j, bit d j = decide (j ∈ p.sem) := by
  induction p with
  | empty =>
    exact ⟨_, rfl, by simp [empty], fun j => by rw [empty, bit_replicate]; simp [Prog.sem]⟩
  | add p i ih =>
    obtain ⟨d, h1, h2, h3⟩ := ih hp.1 hn
    obtain ⟨d', h4, h5, h6⟩ := set_eq h2 hp.2
    refine ⟨d', by simp [run, h1, h4], h5, fun j => ?_⟩
    rw [h6, h3]; simp [Prog.sem]
  | remove p i ih =>
    obtain ⟨d, h1, h2, h3⟩ := ih hp.1 hn
    obtain ⟨d', h4, h5, h6⟩ := unset_eq h2 hp.2
    refine ⟨d', by simp [run, h1, h4], h5, fun j => ?_⟩
    rw [h6, h3]; simp [Prog.sem]
  | put p i v ih =>
    obtain ⟨d, h1, h2, h3⟩ := ih hp.1 hn
    cases v
    · obtain ⟨d', h4, h5, h6⟩ := unset_eq h2 hp.2
      refine ⟨d', by simp [run, h1, h4, setBool, hp.2], h5, fun j => ?_⟩
      rw [h6, h3]; simp [Prog.sem]
    · obtain ⟨d', h4, h5, h6⟩ := set_eq h2 hp.2
      refine ⟨d', by simp [run, h1, h4, setBool, hp.2], h5, fun j => ?_⟩
      rw [h6, h3]; simp [Prog.sem]
  | union p q ihp ihq =>
    obtain ⟨d, h1, h2, h3⟩ := ihp hp.1 hn.1
    obtain ⟨e, g1, g2, g3⟩ := ihq hp.2 hn.2
    obtain ⟨d', h4, h5, h6⟩ := or_eq h2 g2
    refine ⟨d', by simp [run, h1, g1, h4], h5, fun j => ?_⟩
    rw [h6, h3, g3]; simp [Prog.sem]
  | inter p q ihp ihq =>
    obtain ⟨d, h1, h2, h3⟩ := ihp hp.1 hn.1
    obtain ⟨e, g1, g2, g3⟩ := ihq hp.2 hn.2
    obtain ⟨d', h4, h5, h6⟩ := and_eq h2 g2
    refine ⟨d', by simp [run, h1, g1, h4], h5, fun j => ?_⟩
    rw [h6, h3, g3]; simp [Prog.sem]
  | diff p q => exact absurd hn (by simp [Prog.NoDiff])
  | xor p q ihp ihq =>
    obtain ⟨d, h1, h2, h3⟩ := ihp hp.1 hn.1
    obtain ⟨e, g1, g2, g3⟩ := ihq hp.2 hn.2
    obtain ⟨d', h4, h5, h6⟩ := xor_eq h2 g2
    refine ⟨d', by simp [run, h1, g1, h4], h5, fun j => ?_⟩
    rw [h6, h3, g3]
    simp only [Prog.sem, Finset.mem_symmDiff]
    by_cases a : j ∈ p.sem <;> by_cases b : j ∈ q.sem <;> simp [a, b]

end BitSet

/-! ### GrowableBitSet -/

namespace Growable
variable {w : Nat}

theorem growLoop_eq (q : Nat) : ∀ (room : Nat) (d : Data w), q < d.length + room →
    growLoop q room d d.length = d ++ List.replicate (q + 1 - d.length) 0 := by
  intro room
  induction room with
  | zero =>
    intro d h
    rw [show q + 1 - d.length = 0 by omega]; simp [growLoop]
  | succ room ih =>
    intro d h
    rw [growLoop]
    by_cases hq : q ≥ d.length
    · rw [if_pos hq]
      have := ih (d ++ [0]) (by simp; omega)
      rw [List.length_append, List.length_singleton] at this
      rw [this, show q + 1 - d.length = (q + 1 - (d.length + 1)) + 1 by omega, List.replicate_succ]
      simp
    · rw [if_neg hq, show q + 1 - d.length = 0 by omega]; simp

theorem bit_append_zeros (d : Data w) (n i : Nat) :
    bit (d ++ List.replicate n 0) i = bit d i := by
  unfold bit
  by_cases h : i / w < d.length
  · rw [List.getElem?_append_left h]
  · rw [List.getElem?_append_right (by omega), List.getElem?_eq_none (by omega : d.length ≤ i / w)]
    rw [List.getElem?_replicate]
    split <;> simp

theorem set_eq (hw : 0 < w) (hw2 : w ≤ 32) (d : Data w) (i : Nat) :
    ∃ d', set d i = some d' ∧ d'.length = max d.length (i / w + 1) ∧
      ∀ j, bit d' j = (decide (j = i) || bit d j) := by
  have hr : i % w < w := Nat.mod_lt _ hw
  have hg : growLoop (i / w) (i / w + 1) d d.length = _ := growLoop_eq (i / w) (i / w + 1) d (by omega)
  generalize he : d ++ List.replicate (i / w + 1 - d.length) 0 = e at hg
  have hel : e.length = max d.length (i / w + 1) := by
    rw [← he]; simp; omega
  have hbe : ∀ j, bit e j = bit d j := fun j => by rw [← he]; exact bit_append_zeros d _ j
  have hq : i / w < e.length := by omega
  refine ⟨e.set (i / w) ((e[i / w].setWidth 32 ||| 1#32 <<< (i % w)).setWidth w), ?_, by simp [hel], ?_⟩
  · unfold set
    simp only [hg]
    simp [hq, shlOne_lt (Nat.lt_of_lt_of_le hr hw2)]
  · intro j
    rw [bit_set _ _ _ hq, ← hbe]
    have hj : j % w < w := Nat.mod_lt _ hw
    split
    · rename_i h
      rw [BitVec.getLsbD_setWidth, BitVec.getLsbD_or, getLsbD_oneShl _ _ (by omega), BitVec.getLsbD_setWidth]
      have : (j = i) ↔ j % w = i % w := by rw [eq_iff_divmod w j i]; simp [h]
      have h32 : j % w < 32 := by omega
      simp [this, bit, h, hq, Bool.or_comm, hj, h32]
    · rename_i h
      have : ¬ j = i := by rintro rfl; exact h rfl
      simp [this]

theorem unset_eq (hw : 0 < w) (hw2 : w ≤ 32) (d : Data w) (i : Nat) :
    ∃ d', unset d i = some d' ∧ d'.length = d.length ∧
      ∀ j, bit d' j = (!decide (j = i) && bit d j) := by
  have hr : i % w < w := Nat.mod_lt _ hw
  by_cases hq : i / w < d.length
  · refine ⟨d.set (i / w) ((d[i / w].setWidth 32 &&& ~~~ (1#32 <<< (i % w))).setWidth w), ?_, by simp, ?_⟩
    · unfold unset
      simp [hq, shlOne_lt (Nat.lt_of_lt_of_le hr hw2), show ¬ d.length ≤ i / w by omega]
    · intro j
      rw [bit_set _ _ _ hq]
      have hj : j % w < w := Nat.mod_lt _ hw
      split
      · rename_i h
        rw [BitVec.getLsbD_setWidth, BitVec.getLsbD_and, BitVec.getLsbD_not,
          getLsbD_oneShl _ _ (by omega), BitVec.getLsbD_setWidth]
        have : (j = i) ↔ j % w = i % w := by rw [eq_iff_divmod w j i]; simp [h]
        have h32 : j % w < 32 := by omega
        simp [this, bit, h, hq, hj, h32, Bool.and_comm]
      · rename_i h
        have : ¬ j = i := by rintro rfl; exact h rfl
        simp [this]
  · refine ⟨d, by simp [unset, show d.length ≤ i / w by omega], rfl, ?_⟩
    intro j
    by_cases h : j = i
    · subst h; rw [bit_ge d j (by omega)]; simp
    · simp [h]

theorem get_eq (hw : 0 < w) (hw2 : w ≤ 32) (d : Data w) (i : Nat) : get d i = some (bit d i) := by
  have hr : i % w < w := Nat.mod_lt _ hw
  by_cases hq : i / w < d.length
  · have e : get d i = some (d[i / w].setWidth 32 &&& 1#32 <<< (i % w) != 0) := by
      simp [get, hq, shlOne_lt (Nat.lt_of_lt_of_le hr hw2), show ¬ d.length ≤ i / w by omega]
    rw [e, and_oneShl _ _ (by omega), BitVec.getLsbD_setWidth]
    simp [bit, hq, show i % w < 32 by omega]
  · rw [bit_ge d i (by omega)]
    simp [get, show d.length ≤ i / w by omega]

theorem run_eq (hw : 0 < w) (hw2 : w ≤ 32) (p : Prog) (hp : p.Single) :
    ∃ d, run w p = some d ∧ ∀ j, bit d j = decide (j ∈ p.sem) := by
  induction p with
  | empty => exact ⟨[], rfl, fun j => by simp [bit_nil, Prog.sem]⟩
  | add p i ih =>
    obtain ⟨d, h1, h3⟩ := ih hp
    obtain ⟨d', h4, h5, h6⟩ := set_eq hw hw2 d i
    refine ⟨d', by simp [run, h1, h4], fun j => ?_⟩
    rw [h6, h3]; simp [Prog.sem]
  | remove p i ih =>
    obtain ⟨d, h1, h3⟩ := ih hp
    obtain ⟨d', h4, h5, h6⟩ := unset_eq hw hw2 d i
    refine ⟨d', by simp [run, h1, h4], fun j => ?_⟩
    rw [h6, h3]; simp [Prog.sem]
  | put p i v ih =>
    obtain ⟨d, h1, h3⟩ := ih hp
    cases v
    · obtain ⟨d', h4, h5, h6⟩ := unset_eq hw hw2 d i
      refine ⟨d', by simp [run, h1, h4, setBool], fun j => ?_⟩
      rw [h6, h3]; simp [Prog.sem]
    · obtain ⟨d', h4, h5, h6⟩ := set_eq hw hw2 d i
      refine ⟨d', by simp [run, h1, h4, setBool], fun j => ?_⟩
      rw [h6, h3]; simp [Prog.sem]
  | union p q => exact absurd hp (by simp [Prog.Single])
  | inter p q => exact absurd hp (by simp [Prog.Single])
  | diff p q => exact absurd hp (by simp [Prog.Single])
  | xor p q => exact absurd hp (by simp [Prog.Single])

/-- The words that a growing history leaves: the last one has a set bit. -/
theorem run_growing (hw : 0 < w) (hw2 : w ≤ 32) (p : Prog) (hp : p.Growing) :
    ∃ d, run w p = some d ∧ (∀ j, bit d j = decide (j ∈ p.sem)) ∧
      (d ≠ [] → ∃ j, j ∈ p.sem ∧ j / w + 1 = d.length) := by
  have key : ∀ (p : Prog) (i : Nat), (∃ d, run w p = some d ∧ (∀ j, bit d j = decide (j ∈ p.sem)) ∧
      (d ≠ [] → ∃ j, j ∈ p.sem ∧ j / w + 1 = d.length)) →
      ∃ d d', run w p = some d ∧ set d i = some d' ∧ (∀ j, bit d' j = decide (j ∈ insert i p.sem)) ∧
      (d' ≠ [] → ∃ j, j ∈ insert i p.sem ∧ j / w + 1 = d'.length) := by
    rintro p i ⟨d, h1, h2, h3⟩
    obtain ⟨d', h4, h5, h6⟩ := set_eq hw hw2 d i
    refine ⟨d, d', h1, h4, fun j => ?_, fun _ => ?_⟩
    · rw [h6, h2]; simp
    · by_cases hl : d.length ≤ i / w + 1
      · exact ⟨i, by simp, by omega⟩
      · have hne : d ≠ [] := by rintro rfl; simp at hl
        obtain ⟨j, hj, hj2⟩ := h3 hne
        exact ⟨j, by simp [hj], by omega⟩
  induction p with
  | empty => exact ⟨[], rfl, fun j => by simp [bit_nil, Prog.sem], fun h => absurd rfl h⟩
  | add p i ih =>
    obtain ⟨d, d', h1, h2, h3, h4⟩ := key p i (ih hp)
    exact ⟨d', by simp [run, h1, h2], h3, h4⟩
  | put p i v ih =>
    obtain ⟨hp, rfl⟩ := hp
    obtain ⟨d, d', h1, h2, h3, h4⟩ := key p i (ih hp)
    exact ⟨d', by simp [run, h1, h2, setBool], h3, h4⟩
  | remove p i => exact absurd hp (by simp [Prog.Growing])
  | union p q => exact absurd hp (by simp [Prog.Growing])
  | inter p q => exact absurd hp (by simp [Prog.Growing])
  | diff p q => exact absurd hp (by simp [Prog.Growing])
  | xor p q => exact absurd hp (by simp [Prog.Growing])

theorem clz_le (x : BitVec w) : clz x ≤ w := by
  have := List.findIdx_le_length (p := fun k => x.getLsbD k) (xs := (List.range w).reverse)
  simpa [clz] using this

/-- No bit at or above `w - clz x` is set. -/
theorem clz_above (x : BitVec w) (k : Nat) (hk : w - clz x ≤ k) : x.getLsbD k = false := by
  by_cases hkw : k < w
  · have h : w - 1 - k < (List.range w).reverse.findIdx (fun k => x.getLsbD k) := by
      have : w - 1 - k < clz x := by have := clz_le x; omega
      exact this
    have := List.not_of_lt_findIdx h
    simp only [List.getElem_reverse, List.getElem_range, List.length_range] at this
    rw [show w - 1 - (w - 1 - k) = k by omega] at this
    simpa using this
  · exact BitVec.getLsbD_of_ge _ _ (by omega)

/-- The bit right below `w - clz x` is set, unless the whole word is zero. -/
theorem clz_top (x : BitVec w) (h : clz x < w) : x.getLsbD (w - 1 - clz x) = true := by
  have hlt : (List.range w).reverse.findIdx (fun k => x.getLsbD k) < (List.range w).reverse.length := by
    simpa [clz] using h
  have := List.findIdx_getElem (w := hlt)
  simp only [List.getElem_reverse, List.getElem_range, List.length_range] at this
  exact this

theorem len_above (hw : 0 < w) (d : Data w) (i : Nat) (hi : len d ≤ i) : bit d i = false := by
  rcases List.eq_nil_or_concat d with rfl | ⟨r, x, rfl⟩
  · exact bit_nil i
  · rw [List.concat_eq_append] at *
    have hl : len (r ++ [x]) = (r.length + 1) * w - clz x := by
      have : 0 < (r.length + 1) * w := Nat.mul_pos (by omega) hw
      simp [len, this]
    rw [hl] at hi
    have hc := clz_le x
    by_cases h1 : i / w < r.length + 1
    · have hge : r.length * w ≤ i := by
        have : (r.length + 1) * w = r.length * w + w := by rw [Nat.add_mul, Nat.one_mul]
        omega
      have h2 : i / w = r.length := by
        have := (Nat.le_div_iff_mul_le hw).2 hge
        omega
      have hm : i % w = i - r.length * w := by
        have := Nat.div_add_mod i w
        rw [h2, Nat.mul_comm] at this; omega
      unfold bit
      rw [h2, hm]
      simp only [List.getElem?_append_right (Nat.le_refl _), Nat.sub_self, List.getElem?_cons_zero,
        Option.getD_some]
      apply clz_above
      have : (r.length + 1) * w = r.length * w + w := by rw [Nat.add_mul, Nat.one_mul]
      omega
    · exact bit_ge _ _ (by simp; omega)

theorem len_top (hw : 0 < w) (d : Data w) (hd : d ≠ []) (j : Nat) (hj : bit d j = true)
    (hj2 : j / w + 1 = d.length) : 0 < len d ∧ bit d (len d - 1) = true := by
  rcases List.eq_nil_or_concat d with rfl | ⟨r, x, rfl⟩
  · exact absurd rfl hd
  · rw [List.concat_eq_append] at *
    have hl : len (r ++ [x]) = (r.length + 1) * w - clz x := by
      have : 0 < (r.length + 1) * w := Nat.mul_pos (by omega) hw
      simp [len, this]
    have hjr : j / w = r.length := by simpa using hj2
    have hx : x.getLsbD (j % w) = true := by
      unfold bit at hj
      rw [hjr] at hj
      simpa using hj
    have hc : clz x < w := by
      by_contra hc
      rw [clz_above x (j % w) (by omega)] at hx
      cases hx
    have hm : (r.length + 1) * w = r.length * w + w := by rw [Nat.add_mul, Nat.one_mul]
    rw [hl]
    refine ⟨by omega, ?_⟩
    have hi : (r.length + 1) * w - clz x - 1 = w * r.length + (w - 1 - clz x) := by
      rw [hm, Nat.mul_comm w]; omega
    rw [hi]
    unfold bit
    rw [Nat.mul_add_div hw, Nat.mul_add_mod, Nat.div_eq_of_lt (by omega), Nat.mod_eq_of_lt (by omega)]
    simpa using clz_top x hc

end Growable

/-! ### EnumSet -/

namespace Small

theorem run_eq (p : Prog) (hp : p.Below 32) :
    ∃ s, run p = some s ∧ ∀ j, s.getLsbD j = decide (j ∈ p.sem) := by
  have hadd : ∀ (s : BitVec 32) (S : Finset Nat) (i : Nat), i < 32 →
      (∀ j, s.getLsbD j = decide (j ∈ S)) →
      ∀ j, (s ||| 1#32 <<< i).getLsbD j = decide (j ∈ insert i S) := by
    intro s S i hi hs j
    rw [BitVec.getLsbD_or, hs]
    by_cases hj : j < 32
    · rw [getLsbD_oneShl _ _ hj]; simp [Bool.or_comm]
    · have : ¬ j = i := by omega
      simp [BitVec.getLsbD_shiftLeft, hj, this]
  have hrem : ∀ (s : BitVec 32) (S : Finset Nat) (i : Nat), i < 32 →
      (∀ j, s.getLsbD j = decide (j ∈ S)) →
      ∀ j, (s &&& ~~~ (1#32 <<< i)).getLsbD j = decide (j ∈ S.erase i) := by
    intro s S i hi hs j
    rw [BitVec.getLsbD_and, hs, BitVec.getLsbD_not]
    by_cases hj : j < 32
    · rw [getLsbD_oneShl _ _ hj]; simp [hj, Bool.and_comm]
    · have := hs j
      rw [BitVec.getLsbD_of_ge _ _ (by omega)] at this
      simp [hj]
      intro _ hm
      simp [hm] at this
  induction p with
  | empty => exact ⟨0, rfl, fun j => by simp [Prog.sem]⟩
  | add p i ih =>
    obtain ⟨s, h1, h2⟩ := ih hp.1
    exact ⟨_, by simp [run, h1, add, shlOne_lt hp.2], hadd s _ i hp.2 h2⟩
  | remove p i ih =>
    obtain ⟨s, h1, h2⟩ := ih hp.1
    exact ⟨_, by simp [run, h1, remove, shlOne_lt hp.2], hrem s _ i hp.2 h2⟩
  | put p i v ih =>
    obtain ⟨s, h1, h2⟩ := ih hp.1
    cases v
    · exact ⟨_, by simp [run, h1, remove, shlOne_lt hp.2], hrem s _ i hp.2 h2⟩
    · exact ⟨_, by simp [run, h1, add, shlOne_lt hp.2], hadd s _ i hp.2 h2⟩
  | union p q ihp ihq =>
    obtain ⟨s, h1, h2⟩ := ihp hp.1
    obtain ⟨t, g1, g2⟩ := ihq hp.2
    refine ⟨s ||| t, by simp [run, h1, g1, orOf], fun j => ?_⟩
    rw [BitVec.getLsbD_or, h2, g2]; simp [Prog.sem]
  | inter p q ihp ihq =>
    obtain ⟨s, h1, h2⟩ := ihp hp.1
    obtain ⟨t, g1, g2⟩ := ihq hp.2
    refine ⟨s &&& t, by simp [run, h1, g1, andOf], fun j => ?_⟩
    rw [BitVec.getLsbD_and, h2, g2]; simp [Prog.sem]
  | diff p q ihp ihq =>
    obtain ⟨s, h1, h2⟩ := ihp hp.1
    obtain ⟨t, g1, g2⟩ := ihq hp.2
    refine ⟨s &&& ~~~ t, by simp [run, h1, g1, diffOf], fun j => ?_⟩
    by_cases hj : j < 32
    · rw [BitVec.getLsbD_and, BitVec.getLsbD_not, h2, g2]; simp [Prog.sem, hj]
    · have := h2 j
      rw [BitVec.getLsbD_of_ge _ _ (by omega)] at this ⊢
      have : j ∉ p.sem := by simpa using this
      simp [Prog.sem, this]
  | xor p q ihp ihq =>
    obtain ⟨s, h1, h2⟩ := ihp hp.1
    obtain ⟨t, g1, g2⟩ := ihq hp.2
    refine ⟨s ^^^ t, by simp [run, h1, g1, xorOf], fun j => ?_⟩
    rw [BitVec.getLsbD_xor, h2, g2]
    simp only [Prog.sem, Finset.mem_symmDiff]
    by_cases a : j ∈ p.sem <;> by_cases b : j ∈ q.sem <;> simp [a, b]

end Small

namespace Big

theorem has_eq (d : Data) (v : Nat) (hv : v / 8 < d.length) :
    has d v = some (decide (v % 8 = 0) && bit d v) := by
  have e : has d v = some ((d[v / 8].setWidth 32 <<< (v % 8)) &&& 1#32 != 0) := by
    simp [has, hv]
  rw [e]
  have h1 : (1#32 : BitVec 32) = 1#32 <<< 0 := by decide
  rw [h1, and_oneShl _ 0 (by decide), BitVec.getLsbD_shiftLeft]
  by_cases h : v % 8 = 0
  · simp [h, bit, hv]
  · have : 0 < v % 8 := by omega
    simp [h, this]

theorem add_eq {d : Data} {v : Nat} (hv : v / 8 < d.length) :
    ∃ d', add d v = some d' ∧ d'.length = d.length ∧
      ∀ j, bit d' j = (decide (j = v) || bit d j) := by
  have hr : v % 8 < 32 := by omega
  refine ⟨d.set (v / 8) (d[v / 8] ||| (1#32 <<< (v % 8)).setWidth 8), ?_, by simp, ?_⟩
  · simp [add, hv, shlOne_lt hr]
  · intro j
    rw [bit_set _ _ _ hv]
    have hj : j % 8 < 8 := Nat.mod_lt _ (by decide)
    split
    · rename_i e
      rw [BitVec.getLsbD_or, BitVec.getLsbD_setWidth, getLsbD_oneShl _ _ (by omega)]
      have : (j = v) ↔ j % 8 = v % 8 := by rw [eq_iff_divmod 8 j v]; simp [e]
      simp [this, bit, e, hv, hj, Bool.or_comm]
    · rename_i e
      have : ¬ j = v := by rintro rfl; exact e rfl
      simp [this]

theorem remove_eq {d : Data} {v : Nat} (hv : v / 8 < d.length) :
    ∃ d', remove d v = some (d', decide (v % 8 = 0) && bit d v) ∧ d'.length = d.length ∧
      ∀ j, bit d' j = (!(decide (j = v) && decide (v % 8 = 0)) && bit d j) := by
  have hr : v % 8 < 32 := by omega
  by_cases hh : (decide (v % 8 = 0) && bit d v) = true
  · refine ⟨d.set (v / 8) (d[v / 8] &&& (~~~ (1#32 <<< (v % 8))).setWidth 8), ?_, by simp, ?_⟩
    · rw [remove, has_eq d v hv, hh]
      simp [hv, shlOne_lt hr]
    · intro j
      rw [bit_set _ _ _ hv]
      have h0 : v % 8 = 0 := by
        simp at hh; exact hh.1
      have hj : j % 8 < 8 := Nat.mod_lt _ (by decide)
      split
      · rename_i e
        rw [BitVec.getLsbD_and, BitVec.getLsbD_setWidth, BitVec.getLsbD_not, getLsbD_oneShl _ _ (by omega)]
        have : (j = v) ↔ j % 8 = v % 8 := by rw [eq_iff_divmod 8 j v]; simp [e]
        have h32 : j % 8 < 32 := by omega
        simp [this, bit, e, hv, hj, h0, h32, Bool.and_comm]
      · rename_i e
        have : ¬ j = v := by rintro rfl; exact e rfl
        simp [this]
  · have hh : (decide (v % 8 = 0) && bit d v) = false := by simpa using hh
    refine ⟨d, ?_, rfl, ?_⟩
    · rw [remove, has_eq d v hv, hh]; rfl
    · intro j
      by_cases h : j = v
      · subst h
        by_cases h0 : j % 8 = 0
        · simp [h0] at hh ⊢; exact hh
        · simp [h0]
      · simp [h]

theorem updLoop_eq (op : BitVec 8 → BitVec 8 → BitVec 8) :
    ∀ (s : Data) (i : Nat) (self : Data), i + s.length ≤ self.length →
      ∃ d', updLoop op s i self = some d' ∧ d'.length = self.length ∧
        ∀ k, d'[k]? = if i ≤ k ∧ k < i + s.length then
          some (op (self[k]?.getD 0) (s[k - i]?.getD 0)) else self[k]? := by
  intro s
  induction s with
  | nil =>
    intro i self _
    refine ⟨self, rfl, rfl, fun k => ?_⟩
    rw [if_neg (by simp)]
  | cons c r ih =>
    intro i self hi
    simp only [List.length_cons] at hi
    have hi' : i < self.length := by omega
    obtain ⟨d', h1, h2, h3⟩ := ih (i + 1) (self.set i (op self[i] c)) (by simp; omega)
    refine ⟨d', by simp [updLoop, hi', h1], by simpa using h2, fun k => ?_⟩
    rw [h3]
    by_cases hk : k = i
    · subst hk
      rw [if_neg (by omega), if_pos (by simp)]
      simp [hi']
    · have hset : (self.set i (op self[i] c))[k]? = self[k]? := by
        rw [List.getElem?_set_ne (by omega)]
      rw [hset]
      by_cases hin : i + 1 ≤ k ∧ k < i + 1 + r.length
      · rw [if_pos hin, if_pos (by simp; omega)]
        rw [show k - i = (k - (i + 1)) + 1 by omega, List.getElem?_cons_succ]
      · rw [if_neg hin, if_neg (by simp; omega)]

theorem upd_bit (op : BitVec 8 → BitVec 8 → BitVec 8) (f : Bool → Bool → Bool)
    (hf : ∀ x y k, k < 8 → (op x y).getLsbD k = f (x.getLsbD k) (y.getLsbD k))
    (h0 : f false false = false) {n : Nat} {a b : Data} (ha : a.length = n) (hb : b.length = n) :
    ∃ d', updLoop op b 0 a = some d' ∧ d'.length = n ∧ ∀ j, bit d' j = f (bit a j) (bit b j) := by
  obtain ⟨d', h1, h2, h3⟩ := updLoop_eq op b 0 a (by omega)
  refine ⟨d', h1, by omega, ?_⟩
  intro j
  have hj : j % 8 < 8 := Nat.mod_lt _ (by decide)
  by_cases h : j / 8 < n
  · have := h3 (j / 8)
    rw [if_pos (by omega), Nat.sub_zero] at this
    unfold bit
    rw [this]
    exact hf _ _ _ hj
  · rw [bit_ge _ _ (by omega), bit_ge _ _ (by omega), bit_ge _ _ (by omega), h0]

/-- The members whose ordinal is a multiple of eight are kept correctly. -/
theorem run_eq (n : Nat) (p : Prog) (hp : p.Below n) :
    ∃ d, run n p = some d ∧ d.length = (n + 7) / 8 ∧
      ∀ j, j % 8 = 0 → bit d j = decide (j ∈ p.sem) := by
  have hq : ∀ i, i < n → i / 8 < (n + 7) / 8 := fun i h => by omega
  induction p with
  | empty =>
    exact ⟨_, rfl, by simp [empty], fun j _ => by rw [empty, bit_replicate]; simp [Prog.sem]⟩
  | add p i ih =>
    obtain ⟨d, h1, h2, h3⟩ := ih hp.1
    obtain ⟨d', h4, h5, h6⟩ := add_eq (d := d) (by rw [h2]; exact hq i hp.2)
    refine ⟨d', by simp [run, h1, h4], by omega, fun j hj => ?_⟩
    rw [h6, h3 j hj]; simp [Prog.sem]
  | remove p i ih =>
    obtain ⟨d, h1, h2, h3⟩ := ih hp.1
    obtain ⟨d', h4, h5, h6⟩ := remove_eq (d := d) (by rw [h2]; exact hq i hp.2)
    refine ⟨d', by simp [run, h1, h4], by omega, fun j hj => ?_⟩
    rw [h6, h3 j hj]
    by_cases e : j = i
    · subst e; simp [Prog.sem, hj]
    · simp [Prog.sem, e]
  | put p i v ih =>
    obtain ⟨d, h1, h2, h3⟩ := ih hp.1
    cases v
    · obtain ⟨d', h4, h5, h6⟩ := remove_eq (d := d) (by rw [h2]; exact hq i hp.2)
      refine ⟨d', by simp [run, h1, h4], by omega, fun j hj => ?_⟩
      rw [h6, h3 j hj]
      by_cases e : j = i
      · subst e; simp [Prog.sem, hj]
      · simp [Prog.sem, e]
    · obtain ⟨d', h4, h5, h6⟩ := add_eq (d := d) (by rw [h2]; exact hq i hp.2)
      refine ⟨d', by simp [run, h1, h4], by omega, fun j hj => ?_⟩
      rw [h6, h3 j hj]; simp [Prog.sem]
  | union p q ihp ihq =>
    obtain ⟨d, h1, h2, h3⟩ := ihp hp.1
    obtain ⟨e, g1, g2, g3⟩ := ihq hp.2
    obtain ⟨d', h4, h5, h6⟩ := upd_bit (· ||| ·) (· || ·) (fun x y k _ => by simp) rfl h2 g2
    refine ⟨d', by simp [run, h1, g1, orOf, h4], h5, fun j hj => ?_⟩
    rw [h6, h3 j hj, g3 j hj]; simp [Prog.sem]
  | inter p q ihp ihq =>
    obtain ⟨d, h1, h2, h3⟩ := ihp hp.1
    obtain ⟨e, g1, g2, g3⟩ := ihq hp.2
    obtain ⟨d', h4, h5, h6⟩ := upd_bit (· &&& ·) (· && ·) (fun x y k _ => by simp) rfl h2 g2
    refine ⟨d', by simp [run, h1, g1, andOf, h4], h5, fun j hj => ?_⟩
    rw [h6, h3 j hj, g3 j hj]; simp [Prog.sem]
  | diff p q ihp ihq =>
    obtain ⟨d, h1, h2, h3⟩ := ihp hp.1
    obtain ⟨e, g1, g2, g3⟩ := ihq hp.2
    obtain ⟨d', h4, h5, h6⟩ := upd_bit (fun x c => x &&& ~~~ c) (fun a b => a && !b)
      (fun x y k hk => by simp [hk]) rfl h2 g2
    refine ⟨d', by simp [run, h1, g1, diffOf, h4], h5, fun j hj => ?_⟩
    rw [h6, h3 j hj, g3 j hj]; simp [Prog.sem]
  | xor p q ihp ihq =>
    obtain ⟨d, h1, h2, h3⟩ := ihp hp.1
    obtain ⟨e, g1, g2, g3⟩ := ihq hp.2
    obtain ⟨d', h4, h5, h6⟩ := upd_bit (· ^^^ ·) (· ^^ ·) (fun x y k _ => by simp) rfl h2 g2
    refine ⟨d', by simp [run, h1, g1, xorOf, h4], h5, fun j hj => ?_⟩
    rw [h6, h3 j hj, g3 j hj]
    simp only [Prog.sem, Finset.mem_symmDiff]
    by_cases a : j ∈ p.sem <;> by_cases b : j ∈ q.sem <;> simp [a, b]

end Big

/-! ### Printing -/

theorem formatLoop_eq (has : Nat → Option Bool) (S : Finset Nat) (n : Nat)
    (h : ∀ v, v < n → has v = some (decide (v ∈ S))) :
    ∀ (names : List String) (v : Nat) (found : Bool), v + names.length ≤ n →
      formatLoop has names v found =
        some (if found ∧ membersFrom S names v ≠ [] then ", " ++ ", ".intercalate (membersFrom S names v)
          else ", ".intercalate (membersFrom S names v)) := by
  intro names
  induction names with
  | nil => intro v found _; simp [formatLoop, membersFrom, String.intercalate]
  | cons name rest ih =>
    intro v found hv
    simp only [List.length_cons] at hv
    rw [formatLoop, h v (by omega)]
    by_cases hm : v ∈ S
    · have := ih (v + 1) true (by omega)
      simp only [hm, decide_true, membersFrom, if_true, Bool.not_true, Bool.false_eq_true, if_false,
        Option.bind_eq_bind, Option.bind_some, this]
      generalize membersFrom S rest (v + 1) = l
      cases l with
      | nil => cases found <;> simp [String.intercalate_singleton, String.intercalate_nil]
      | cons a t =>
        have e : ", ".intercalate (name :: a :: t) = name ++ ", " ++ ", ".intercalate (a :: t) := by
          exact String.intercalate_cons_cons
        rw [e]
        cases found <;> simp [String.append_assoc]
    · simp only [hm, decide_false, membersFrom, if_false, Bool.not_false, if_true,
        Option.bind_eq_bind, Option.bind_some]
      exact ih (v + 1) found (by omega)

theorem mapM_some {α β : Type} (f : α → Option β) (g : α → β) (l : List α)
    (h : ∀ x ∈ l, f x = some (g x)) : l.mapM f = some (l.map g) := by
  induction l with
  | nil => rfl
  | cons a t ih =>
    rw [List.mapM_cons, h a (by simp), ih (fun x hx => h x (by simp [hx]))]
    rfl

theorem mapM_none {α β : Type} (f : α → Option β) (l : List α) (x : α) (hx : x ∈ l) (h : f x = none) :
    l.mapM f = none := by
  induction l with
  | nil => cases hx
  | cons a t ih =>
    rw [List.mapM_cons]
    rcases List.mem_cons.1 hx with rfl | ht
    · rw [h]; rfl
    · rw [ih ht]; cases f a <;> rfl

end C3.Sets
