import Verif.Bitstruct.LemmasInt

/-!
# Initializers of integers
-/

set_option autoImplicit false

namespace C3.Bitstruct

/-- The entry has the bit `j`. -/
def covers (e : Entry) (j : Nat) : Prop := e.1.start ≤ j ∧ j ≤ e.1.stop

instance (e : Entry) (j : Nat) : Decidable (covers e j) := by unfold covers; infer_instance

/-- The bit that it has there. -/
def bitOf (e : Entry) (j : Nat) : Bool := e.2.getLsbD (j - e.1.start)

/-- The last entry that has the bit. -/
def lastBit (b : Bool) (j : Nat) : List Entry → Bool
  | [] => b
  | e :: es => lastBit (if covers e j then bitOf e j else b) j es

/-- Any entry that has the bit. -/
def anyBit (j : Nat) (es : List Entry) : Bool := es.any fun e => covers e j && bitOf e j

theorem updateAll_some {n : Nat} : ∀ (es : List Entry) (x : BitVec (8 * n)), (∀ e ∈ es, e.1.Ok n) →
    ∃ r, updateAll es x = some r ∧ ∀ j, j < 8 * n → r.getLsbD j = lastBit (x.getLsbD j) j es := by
  intro es
  induction es with
  | nil => intro x _; exact ⟨x, rfl, fun j _ => rfl⟩
  | cons e es ih =>
    intro x hok
    obtain ⟨y, hy, hyb⟩ := update_some x e.1 e.2 (hok e (by simp))
    obtain ⟨r, hr, hrb⟩ := ih y (fun e' he' => hok e' (by simp [he']))
    refine ⟨r, by simp [updateAll, hy, hr], fun j hj => ?_⟩
    rw [hrb j hj, hyb j hj]
    rfl

theorem constAll_some {n : Nat} : ∀ (es : List Entry) (x : BitVec (8 * n)), (∀ e ∈ es, e.1.Ok n) →
    ∃ r, constAll es x = some r ∧ ∀ j, j < 8 * n → r.getLsbD j = (x.getLsbD j || anyBit j es) := by
  intro es
  induction es with
  | nil => intro x _; exact ⟨x, rfl, fun j _ => by simp [anyBit]⟩
  | cons e es ih =>
    intro x hok
    obtain ⟨y, hy, hyb⟩ := const_some x e.1 e.2 (hok e (by simp))
    obtain ⟨r, hr, hrb⟩ := ih y (fun e' he' => hok e' (by simp [he']))
    refine ⟨r, by simp [constAll, hy, hr], fun j hj => ?_⟩
    have : anyBit j (e :: es) = ((decide (e.1.start ≤ j ∧ j ≤ e.1.stop) && e.2.getLsbD (j - e.1.start)) || anyBit j es) := rfl
    rw [hrb j hj, hyb j hj, this]
    generalize (decide (e.1.start ≤ j ∧ j ≤ e.1.stop) && e.2.getLsbD (j - e.1.start)) = b
    cases b <;> cases x.getLsbD j <;> simp

theorem lastBit_none {j : Nat} : ∀ (es : List Entry) (b : Bool), (∀ e ∈ es, ¬ covers e j) → lastBit b j es = b := by
  intro es
  induction es with
  | nil => intro b _; rfl
  | cons e es ih =>
    intro b h
    rw [lastBit, if_neg (h e (by simp))]
    exact ih b (fun e' he' => h e' (by simp [he']))

theorem lastBit_append {j : Nat} : ∀ (es es' : List Entry) (b : Bool), lastBit b j (es ++ es') = lastBit (lastBit b j es) j es' := by
  intro es
  induction es with
  | nil => intro es' b; rfl
  | cons e es ih => intro es' b; exact ih es' _

/-- The members of the entries have no bits in common. -/
def Apart (es : List Entry) : Prop := es.Pairwise fun e e' => e.1.Disjoint e'.1

theorem covers_unique {e e' : Entry} (h : e.1.Disjoint e'.1) {j : Nat} (h1 : covers e j) (h2 : covers e' j) : False := by
  simp only [covers] at h1 h2
  rcases h with h | h <;> omega

theorem lastBit_any {j : Nat} : ∀ (es : List Entry) (b : Bool), Apart es → lastBit b j es = if ∃ e ∈ es, covers e j then anyBit j es else b := by
  intro es
  induction es with
  | nil => intro b _; simp [lastBit]
  | cons e es ih =>
    intro b h
    obtain ⟨h1, h2⟩ := List.pairwise_cons.1 h
    rw [lastBit]
    by_cases hc : covers e j
    · have hnone : ∀ e' ∈ es, ¬ covers e' j := fun e' he' hc' => covers_unique (h1 e' he') hc hc'
      rw [if_pos hc, lastBit_none es _ hnone, if_pos ⟨e, by simp, hc⟩, anyBit, List.any_cons]
      have : es.any (fun e => covers e j && bitOf e j) = false := by
        rw [List.any_eq_false]
        intro e' he'
        simp [hnone e' he']
      simp [hc, this]
    · rw [if_neg hc, ih b h2]
      have : anyBit j (e :: es) = anyBit j es := by simp [anyBit, hc]
      rw [this]
      simp [hc]

theorem zero_bit {n j : Nat} : (0#(8 * n)).getLsbD j = false := by simp

theorem constInt_eq {p swap : Bool} {n : Nat} {es : List Entry} (hok : ∀ e ∈ es, e.1.Ok n) (ha : Apart es) :
    constInt p swap n es = initInt p swap n es := by
  obtain ⟨r, hr, hrb⟩ := updateAll_some es (0#(8 * n)) hok
  obtain ⟨r', hr', hrb'⟩ := constAll_some es (0#(8 * n)) hok
  have : r = r' := by
    apply BitVec.eq_of_getLsbD_eq
    intro j hj
    rw [hrb j hj, hrb' j hj, lastBit_any es _ ha, zero_bit, Bool.false_or]
    split
    · rfl
    · rename_i hn
      rw [eq_comm, anyBit, List.any_eq_false]
      intro e he
      have : ¬ covers e j := fun hc => hn ⟨e, he, hc⟩
      simp [this]
  subst this
  simp [constInt, initInt, hr, hr']

theorem initInt_some {p swap : Bool} {n : Nat} {es : List Entry} (hok : ∀ e ∈ es, e.1.Ok n) (hn : swap = true → 2 ≤ n) :
    ∃ mem, initInt p swap n es = some mem ∧ mem.length = n ∧
      ∀ j, j < 8 * n → bitAt mem (pos (p ^^ swap) n j) = lastBit false j es := by
  obtain ⟨r, hr, hrb⟩ := updateAll_some es (0#(8 * n)) hok
  obtain ⟨z, hz, hzl, hzb⟩ := stored (p := p) r hn
  refine ⟨store p n z, by simp [initInt, hr, hz], hzl, fun j hj => ?_⟩
  rw [hzb j hj, hrb j hj, zero_bit]

end C3.Bitstruct
