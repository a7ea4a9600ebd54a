import Verif.PQueue.Spec
import Verif.Sort.Lemmas

/-! # Helper lemmas for priority queues -/

set_option autoImplicit false

namespace C3.PQueue
open C3.Sort (set_set_perm get_of_lt lt_of_get)

variable {α : Type}

/-- `bf a b`: `a` has to come out before `b`. -/
def before (max : Bool) (lt : α → α → Bool) (a b : α) : Bool := if max then lt b a else lt a b

theorem before_sw {lt : α → α → Bool} (max : Bool) (h : StrictWeak lt) : StrictWeak (before max lt) := by
  cases max
  · exact ⟨fun a b => h.asymm a b, fun a b c => h.negTrans a b c⟩
  · exact ⟨fun a b => h.asymm b a, fun a b c h1 h2 => h.negTrans c b a h2 h1⟩

/-- The list as a function. -/
def Rp (h : List α) (f : Nat → α) : Prop := ∀ k, k < h.length → h[k]? = some (f k)

theorem rp_exists (h : List α) (hn : 0 < h.length) : ∃ f, Rp h f :=
  ⟨fun k => if hk : k < h.length then h[k] else h[0], fun k hk => by
    simp [hk]⟩

theorem swap_perm (h : List α) (i j : Nat) (h' : List α) (hs : swap h i j = some h') : h'.Perm h ∧ h'.length = h.length := by
  unfold swap at hs
  simp only [Option.bind_eq_bind, Option.bind_eq_some_iff, Option.some.injEq] at hs
  obtain ⟨a, ha, b, hb, rfl⟩ := hs
  refine ⟨?_, by simp⟩
  have hi := lt_of_get ha
  have hj := lt_of_get hb
  by_cases hij : i = j
  · subst hij
    rw [ha, Option.some.injEq] at hb
    subst hb
    have : h.set i a = h := by
      rw [List.getElem?_eq_getElem hi, Option.some.injEq] at ha
      rw [← ha, List.set_getElem_self]
    rw [this, this]
  · refine (set_set_perm h i j b a hij hi hj).trans ?_
    have h1 : h.set i a = h := by
      rw [List.getElem?_eq_getElem hi, Option.some.injEq] at ha
      rw [← ha, List.set_getElem_self]
    have h2 : h.set j b = h := by
      rw [List.getElem?_eq_getElem hj, Option.some.injEq] at hb
      rw [← hb, List.set_getElem_self]
    rw [h1, h2]

theorem swap_rp {h : List α} {f : Nat → α} (hf : Rp h f) {i j : Nat} (hi : i < h.length) (hj : j < h.length) :
    ∃ h', swap h i j = some h' ∧ h'.Perm h ∧ h'.length = h.length ∧
      Rp h' (fun k => if k = j then f i else if k = i then f j else f k) := by
  refine ⟨(h.set i (f j)).set j (f i), by simp [swap, hf i hi, hf j hj], ?_, by simp, ?_⟩
  · exact (swap_perm h i j _ (by simp [swap, hf i hi, hf j hj])).1
  · intro k hk
    simp only [List.length_set] at hk
    rw [List.getElem?_set, List.getElem?_set]
    by_cases h1 : j = k
    · subst h1; simp [hk]
    · have h1' : ¬ k = j := fun e => h1 e.symm
      simp only [if_neg h1, if_neg h1']
      by_cases h2 : i = k
      · subst h2; simp [hk]
      · have h2' : ¬ k = i := fun e => h2 e.symm
        simp only [if_neg h2, if_neg h2']
        exact hf k hk

/-- Element `k` does not come before its parent. -/
def Ok (bf : α → α → Bool) (f : Nat → α) (k : Nat) : Prop := bf (f k) (f ((k - 1) / 2)) = false

/-- The first `n` elements form a heap. -/
def Heap (bf : α → α → Bool) (f : Nat → α) (n : Nat) : Prop := ∀ k, 0 < k → k < n → Ok bf f k

theorem heap_root {bf : α → α → Bool} (hb : StrictWeak bf) {f : Nat → α} {n : Nat} (h : Heap bf f n) : ∀ k, k < n →
    bf (f k) (f 0) = false := by
  intro k
  induction k using Nat.strongRecOn with
  | _ k ih =>
    intro hk
    by_cases h0 : k = 0
    · subst h0
      by_contra hc
      have h1 : bf (f 0) (f 0) = true := by simpa using hc
      have := hb.asymm _ _ h1
      rw [h1] at this; simp at this
    · exact hb.negTrans _ _ _ (h k (by omega) hk) (ih ((k - 1) / 2) (by omega) (by omega))

theorem siftUp_spec {max : Bool} {lt : α → α → Bool} (hsw : StrictWeak lt) : ∀ (i : Nat) (h : List α) (f : Nat → α),
    Rp h f → i < h.length →
    (∀ k, 0 < k → k < h.length → k ≠ i → Ok (before max lt) f k) →
    (∀ k, 0 < k → k < h.length → (k - 1) / 2 = i → 0 < i → before max lt (f k) (f ((i - 1) / 2)) = false) →
    ∃ h' f', siftUp max lt h i = some h' ∧ h'.Perm h ∧ Rp h' f' ∧ Heap (before max lt) f' h'.length := by
  intro i
  induction i using Nat.strongRecOn with
  | _ i ih =>
    intro h f hf hi h1 h2
    have hb := before_sw max hsw
    rw [siftUp]
    by_cases h0 : i > 0
    · rw [if_pos h0]
      simp only
      rw [hf i hi, hf _ (by omega : (i - 1) / 2 < h.length)]
      simp only [Option.bind_eq_bind, Option.bind_some]
      have hok : (if max = true then greater lt (f i) (f ((i - 1) / 2)) else lt (f i) (f ((i - 1) / 2))) =
          before max lt (f i) (f ((i - 1) / 2)) := by cases max <;> rfl
      rw [hok]
      generalize hp : (i - 1) / 2 = p at *
      have hpi : p < i := by omega
      by_cases hc : before max lt (f i) (f p) = true
      · rw [if_neg (by simp [hc])]
        obtain ⟨h', e1, e2, e3, e4⟩ := swap_rp hf hi (by omega : p < h.length)
        rw [e1, Option.bind_some]
        have hasym := hb.asymm _ _ hc
        refine Exists.elim (ih p hpi h' _ e4 (by omega) ?_ ?_) ?_
        · intro k hk0 hkn hkp
          rw [e3] at hkn
          unfold Ok
          simp only
          rw [if_neg hkp]
          by_cases hki : k = i
          · subst hki
            rw [if_pos rfl, hp, if_pos rfl]
            exact hasym
          · rw [if_neg hki]
            have hok' := h1 k hk0 hkn hki
            unfold Ok at hok'
            by_cases hq : (k - 1) / 2 = p
            · rw [if_pos hq]
              rw [hq] at hok'
              by_contra hcon
              have hcon : before max lt (f k) (f i) = true := by simpa using hcon
              have h3 := hb.asymm _ _ hcon
              have := hb.negTrans _ _ _ h3 hok'
              rw [hc] at this; simp at this
            · rw [if_neg hq]
              by_cases hq2 : (k - 1) / 2 = i
              · rw [if_pos hq2]
                have := h2 k hk0 hkn hq2 h0
                exact this
              · rw [if_neg hq2]; exact hok'
        · intro k hk0 hkn hkp hp0
          rw [e3] at hkn
          have hpp : (p - 1) / 2 ≠ p := by omega
          have hpp2 : (p - 1) / 2 ≠ i := by omega
          rw [if_neg hpp, if_neg hpp2]
          have hokp := h1 p hp0 (by omega) (by omega)
          unfold Ok at hokp
          by_cases hkp' : k = p
          · omega
          · rw [if_neg hkp']
            by_cases hki : k = i
            · rw [if_pos hki]; exact hokp
            · rw [if_neg hki]
              have hok' := h1 k hk0 hkn hki
              unfold Ok at hok'
              rw [hkp] at hok'
              exact hb.negTrans _ _ _ hok' hokp
        · rintro h'' ⟨f'', g1, g2, g3, g4⟩
          exact ⟨h'', f'', g1, g2.trans e2, g3, g4⟩
      · rw [if_pos (by simpa using hc)]
        refine ⟨h, f, rfl, List.Perm.refl _, hf, ?_⟩
        intro k hk0 hkn
        by_cases hki : k = i
        · subst hki
          unfold Ok; rw [hp]; simpa using hc
        · exact h1 k hk0 hkn hki
    · rw [if_neg h0]
      exact ⟨h, f, rfl, List.Perm.refl _, hf, fun k hk0 hkn => h1 k hk0 hkn (by omega)⟩

theorem rp_append {h : List α} {f : Nat → α} (hf : Rp h f) (x : α) : Rp (h ++ [x]) (fun k => if k = h.length then x else f k) := by
  intro k hk
  simp only [List.length_append, List.length_cons, List.length_nil] at hk
  by_cases hkl : k = h.length
  · subst hkl; simp
  · simp only [if_neg hkl]
    rw [List.getElem?_append_left (by omega)]
    exact hf k (by omega)

/-- The list is a heap. -/
def IsHeap (max : Bool) (lt : α → α → Bool) (h : List α) : Prop :=
  ∀ f, Rp h f → Heap (before max lt) f h.length

theorem rp_unique {h : List α} {f g : Nat → α} (hf : Rp h f) (hg : Rp h g) {k : Nat} (hk : k < h.length) : f k = g k := by
  have := (hf k hk).symm.trans (hg k hk)
  simpa using this

theorem isHeap_of {max : Bool} {lt : α → α → Bool} {h : List α} {f : Nat → α} (hf : Rp h f)
    (hh : Heap (before max lt) f h.length) : IsHeap max lt h := by
  intro g hg k hk0 hkn
  have := hh k hk0 hkn
  unfold Ok at this ⊢
  rw [← rp_unique hf hg hkn, ← rp_unique hf hg (by omega : (k - 1) / 2 < h.length)]
  exact this

theorem push_spec {max : Bool} {lt : α → α → Bool} (hsw : StrictWeak lt) (h : List α) (x : α) (hh : IsHeap max lt h) :
    ∃ h', push max lt h x = some h' ∧ h'.Perm (x :: h) ∧ IsHeap max lt h' := by
  unfold push
  have hlen : (h ++ [x]).length - 1 = h.length := by simp
  rw [hlen]
  have hfx : ∃ f, Rp h f := by
    cases h with
    | nil => exact ⟨fun _ => x, fun k hk => by simp at hk⟩
    | cons a t => exact rp_exists _ (by simp)
  obtain ⟨f, hf⟩ := hfx
  have hhf := hh f hf
  refine Exists.elim (siftUp_spec (max := max) hsw h.length (h ++ [x]) _ (rp_append hf x) (by simp) ?_ ?_) ?_
  · intro k hk0 hkn hk
    simp only [List.length_append, List.length_cons, List.length_nil] at hkn
    have := hhf k hk0 (by omega)
    unfold Ok at this ⊢
    simp only
    rw [if_neg hk, if_neg (by omega)]
    exact this
  · intro k hk0 hkn hk h0
    simp only [List.length_append, List.length_cons, List.length_nil] at hkn
    omega
  · rintro h' ⟨f', e1, e2, e3, e4⟩
    exact ⟨h', e1, e2.trans (List.perm_append_singleton x h), isHeap_of e3 e4⟩

/-! ## pop -/

theorem pick_spec {max : Bool} {lt : α → α → Bool} (hsw : StrictWeak lt) {h : List α} {f : Nat → α} (hf : Rp h f)
    {n i : Nat} (hn : n ≤ h.length) (hi : 2 * i + 1 < n) :
    ∃ r, pick max lt h n i = some r ∧
      (r = none → (∀ k, k < n → k = 2 * i + 1 ∨ k = 2 * i + 2 → before max lt (f k) (f i) = false)) ∧
      (∀ j, r = some j → (j = 2 * i + 1 ∨ j = 2 * i + 2) ∧ j < n ∧ before max lt (f j) (f i) = true ∧
        (∀ k, k < n → k = 2 * i + 1 ∨ k = 2 * i + 2 → before max lt (f k) (f j) = false)) := by
  have hb := before_sw max hsw
  have hirr : ∀ a, before max lt a a = false := by
    intro a
    by_contra hc
    have h1 : before max lt a a = true := by simpa using hc
    have := hb.asymm _ _ h1
    rw [h1] at this; simp at this
  have g : pick max lt h n i =
      some (if 2 * i + 1 + 1 < n ∧ before max lt (f (2 * i + 2)) (f (2 * i + 1)) = true then
        (if before max lt (f (2 * i + 2)) (f i) = true then some (2 * i + 2) else none)
      else (if before max lt (f (2 * i + 1)) (f i) = true then some (2 * i + 1) else none)) := by
    unfold pick
    simp only
    rw [hf _ (by omega : 2 * i + 1 < h.length), hf _ (by omega : i < h.length)]
    simp only [Option.bind_eq_bind, Option.bind_some]
    by_cases hj : 2 * i + 1 + 1 < n
    · rw [if_pos hj, hf _ (by omega : 2 * i + 1 + 1 < h.length)]
      simp only [Option.bind_some, hj, true_and]
      cases max <;> simp only [before, greater, if_true, if_false, Bool.false_eq_true]
      · by_cases c1 : lt (f (2 * i + 1 + 1)) (f (2 * i + 1)) = true
        · by_cases c2 : lt (f (2 * i + 1 + 1)) (f i) = true <;> simp [c1, c2]
        · by_cases c2 : lt (f (2 * i + 1)) (f i) = true <;> simp [c1, c2]
      · by_cases c1 : lt (f (2 * i + 1)) (f (2 * i + 1 + 1)) = true
        · by_cases c2 : lt (f i) (f (2 * i + 1 + 1)) = true <;> simp [c1, c2]
        · by_cases c2 : lt (f i) (f (2 * i + 1)) = true <;> simp [c1, c2]
    · rw [if_neg hj]
      simp only [hj, false_and, if_false]
      cases max <;> simp only [before, greater, if_true, if_false, Bool.false_eq_true]
      · by_cases c2 : lt (f (2 * i + 1)) (f i) = true <;> simp [c2]
      · by_cases c2 : lt (f i) (f (2 * i + 1)) = true <;> simp [c2]
  refine ⟨_, g, ?_, ?_⟩
  · intro hr k hk hk2
    by_cases c1 : 2 * i + 1 + 1 < n ∧ before max lt (f (2 * i + 2)) (f (2 * i + 1)) = true
    · rw [if_pos c1] at hr
      by_cases c2 : before max lt (f (2 * i + 2)) (f i) = true
      · simp [c2] at hr
      · simp only [Bool.not_eq_true] at c2
        rcases hk2 with rfl | rfl
        · exact hb.negTrans _ _ _ (hb.asymm _ _ c1.2) c2
        · exact c2
    · rw [if_neg c1] at hr
      by_cases c2 : before max lt (f (2 * i + 1)) (f i) = true
      · simp [c2] at hr
      · simp only [Bool.not_eq_true] at c2
        rcases hk2 with rfl | rfl
        · exact c2
        · have : before max lt (f (2 * i + 2)) (f (2 * i + 1)) = false := by
            by_contra hc
            exact c1 ⟨by omega, by simpa using hc⟩
          exact hb.negTrans _ _ _ this c2
  · intro j hr
    by_cases c1 : 2 * i + 1 + 1 < n ∧ before max lt (f (2 * i + 2)) (f (2 * i + 1)) = true
    · rw [if_pos c1] at hr
      by_cases c2 : before max lt (f (2 * i + 2)) (f i) = true
      · rw [if_pos c2, Option.some.injEq] at hr
        subst hr
        refine ⟨.inr rfl, by omega, c2, ?_⟩
        intro k hk hk2
        rcases hk2 with rfl | rfl
        · exact hb.asymm _ _ c1.2
        · exact hirr _
      · rw [if_neg c2] at hr; simp at hr
    · rw [if_neg c1] at hr
      by_cases c2 : before max lt (f (2 * i + 1)) (f i) = true
      · rw [if_pos c2, Option.some.injEq] at hr
        subst hr
        refine ⟨.inl rfl, by omega, c2, ?_⟩
        intro k hk hk2
        rcases hk2 with rfl | rfl
        · exact hirr _
        · by_contra hc
          exact c1 ⟨by omega, by simpa using hc⟩
      · rw [if_neg c2] at hr; simp at hr

theorem siftDown_spec {max : Bool} {lt : α → α → Bool} (hsw : StrictWeak lt) (n : Nat) : ∀ (m i : Nat) (h : List α)
    (f : Nat → α), n - i = m → Rp h f → n ≤ h.length →
    (∀ k, 0 < k → k < n → (k - 1) / 2 ≠ i → Ok (before max lt) f k) →
    (∀ k, 0 < k → k < n → (k - 1) / 2 = i → 0 < i → before max lt (f k) (f ((i - 1) / 2)) = false) →
    ∃ h' f', siftDown max lt h n i = some h' ∧ h'.Perm h ∧ h'.length = h.length ∧ Rp h' f' ∧
      Heap (before max lt) f' n ∧ (∀ k, n ≤ k → f' k = f k) := by
  intro m
  induction m using Nat.strongRecOn with
  | _ m ih =>
    intro i h f hm hf hn h1 h2
    have hb := before_sw max hsw
    rw [siftDown]
    by_cases hi : 2 * i + 1 < n
    · rw [if_pos hi]
      obtain ⟨r, e1, e2, e3⟩ := pick_spec (max := max) hsw hf hn hi
      rw [e1, Option.bind_eq_bind, Option.bind_some]
      cases r with
      | none =>
        simp only
        refine ⟨h, f, rfl, List.Perm.refl _, rfl, hf, ?_, fun _ _ => rfl⟩
        intro k hk0 hkn
        by_cases hp : (k - 1) / 2 = i
        · unfold Ok; rw [hp]
          exact e2 rfl k hkn (by omega)
        · exact h1 k hk0 hkn hp
      | some j =>
        simp only
        obtain ⟨d1, d2, d3, d4⟩ := e3 j rfl
        obtain ⟨h', s1, s2, s3, s4⟩ := swap_rp hf (by omega : i < h.length) (by omega : j < h.length)
        rw [s1, Option.bind_eq_bind, Option.bind_some]
        have hji : j ≠ i := by omega
        have hpj : (j - 1) / 2 = i := by omega
        refine Exists.elim (ih (n - j) (by omega) j h' _ rfl s4 (by omega) ?_ ?_) ?_
        · intro k hk0 hkn hkp
          unfold Ok
          simp only
          rw [if_neg hkp]
          by_cases hkj : k = j
          · subst hkj
            rw [if_pos rfl, if_pos hpj]
            exact hb.asymm _ _ d3
          · rw [if_neg hkj]
            by_cases hpi : (k - 1) / 2 = i
            · rw [if_pos hpi, if_neg (by omega)]
              exact d4 k hkn (by omega)
            · rw [if_neg hpi]
              by_cases hki : k = i
              · subst hki
                rw [if_pos rfl]
                exact h2 j (by omega) d2 hpj hk0
              · rw [if_neg hki]
                exact h1 k hk0 hkn hpi
        · intro k hk0 hkn hkp hj0
          rw [hpj, if_neg (by omega : ¬ k = j), if_neg (by omega : ¬ k = i), if_neg (by omega : ¬ i = j), if_pos rfl]
          have := h1 k hk0 hkn (by omega)
          unfold Ok at this
          rw [hkp] at this
          exact this
        · rintro h'' ⟨f'', g1, g2, g3, g4, g5, g6⟩
          refine ⟨h'', f'', g1, g2.trans s2, by omega, g4, g5, ?_⟩
          intro k hk
          rw [g6 k hk, if_neg (by omega), if_neg (by omega)]
    · rw [if_neg hi]
      refine ⟨h, f, rfl, List.Perm.refl _, rfl, hf, ?_, fun _ _ => rfl⟩
      intro k hk0 hkn
      exact h1 k hk0 hkn (by omega)

theorem pop_spec {max : Bool} {lt : α → α → Bool} (hsw : StrictWeak lt) (h : List α) (hh : IsHeap max lt h) (hne : h ≠ []) :
    ∃ h' m, pop max lt h = some (h', some m) ∧ h.Perm (m :: h') ∧ h.head? = some m ∧ IsHeap max lt h' := by
  have hpos : 0 < h.length := List.length_pos_iff.2 hne
  obtain ⟨f, hf⟩ := rp_exists h hpos
  have hhf := hh f hf
  unfold pop
  rw [if_neg (by omega)]
  simp only
  obtain ⟨h1, s1, s2, s3, s4⟩ := swap_rp hf hpos (by omega : h.length - 1 < h.length)
  rw [s1, Option.bind_eq_bind, Option.bind_some]
  obtain ⟨h2, f2, g1, g2, g3, g4, g5, g6⟩ := siftDown_spec (max := max) hsw (h.length - 1) _ 0 h1 _ rfl s4 (by omega)
    (fun k hk0 hkn hkp => by
      have := hhf k hk0 (by omega)
      unfold Ok at this ⊢
      simp only
      rw [if_neg (by omega), if_neg (by omega), if_neg (by omega), if_neg hkp]
      exact this)
    (fun k hk0 hkn hkp h0 => by omega)
  rw [g1, Option.bind_some]
  have h2ne : h2 ≠ [] := by
    intro e; rw [e] at g3; simp at g3; omega
  have hlast : h2.getLast? = some (f 0) := by
    rw [List.getLast?_eq_getElem?, g4 _ (by omega), g6 _ (by omega)]
    rw [if_pos (by omega)]
  have hsplit : h2 = h2.dropLast ++ [f 0] := by
    have h3 := List.dropLast_append_getLast h2ne
    rw [List.getLast?_eq_some_getLast h2ne, Option.some.injEq] at hlast
    rw [hlast] at h3; exact h3.symm
  refine ⟨h2.dropLast, f 0, by rw [hlast], ?_, ?_, ?_⟩
  · have : h2.Perm h := g2.trans s2
    refine this.symm.trans ?_
    rw [hsplit]
    simpa using List.perm_append_singleton (f 0) h2.dropLast
  · have := hf 0 hpos
    cases h with
    | nil => simp at hne
    | cons a t => simpa using this
  · have hl : h2.dropLast.length = h.length - 1 := by simp; omega
    refine isHeap_of (f := f2) ?_ (by rw [hl]; exact g5)
    intro k hk
    rw [List.getElem?_dropLast, if_pos (by simpa using hk)]
    exact g4 k (by simp at hk; omega)

theorem head_extremal {max : Bool} {lt : α → α → Bool} (hsw : StrictWeak lt) (h : List α) (hh : IsHeap max lt h) (m : α)
    (hm : h.head? = some m) : Extremal max lt h m := by
  have hne : h ≠ [] := by rintro rfl; simp at hm
  have hpos : 0 < h.length := List.length_pos_iff.2 hne
  obtain ⟨f, hf⟩ := rp_exists h hpos
  have h0 : f 0 = m := by
    have := hf 0 hpos
    cases h with
    | nil => simp at hne
    | cons a t => simp at this hm; rw [← this, hm]
  intro y hy
  obtain ⟨k, hk, rfl⟩ := List.mem_iff_getElem.1 hy
  have h1 := heap_root (before_sw max hsw) (hh f hf) k hk
  have h2 := hf k hk
  rw [List.getElem?_eq_getElem hk, Option.some.injEq] at h2
  rw [h2, ← h0]
  exact h1

end C3.PQueue
