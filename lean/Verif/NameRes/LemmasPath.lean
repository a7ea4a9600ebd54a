import Verif.NameRes.Spec

/-!
# Lemmas: paths as texts
-/

set_option autoImplicit false

namespace C3.NameRes

/-- The parts of a path. -/
def Idents (segs : List Name) : Prop := ∀ x ∈ segs, x ≠ [] ∧ ':' ∉ x

theorem Idents.tail {s : Name} {r : List Name} (h : Idents (s :: r)) : Idents r := fun x hx => h x (by simp [hx])

theorem Idents.head {s : Name} {r : List Name} (h : Idents (s :: r)) : s ≠ [] ∧ ':' ∉ s := h s (by simp)

theorem joinPath_cons (s : Name) {r : List Name} (h : r ≠ []) : joinPath (s :: r) = s ++ ':' :: ':' :: joinPath r := by
  cases r with
  | nil => exact absurd rfl h
  | cons t r => rfl

theorem joinPath_append {a b : List Name} (ha : a ≠ []) (hb : b ≠ []) : joinPath (a ++ b) = joinPath a ++ ':' :: ':' :: joinPath b := by
  induction a with
  | nil => exact absurd rfl ha
  | cons s r ih =>
    by_cases hr : r = []
    · subst hr
      simp only [List.cons_append, List.nil_append, joinPath]
      exact joinPath_cons s hb
    · rw [List.cons_append, joinPath_cons s (by simp [hr]), ih hr, joinPath_cons s hr]
      simp

theorem joinPath_head {r : List Name} (hne : r ≠ []) (h : Idents r) : ∃ c cs, joinPath r = c :: cs ∧ c ≠ ':' := by
  cases r with
  | nil => exact absurd rfl hne
  | cons s r =>
    obtain ⟨h1, h2⟩ := h.head
    cases s with
    | nil => exact absurd rfl h1
    | cons c cs =>
      have hc : c ≠ ':' := fun e => h2 (by simp [e])
      cases r with
      | nil => exact ⟨c, cs, rfl, hc⟩
      | cons t r => exact ⟨c, cs ++ ':' :: ':' :: joinPath (t :: r), rfl, hc⟩

/-- Two texts cut at their first colon. -/
theorem cut_colon {s t a b : List Char} (hs : ':' ∉ s) (ht : ':' ∉ t) (h : s ++ ':' :: a = t ++ ':' :: b) : s = t ∧ a = b := by
  induction s generalizing t with
  | nil =>
    cases t with
    | nil => simpa using h
    | cons c cs => simp at h; exact absurd (by simp [← h.1]) ht
  | cons c cs ih =>
    cases t with
    | nil => simp at h; exact absurd (by simp [h.1]) hs
    | cons c' cs' =>
      simp only [List.cons_append, List.cons.injEq] at h
      have := ih (fun hm => hs (by simp [hm])) (fun hm => ht (by simp [hm])) h.2
      exact ⟨by rw [h.1, this.1], this.2⟩

/-- A text without a colon is not one with one. -/
theorem no_colon {s a b : List Char} (hs : ':' ∉ s) (h : s = a ++ ':' :: b) : False := hs (by simp [h])

theorem joinPath_injective {a b : List Name} (ha : Idents a) (hb : Idents b) (hna : a ≠ []) (hnb : b ≠ [])
    (h : joinPath a = joinPath b) : a = b := by
  induction a generalizing b with
  | nil => exact absurd rfl hna
  | cons s r ih =>
    cases b with
    | nil => exact absurd rfl hnb
    | cons t q =>
      by_cases hr : r = []
      · by_cases hq : q = []
        · subst hr; subst hq
          simp only [joinPath] at h
          rw [h]
        · subst hr
          rw [joinPath_cons t hq] at h
          exact (no_colon ha.head.2 h).elim
      · by_cases hq : q = []
        · subst hq
          rw [joinPath_cons s hr] at h
          exact (no_colon hb.head.2 h.symm).elim
        · rw [joinPath_cons s hr, joinPath_cons t hq] at h
          obtain ⟨h1, h2⟩ := cut_colon ha.head.2 hb.head.2 h
          have h3 := ih ha.tail hb.tail hr hq (List.cons.inj h2).2
          rw [h1, h3]

theorem IsPath.idents {s : Name} {a : List Name} (h : IsPath s a) : Idents a := h.ident

theorem IsPath.inj {s : Name} {a b : List Name} (ha : IsPath s a) (hb : IsPath s b) : a = b :=
  joinPath_injective ha.ident hb.ident ha.nonempty hb.nonempty (ha.text.symm.trans hb.text)

/-- A path that ends as another after a `::` has that one as a suffix. -/
theorem suffix_of_text {a b : List Name} (ha : Idents a) (hb : Idents b) (hna : a ≠ []) (hnb : b ≠ []) {pre : Name}
    (h : joinPath a = pre ++ ':' :: ':' :: joinPath b) : ∃ c, c ≠ [] ∧ a = c ++ b := by
  induction a generalizing pre with
  | nil => exact absurd rfl hna
  | cons s r ih =>
    by_cases hr : r = []
    · subst hr
      exact (no_colon ha.head.2 (by simpa [joinPath] using h)).elim
    · rw [joinPath_cons s hr] at h
      obtain ⟨c0, cs0, hj, hc0⟩ := joinPath_head hr ha.tail
      rw [List.append_eq_append_iff] at h
      rcases h with ⟨x, hpre, hx⟩ | ⟨x, hs, hx⟩
      · -- `pre` reaches past `s`
        match x, hx with
        | [], hx =>
          simp only [List.nil_append, List.cons.injEq, true_and] at hx
          exact ⟨[s], by simp, by rw [joinPath_injective ha.tail hb hr hnb hx]; rfl⟩
        | [c], hx =>
          simp only [List.cons_append, List.nil_append, List.cons.injEq] at hx
          rw [hj] at hx
          simp only [List.cons.injEq] at hx
          exact absurd hx.2.2.1 hc0
        | c :: c' :: x', hx =>
          simp only [List.cons_append, List.cons.injEq] at hx
          obtain ⟨c, hc, he⟩ := ih ha.tail hr hx.2.2
          exact ⟨s :: c, by simp, by rw [he]; rfl⟩
      · -- `pre` ends in `s`
        cases x with
        | nil =>
          simp only [List.nil_append, List.cons.injEq, true_and] at hx
          exact ⟨[s], by simp, by rw [joinPath_injective hb ha.tail hnb hr hx]; rfl⟩
        | cons c x =>
          simp only [List.cons_append, List.cons.injEq] at hx
          exact (no_colon ha.head.2 (by rw [hs, ← hx.1])).elim

theorem joinPath_length_pos {a : List Name} (hne : a ≠ []) (h : Idents a) : 0 < (joinPath a).length := by
  obtain ⟨c, cs, hj, _⟩ := joinPath_head hne h
  simp [hj]

/-- `matches_subpath` compares whole identifiers, from the end. -/
theorem matchesSubpath_iff {check find : Name} {a b : List Name} (ha : IsPath check a) (hb : IsPath find b) :
    matchesSubpath check find = true ↔ b <:+ a := by
  unfold matchesSubpath
  constructor
  · intro h
    by_cases he : find = check
    · subst he
      rw [hb.inj ha]
      exact List.suffix_refl a
    · rw [if_neg he] at h
      by_cases hl : check.length < find.length + 3
      · rw [if_pos hl] at h
        exact absurd h (by simp)
      · rw [if_neg hl] at h
        simp only at h
        split at h
        · exact absurd h (by simp)
        · rename_i hc
          simp only [Bool.or_eq_true, decide_eq_true_eq, ne_eq, not_or, Classical.not_not] at hc
          obtain ⟨hc1, hc2⟩ := hc
          have hd : check.drop (check.length - find.length) = find := by simpa using h
          have hlen : check.length - find.length = check.length - find.length - 2 + 2 := by omega
          have h1 : check = check.take (check.length - find.length - 2) ++ ':' :: ':' :: find := by
            obtain ⟨n, hn⟩ : ∃ n, check.length - find.length = n + 2 := ⟨_, hlen⟩
            rw [hn] at hc1 hc2 hd ⊢
            simp only [Nat.add_sub_cancel] at hc1 hc2 ⊢
            have hc1 : check[n + 1]? = some ':' := hc1
            obtain ⟨p1, e1⟩ := List.getElem?_eq_some_iff.1 hc1
            obtain ⟨p2, e2⟩ := List.getElem?_eq_some_iff.1 hc2
            conv => lhs; rw [← List.take_append_drop n check]
            rw [List.drop_eq_getElem_cons p2, e2, List.drop_eq_getElem_cons p1, e1, hd]
          rw [ha.text, hb.text] at h1
          obtain ⟨c, _, hc⟩ := suffix_of_text ha.ident hb.ident ha.nonempty hb.nonempty h1
          exact ⟨c, hc.symm⟩
  · rintro ⟨c, hc⟩
    by_cases he : find = check
    · rw [if_pos he]
    · rw [if_neg he]
      have hcne : c ≠ [] := by
        rintro rfl
        apply he
        rw [ha.text, hb.text, ← hc, List.nil_append]
      have ht : check = joinPath c ++ ':' :: ':' :: find := by
        rw [ha.text, hb.text, ← hc, joinPath_append hcne hb.nonempty]
      have hpos : 0 < (joinPath c).length := joinPath_length_pos hcne (fun x hx => ha.ident x (by rw [← hc]; simp [hx]))
      have hlen : check.length = (joinPath c).length + 2 + find.length := by rw [ht]; simp; omega
      rw [if_neg (by omega)]
      have hs : check.length - find.length = (joinPath c).length + 2 := by omega
      simp only [hs]
      have g1 : check[(joinPath c).length + 2 - 1]? = some ':' := by
        rw [ht, List.getElem?_append_right (by omega)]
        rw [show (joinPath c).length + 2 - 1 - (joinPath c).length = 1 by omega]
        rfl
      have g2 : check[(joinPath c).length + 2 - 2]? = some ':' := by
        rw [ht, List.getElem?_append_right (by omega)]
        rw [show (joinPath c).length + 2 - 2 - (joinPath c).length = 0 by omega]
        rfl
      rw [g1, g2]
      simp only [ne_eq, not_true_eq_false, decide_false, Bool.or_self, Bool.false_eq_true, if_false]
      rw [ht, ← List.drop_drop, List.drop_left]
      simp

/-! ## The parent -/

theorem parentLoop_skip (p s : Name) (hs : ':' ∉ s) (k : Nat) (hk : k ≤ s.length) :
    parentLoop (p ++ s) (p.length + k) = parentLoop (p ++ s) p.length := by
  induction k with
  | zero => rfl
  | succ k ih =>
    rw [← Nat.add_assoc, parentLoop]
    have hne : (p ++ s)[p.length + k]? ≠ some ':' := by
      rw [List.getElem?_append_right (by omega)]
      intro h
      rw [show p.length + k - p.length = k by omega] at h
      exact hs (List.mem_of_getElem? h)
    rw [if_neg hne]
    exact ih (by omega)

/-- `parent_path` takes off the last identifier. -/
theorem parentPath_append {a : List Name} {x : Name} (ha : Idents (a ++ [x])) :
    parentPath (joinPath (a ++ [x])) = some (joinPath a) := by
  have hx := (ha x (by simp)).2
  unfold parentPath
  by_cases hne : a = []
  · subst hne
    simp only [List.nil_append, joinPath]
    have := parentLoop_skip [] x hx x.length (Nat.le_refl _)
    simp only [List.nil_append, List.length_nil, Nat.zero_add] at this
    rw [this]
    simp [parentLoop]
  · have hpos : 0 < (joinPath a).length := joinPath_length_pos hne (fun y hy => ha y (by simp [hy]))
    have ht : joinPath (a ++ [x]) = (joinPath a ++ [':', ':']) ++ x := by
      rw [joinPath_append hne (by simp)]
      simp [joinPath]
    have := parentLoop_skip (joinPath a ++ [':', ':']) x hx x.length (Nat.le_refl _)
    rw [ht, show ((joinPath a ++ [':', ':']) ++ x).length = (joinPath a ++ [':', ':']).length + x.length by simp; omega, this]
    have hl : (joinPath a ++ [':', ':']).length = (joinPath a).length + 1 + 1 := by simp
    rw [hl, parentLoop]
    have hg : ((joinPath a ++ [':', ':']) ++ x)[(joinPath a).length + 1]? = some ':' := by
      rw [List.append_assoc, List.getElem?_append_right (by omega)]
      rw [show (joinPath a).length + 1 - (joinPath a).length = 1 by omega]
      rfl
    rw [if_pos hg, if_neg (by omega)]
    simp only [Option.map_some, Option.some.injEq, Nat.add_sub_cancel]
    rw [List.append_assoc, List.take_left]

end C3.NameRes
