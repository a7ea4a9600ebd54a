import Verif.PathStd.LemmasLoop

set_option autoImplicit false

namespace C3.PathStd

theorem finish_eq (n : Nat) (root : Bool) (base s : List Nat) (len : Nat) (st : List (List Nat))
    (hb : base = if root then [47] else []) (hn : ∀ x ∈ st, Name x) (h0 : 0 < n) (hs : s.length = n)
    (hlen : len ≤ n)
    (h : s.take len = base ++ flat st ∨ st ≠ [] ∧ s.take len = base ++ join st) :
    finish s base.length len = .ok (render root st) := by
  have htl : (s.take len).length = len := by simp; omega
  rcases List.eq_nil_or_concat st with rfl | ⟨st0, x, rfl⟩
  · have h : s.take len = base := by
      rcases h with h | h
      · simpa [flat] using h
      · exact absurd rfl h.1
    have hl : len = base.length := by rw [← htl, h]
    subst hl
    rw [finish, trim, if_neg (by omega)]
    cases root with
    | true =>
      simp only [if_true] at hb
      subst hb
      simp at h
      simp [bind, Except.bind, render, join, h]
    | false =>
      simp at hb
      subst hb
      have hw := wr_ok s 0 46 (by omega)
      cases s with
      | nil => simp at hs; omega
      | cons a s => simp [bind, Except.bind, hw, render]
  · rw [List.concat_eq_append] at hn h ⊢
    have hx := hn x (by simp)
    have hr : render root (st0 ++ [x]) = base ++ (flat st0 ++ x) := by
      rw [render, join_append]
      cases root <;> simp [hb]
    have hxl : x.length ≠ 0 := fun e => hx.1 (List.length_eq_zero_iff.1 e)
    have htrim : ∃ len', trim s base.length len = .ok len' ∧ len' ≠ 0 ∧
        s.take len' = base ++ (flat st0 ++ x) := by
      rcases h with h | ⟨_, h⟩
      · have h' : s.take len = (base ++ (flat st0 ++ x)) ++ [47] := by rw [h, flat_append]; simp
        have hl := congrArg List.length h'
        rw [htl] at hl
        simp only [List.length_append, List.length_cons, List.length_nil] at hl
        have hrd := rd_at s (base ++ (flat st0 ++ x)) [] 47 len h'
        rw [show (base ++ (flat st0 ++ x)).length = len - 1 by simp; omega] at hrd
        refine ⟨len - 1, ?_, by omega, ?_⟩
        · rw [trim, if_pos (by omega), hrd]
          simp [bind, Except.bind, isSep]
        · have := congrArg (List.take (len - 1)) h'
          rw [List.take_take, Nat.min_eq_left (by omega), List.take_left'] at this
          · exact this
          · simp; omega
      · rw [join_append] at h
        have hl := congrArg List.length h
        rw [htl] at hl
        simp only [List.length_append] at hl
        refine ⟨len, ?_, by omega, h⟩
        rw [trim]
        split
        · rcases List.eq_nil_or_concat x with rfl | ⟨y, a, rfl⟩
          · simp at hxl
          rw [List.concat_eq_append] at h hl hx
          have hrd := rd_at s (base ++ (flat st0 ++ y)) [] a len (by rw [h]; simp)
          simp only [List.length_append, List.length_cons, List.length_nil] at hl
          rw [show (base ++ (flat st0 ++ y)).length = len - 1 by simp; omega] at hrd
          have ha : a ≠ 47 := by rintro rfl; exact hx.2.1 (by simp)
          simp [hrd, bind, Except.bind, isSep, ha]
        · rfl
    obtain ⟨len', h1, h2, h3⟩ := htrim
    rw [finish, h1]
    simp [bind, Except.bind, h2, h3, hr]

theorem normalize_eq (s : List Nat) : normalize s = orInvalid (normalBy dotLike s) := by
  cases s with
  | nil => simp [normalize, normalBy, orInvalid]
  | cons c r =>
    rw [normalize, if_neg (by simp), normalBy, if_neg (by simp)]
    have hrd : rd (c :: r) 0 = .ok c := rfl
    rw [hrd]
    have key : ∀ (root : Bool) (base : List Nat), base = (if root then [47] else []) →
        Ends (c :: r).length base (enterAll dotLike root [] (split (c :: r)))
          (loop (c :: r).length base.length root (c :: r) base.length base.length true) →
        (loop (c :: r).length base.length root (c :: r) base.length base.length true).bind
          (fun v => finish v.1 base.length v.2) =
          orInvalid (Option.map (render root) (enterAll dotLike root [] (split (c :: r)))) := by
      intro root base hb he
      cases ho : enterAll dotLike root [] (split (c :: r)) with
      | none =>
        rw [he.1 ho]; rfl
      | some st =>
        obtain ⟨hn, s', len', h1, h2, h3, h4⟩ := he.2 st ho
        rw [h1]
        exact finish_eq _ root base s' len' st hb hn (by simp) h2 h3 h4
    by_cases hc : c = 47
    · subst hc
      have := loop_eq (47 :: r).length true [47] rfl r.length (47 :: r) 1 1 [47] r [] (Nat.le_refl _)
        ⟨rfl, Nat.le_refl _, rfl, rfl, rfl⟩ (by simp)
      have h1 := this.1 (by simp [flat])
      have hs : enterAll dotLike true [] (split (47 :: r)) = enterAll dotLike true [] (split r) := by
        rw [split, if_pos rfl, enterAll_some _ _ _ _ _ _ (enter_skip true [] [] (Or.inl rfl))]
      have := key true [47] rfl (by rw [hs]; exact h1)
      exact this
    · have hs : isSep c = false := by simpa [isSep] using hc
      have := loop_eq (c :: r).length false [] rfl (c :: r).length (c :: r) 0 0 [] (c :: r) []
        (Nat.le_refl _) ⟨rfl, Nat.le_refl _, rfl, rfl, rfl⟩ (by simp)
      have h1 := this.1 (by simp [flat])
      have := key false [] rfl h1
      rw [isAbsolute, hs, ← this]
      show (loop _ _ (isSep c) _ _ _ _).bind _ = _
      rw [hs]; rfl

/-! ## Only `..` and names like it -/

theorem enter_congr (root : Bool) (st : List (List Nat)) (x : List Nat)
    (h : ∀ y ∈ st, ∀ c, y = [46, c] → c = 46) :
    enter dotLike root st x = enter (fun x => x == [46, 46]) root st x := by
  rw [enter, enter]
  split
  · rfl
  split
  · rfl
  split
  · cases hl : st.getLast? with
    | none => rfl
    | some y =>
      have hy : y ∈ st := List.mem_of_getLast? hl
      have : dotLike y = (y == [46, 46]) := by
        match y with
        | [] => rfl
        | [a] => simp [dotLike]
        | [a, b] =>
          have := h _ hy b
          by_cases ha : a = 46
          · subst ha
            have := this rfl
            subst this; rfl
          · simp [dotLike, ha]
        | a :: b :: c :: y => simp [dotLike]
      simp only [this]
  · rfl

theorem mem_enter (kept : List Nat → Bool) (root : Bool) (st st' : List (List Nat)) (x : List Nat)
    (h : enter kept root st x = some st') : ∀ y ∈ st', y ∈ st ∨ y = x := by
  rw [enter] at h
  split at h
  · simp at h
  split at h
  · cases h; exact fun y hy => Or.inl hy
  split at h
  · cases hl : st.getLast? with
    | none =>
      rw [hl] at h
      cases root with
      | true => simp at h
      | false => simp at h; subst h; intro y hy; right; simpa using hy
    | some z =>
      rw [hl] at h
      by_cases hk : kept z = true
      · simp only [hk, if_true, Option.some.injEq] at h
        subst h; intro y hy; simpa using hy
      · simp only [hk, if_false, Option.some.injEq, Bool.false_eq_true] at h
        subst h; intro y hy; exact Or.inl (List.dropLast_subset st hy)
  · cases h; intro y hy; simpa using hy

theorem enterAll_congr (root : Bool) (xs : List (List Nat)) :
    ∀ st, (∀ y ∈ st, ∀ c, y = [46, c] → c = 46) → (∀ y ∈ xs, ∀ c, y = [46, c] → c = 46) →
    enterAll dotLike root st xs = enterAll (fun x => x == [46, 46]) root st xs := by
  induction xs with
  | nil => intros; rfl
  | cons x xs ih =>
    intro st h1 h2
    rw [enterAll, enterAll, ← enter_congr root st x h1]
    cases he : enter dotLike root st x with
    | none => rfl
    | some st' =>
      simp only [Option.bind_some]
      apply ih st' _ (fun y hy => h2 y (by simp [hy]))
      intro y hy
      rcases mem_enter _ _ _ _ _ he y hy with h | rfl
      · exact h1 y h
      · exact h2 y (by simp)

/-! ## Normal forms stay -/

/-- Names each of which is behind those before it what entering it gives. -/
inductive Stable (kept : List Nat → Bool) (root : Bool) : List (List Nat) → Prop where
  | nil : Stable kept root []
  | snoc {st : List (List Nat)} {x : List Nat} : Stable kept root st →
      enter kept root st x = some (st ++ [x]) → Stable kept root (st ++ [x])

theorem Stable.dropLast {kept : List Nat → Bool} {root : Bool} {st : List (List Nat)}
    (h : Stable kept root st) : Stable kept root st.dropLast := by
  cases h with
  | nil => exact .nil
  | snoc h1 _ => simpa using h1

theorem Stable.enter {kept : List Nat → Bool} {root : Bool} {st st' : List (List Nat)} {x : List Nat}
    (h : Stable kept root st) (he : PathStd.enter kept root st x = some st') : Stable kept root st' := by
  have he0 := he
  rw [PathStd.enter] at he
  split at he
  · simp at he
  split at he
  · cases he; exact h
  split at he
  · cases hl : st.getLast? with
    | none =>
      rw [hl] at he
      have hst : st = [] := by simpa using hl
      subst hst
      cases root with
      | true => simp at he
      | false =>
        simp at he; subst he
        exact Stable.snoc (st := []) h he0
    | some z =>
      rw [hl] at he
      by_cases hk : kept z = true
      · simp only [hk, if_true, Option.some.injEq] at he
        subst he; exact .snoc h he0
      · simp only [hk, if_false, Option.some.injEq, Bool.false_eq_true] at he
        subst he; exact h.dropLast
  · cases he; exact .snoc h he0

theorem enterAll_append (kept : List Nat → Bool) (root : Bool) (xs ys : List (List Nat)) :
    ∀ st, enterAll kept root st (xs ++ ys) =
      (enterAll kept root st xs).bind fun st => enterAll kept root st ys := by
  induction xs with
  | nil => intro st; rfl
  | cons x xs ih =>
    intro st
    rw [List.cons_append, enterAll, enterAll]
    cases PathStd.enter kept root st x with
    | none => rfl
    | some st' => simpa using ih st'

theorem Stable.all {kept : List Nat → Bool} {root : Bool} {st : List (List Nat)}
    (h : Stable kept root st) : enterAll kept root [] st = some st := by
  induction h with
  | nil => rfl
  | snoc h1 h2 ih => rw [enterAll_append, ih]; simp [enterAll, h2]

theorem Stable.enterAll {kept : List Nat → Bool} {root : Bool} (xs : List (List Nat)) :
    ∀ {st st' : List (List Nat)}, Stable kept root st → PathStd.enterAll kept root st xs = some st' →
      Stable kept root st' := by
  induction xs with
  | nil => intro st st' h he; rw [PathStd.enterAll] at he; cases he; exact h
  | cons x xs ih =>
    intro st st' h he
    rw [PathStd.enterAll] at he
    cases h1 : PathStd.enter kept root st x with
    | none => rw [h1] at he; simp at he
    | some st1 =>
      rw [h1] at he
      exact ih (h.enter h1) he

theorem split_no_sep (s : List Nat) : ∀ x ∈ split s, 47 ∉ x := by
  induction s with
  | nil => simp [split]
  | cons c s ih =>
    by_cases hc : c = 47
    · rw [split, if_pos hc]
      intro x hx
      rcases List.mem_cons.1 hx with rfl | hx
      · simp
      · exact ih x hx
    · rw [split_cons_ne _ _ hc]
      intro x hx
      rcases List.mem_cons.1 hx with rfl | hx
      · intro h
        rcases List.mem_cons.1 h with h | h
        · exact hc h.symm
        · exact ih _ (List.head_mem _) h
      · exact ih x (List.mem_of_mem_tail hx)

/-- Names that are neither `.` nor empty, and have no separator or zero byte. -/
def Proper (x : List Nat) : Prop := Name x ∧ x ≠ [46]

theorem proper_enter (kept : List Nat → Bool) (root : Bool) (st st' : List (List Nat)) (x : List Nat)
    (hx : 47 ∉ x) (hn : ∀ y ∈ st, Proper y) (h : enter kept root st x = some st') :
    ∀ y ∈ st', Proper y := by
  intro y hy
  by_cases h0 : 0 ∈ x
  · simp [enter, h0] at h
  by_cases h1 : x = [] ∨ x = [46]
  · rw [enter, if_neg h0, if_pos h1] at h
    cases h; exact hn y hy
  · rcases mem_enter _ _ _ _ _ h y hy with hm | rfl
    · exact hn y hm
    · exact ⟨⟨fun e => h1 (Or.inl e), hx, h0⟩, fun e => h1 (Or.inr e)⟩

theorem proper_enterAll (kept : List Nat → Bool) (root : Bool) (xs : List (List Nat)) :
    ∀ (st st' : List (List Nat)), (∀ x ∈ xs, 47 ∉ x) → (∀ y ∈ st, Proper y) →
      enterAll kept root st xs = some st' → ∀ y ∈ st', Proper y := by
  induction xs with
  | nil => intro st st' _ hn h; rw [enterAll] at h; cases h; exact hn
  | cons x xs ih =>
    intro st st' hx hn h
    rw [enterAll] at h
    cases h1 : enter kept root st x with
    | none => rw [h1] at h; simp at h
    | some st1 =>
      rw [h1] at h
      exact ih st1 st' (fun z hz => hx z (by simp [hz]))
        (proper_enter kept root st st1 x (hx x (by simp)) hn h1) h

theorem join_head (x : List Nat) (st : List (List Nat)) : ∃ t, join (x :: st) = x ++ t := by
  cases st with
  | nil => exact ⟨[], by simp [join]⟩
  | cons y st => exact ⟨_, by rw [join]⟩

theorem isAbsolute_render (root : Bool) (st : List (List Nat)) (hn : ∀ x ∈ st, Name x) :
    isAbsolute (render root st) = root := by
  cases root with
  | true => simp [render, isAbsolute, isSep]
  | false =>
    cases st with
    | nil => simp [render, isAbsolute, isSep]
    | cons x st =>
      obtain ⟨t, ht⟩ := join_head x st
      have hx := hn x (by simp)
      simp only [render, Bool.false_eq_true, if_false, ht]
      rw [if_neg (by simp)]
      cases x with
      | nil => exact absurd rfl hx.1
      | cons a x =>
        have : a ≠ 47 := by rintro rfl; exact hx.2.1 (by simp)
        simp [isAbsolute, isSep, this]

theorem render_ne (root : Bool) (st : List (List Nat)) (hn : ∀ x ∈ st, Name x) :
    render root st ≠ [] := by
  cases root with
  | true => simp [render]
  | false =>
    cases st with
    | nil => simp [render]
    | cons x st =>
      obtain ⟨t, ht⟩ := join_head x st
      have hx := hn x (by simp)
      simp [render, ht, hx.1]

/-- Reading a path of such names again. -/
theorem enterAll_render (kept : List Nat → Bool) (root : Bool) (st : List (List Nat))
    (hn : ∀ x ∈ st, Name x) (h : Stable kept root st) :
    enterAll kept root [] (split (render root st)) = some st := by
  cases root with
  | true =>
    rw [render, if_pos rfl, split, if_pos rfl, enterAll_some (st' := [])]
    · cases st with
      | nil => simp [join, split, enterAll, enter]
      | cons x st => rw [split_join _ (fun y hy => (hn y hy).2.1) (by simp)]; exact h.all
    · simp [enter]
  | false =>
    cases st with
    | nil => simp [render, split, enterAll, enter]
    | cons x st =>
      rw [render, if_neg (by simp), if_neg (by simp),
        split_join _ (fun y hy => (hn y hy).2.1) (by simp)]
      exact h.all

theorem normalBy_some (kept : List Nat → Bool) (s t : List Nat) (hs : s ≠ [])
    (h : normalBy kept s = some t) :
    ∃ st, enterAll kept (isAbsolute s) [] (split s) = some st ∧ t = render (isAbsolute s) st ∧
      Stable kept (isAbsolute s) st ∧ ∀ y ∈ st, Proper y := by
  rw [normalBy, if_neg hs, Option.map_eq_some_iff] at h
  obtain ⟨st, h1, h2⟩ := h
  exact ⟨st, h1, h2.symm, Stable.enterAll _ .nil h1,
    proper_enterAll kept _ _ [] st (split_no_sep s) (by simp) h1⟩

theorem normalBy_idem (kept : List Nat → Bool) (s t : List Nat) (h : normalBy kept s = some t) :
    normalBy kept t = some t := by
  by_cases hs : s = []
  · subst hs
    simp [normalBy] at h
    subst h; simp [normalBy]
  · obtain ⟨st, h1, rfl, h2, h3⟩ := normalBy_some kept s t hs h
    have hn : ∀ x ∈ st, Name x := fun x hx => (h3 x hx).1
    rw [normalBy, if_neg (render_ne _ _ hn), isAbsolute_render _ _ hn, enterAll_render _ _ _ hn h2]
    rfl

theorem orInvalid_ok (o : Option (List Nat)) (t : List Nat) : orInvalid o = .ok t ↔ o = some t := by
  cases o <;> simp [orInvalid]

/-! ## The last separator -/

theorem rindex_none (c : Nat) (s : List Nat) (n : Nat) :
    rindex c s n = none ↔ c ∉ s.take n := by
  induction n with
  | zero => simp [rindex]
  | succ n ih =>
    rw [rindex, List.take_add_one]
    split
    · next h => simp [h]
    · next h =>
      rw [ih, List.mem_append, not_or]
      constructor
      · intro h1
        refine ⟨h1, ?_⟩
        cases hs : s[n]? with
        | none => simp
        | some d =>
          simp only [Option.toList, List.mem_singleton]
          rintro rfl; exact h hs
      · exact fun h1 => h1.1

theorem rindex_at (c : Nat) (a b : List Nat) (hb : c ∉ b) :
    rindex c (a ++ c :: b) (a ++ c :: b).length = some a.length := by
  have : ∀ k, k ≤ b.length → rindex c (a ++ c :: b) (a.length + 1 + k) = some a.length := by
    intro k
    induction k with
    | zero => intro _; simp [rindex]
    | succ k ih =>
      intro hk
      rw [← Nat.add_assoc, rindex, if_neg]
      · exact ih (by omega)
      · rw [List.getElem?_append_right (by omega), show a.length + 1 + k - a.length = k + 1 by omega]
        simp only [List.getElem?_cons_succ]
        intro h
        exact hb (List.mem_of_getElem? h)
  have h := this b.length (Nat.le_refl _)
  rw [show (a ++ c :: b).length = a.length + 1 + b.length by simp; omega]
  exact h

theorem rindex_spec (c : Nat) (s : List Nat) :
    (rindex c s s.length = none ∧ c ∉ s) ∨
    (∃ a b, s = a ++ c :: b ∧ c ∉ b ∧ rindex c s s.length = some a.length) := by
  by_cases h : c ∈ s
  · right
    obtain ⟨a, b, h1, h2⟩ : ∃ a b, s = a ++ c :: b ∧ c ∉ b := by
      induction s with
      | nil => simp at h
      | cons d s ih =>
        by_cases hs : c ∈ s
        · obtain ⟨a, b, rfl, h2⟩ := ih hs
          exact ⟨d :: a, b, rfl, h2⟩
        · rcases List.mem_cons.1 h with rfl | h
          · exact ⟨[], s, rfl, hs⟩
          · exact absurd h hs
    exact ⟨a, b, h1, h2, by subst h1; exact rindex_at c a b h2⟩
  · left
    exact ⟨(rindex_none c s s.length).2 (by simpa using h), h⟩

theorem render_snoc (root : Bool) (st : List (List Nat)) (x : List Nat) :
    render root (st ++ [x]) = (if root then [47] else []) ++ flat st ++ x := by
  rw [render, join_append]
  cases root <;> simp

theorem render_snoc2 (root : Bool) (st : List (List Nat)) (x y : List Nat) :
    render root (st ++ [x] ++ [y]) = render root (st ++ [x]) ++ 47 :: y := by
  rw [render_snoc, render_snoc, flat_append]; simp

end C3.PathStd
