import Verif.PathStd.Lemmas

set_option autoImplicit false

namespace C3.PathStd

theorem St.put' {n : Nat} {s : List Nat} {i len : Nat} {out rest : List Nat} (x : Nat)
    (h : St n s i len out rest) (hn : len < n) :
    wr s len x = .ok (s.set len x) ∧
      St n (s.set len x) (i + 1) (len + 1) (out ++ [x]) (rest.drop 1) := by
  have h2 := h.length
  have h3 := h.le
  refine ⟨wr_ok _ _ _ (by omega), by simp [h2], by omega, by simp [h.out_length], ?_, ?_⟩
  · rw [take_set_succ _ _ _ (by omega), h.out_eq]
  · rw [drop_set _ _ _ _ (by omega)]
    exact (h.skip 1).rest_eq

/-- `..` copied: a separator behind it if there is room, and there is room unless all is read. -/
theorem copyDots_eq {n : Nat} {s : List Nat} {i len : Nat} {out r2 : List Nat}
    (h : St n s i len out (46 :: 46 :: r2)) :
    ∃ s' len', copyDots s i len = .ok (s', len') ∧
      (St n s' (i + 3) len' (out ++ [46, 46, 47]) (r2.drop 1) ∨
        (r2 = [] ∧ s'.length = n ∧ len' ≤ n ∧ s'.take len' = out ++ [46, 46])) := by
  have hlt := h.lt
  have hle := h.le
  simp only [List.length_cons] at hlt
  have key : ∃ s1, putDots s i len = .ok s1 ∧
      St n s1 (i + 2) (len + 2) (out ++ [46, 46]) r2 := by
    by_cases he : i = len
    · subst he
      have := h.same.same
      exact ⟨s, by simp [putDots], by simpa using this⟩
    · obtain ⟨h1, h2⟩ := h.put 46
      obtain ⟨h3, h4⟩ := h2.put 46
      exact ⟨(s.set len 46).set (len + 1) 46, by simp [putDots, he, h1, h3, bind, Except.bind],
        by simpa using h4⟩
  obtain ⟨s1, hs1, hst⟩ := key
  rw [copyDots, hs1]
  have hl := hst.length
  by_cases hn : len + 2 < n
  · obtain ⟨h1, h2⟩ := hst.put' 47 hn
    refine ⟨s1.set (len + 2) 47, len + 3, by simp [bind, Except.bind, hl, hn, h1], Or.inl ?_⟩
    simpa using h2
  · refine ⟨s1, len + 2, by simp [bind, Except.bind, hl, hn], Or.inr ⟨?_, hl, by omega, hst.out_eq⟩⟩
    exact List.length_eq_zero_iff.1 (by omega)

theorem enter_dots (root : Bool) (st : List (List Nat)) :
    enter dotLike root st [46, 46] =
      match st.getLast? with
      | none => if root then none else some [[46, 46]]
      | some y => if dotLike y then some (st ++ [[46, 46]]) else some st.dropLast := by
  rw [enter, if_neg (by simp), if_neg (by simp), if_pos rfl]
  cases st.getLast? <;> rfl

theorem dotDot_eq {n : Nat} {root : Bool} {base s : List Nat} {st : List (List Nat)} {i len : Nat}
    {r2 : List Nat} (hb : base = if root then [47] else []) (hn : ∀ x ∈ st, Name x)
    (h : St n s i len (base ++ flat st) (46 :: 46 :: r2)) :
    (enter dotLike root st [46, 46] = none → dotDot s base.length root i len = .error .invalidPath) ∧
    (∀ st', enter dotLike root st [46, 46] = some st' →
      ∃ s' len', dotDot s base.length root i len = .ok ⟨s', len', true, 2⟩ ∧
        (St n s' (i + 3) len' (base ++ flat st') (r2.drop 1) ∨
          (r2 = [] ∧ s'.length = n ∧ len' ≤ n ∧ st' ≠ [] ∧ s'.take len' = base ++ join st'))) := by
  have hb' : base = [] ∨ base = [47] := by subst hb; cases root <;> simp
  have hol := h.out_length
  rw [enter_dots]
  rcases List.eq_nil_or_concat st with rfl | ⟨st0, x, rfl⟩
  · have hlen : len = base.length := by rw [← hol]; simp [flat]
    subst hlen
    cases root with
    | true =>
      refine ⟨fun _ => by simp [dotDot], fun st' h' => by simp at h'⟩
    | false =>
      refine ⟨fun h' => by simp at h', fun st' h' => ?_⟩
      simp at h'
      subst h'
      obtain ⟨s', len', h1, h2⟩ := copyDots_eq h
      refine ⟨s', len', by simp [dotDot, h1, bind, Except.bind], ?_⟩
      simpa [flat, join] using h2
  · rw [List.concat_eq_append] at hn h hol ⊢
    have hx : Name x := hn x (by simp)
    have hne : len ≠ base.length := by rw [← hol, flat_append]; simp
    have ha := afterDotDot_eq s base st0 x len hb' hx hol h.out_eq
    rw [getLast_of]
    by_cases hd : dotLike x = true
    · refine ⟨fun h' => by simp [hd] at h', fun st' h' => ?_⟩
      simp only [hd, if_true, Option.some.injEq] at h'
      subst h'
      obtain ⟨s', len', h1, h2⟩ := copyDots_eq h
      refine ⟨s', len', by simp [dotDot, hne, ha, hd, h1, bind, Except.bind], ?_⟩
      rw [flat_append (st0 ++ [x]), join_append (st0 ++ [x])]
      rcases h2 with h2 | ⟨e1, e2, e3, e4⟩
      · exact Or.inl (by simpa using h2)
      · exact Or.inr ⟨e1, e2, e3, by simp, by simpa using e4⟩
    · refine ⟨fun h' => by simp [hd] at h', fun st' h' => ?_⟩
      simp only [hd, if_false, Option.some.injEq, List.dropLast_concat, Bool.false_eq_true] at h'
      subst h'
      have hl : len - 1 = (base ++ flat st0).length + x.length := by
        rw [← hol, flat_append]; simp; omega
      have hp : (base ++ flat st0).length = base.length ∨ ∃ p, base ++ flat st0 = p ++ [47] := by
        by_cases h0 : base ++ flat st0 = []
        · left
          have := List.append_eq_nil_iff.1 h0
          simp [this.2]
        · exact Or.inr (ends_sep base st0 hb' h0)
      have hbk := back_eq s (base ++ flat st0) base.length (by simp) hp len x.length x [47] rfl hx.2.1
        (by rw [h.out_eq, flat_append]; simp)
      rw [← hl] at hbk
      have hle := h.le
      have hout : len = (base ++ flat st0).length + x.length + 1 := by
        rw [← hol, flat_append]; simp; omega
      refine ⟨s, (base ++ flat st0).length, ?_, Or.inl ?_⟩
      · rw [dotDot]
        simp only [hne, ha, hd, hbk, bind, Except.bind, beq_iff_eq, Bool.and_eq_true, false_and,
          if_false, Bool.false_eq_true]
      · refine ⟨h.length, by omega, rfl, ?_, ?_⟩
        · have := congrArg (List.take (base ++ flat st0).length) h.out_eq
          rw [List.take_take, Nat.min_eq_left (by omega), flat_append, ← List.append_assoc,
            List.take_left'] at this
          · exact this
          · rfl
        · have := (h.skip 3).rest_eq
          simpa using this

/-- How the loop may end. -/
def Ends (n : Nat) (base : List Nat) (o : Option (List (List Nat))) (r : Except Stop (List Nat × Nat)) :
    Prop :=
  (o = none → r = .error .invalidPath) ∧
  (∀ st, o = some st → (∀ x ∈ st, Name x) ∧ ∃ s len, r = .ok (s, len) ∧ s.length = n ∧ len ≤ n ∧
    (s.take len = base ++ flat st ∨ st ≠ [] ∧ s.take len = base ++ join st))

theorem loop_done {n start i len : Nat} {root prev : Bool} {s : List Nat} (h : n ≤ i) :
    loop n start root s i len prev = .ok (s, len) := by
  rw [loop, dif_neg (by omega)]

theorem loop_ok {n start i len : Nat} {root prev : Bool} {s : List Nat} {p : Pass} (h : i < n)
    (hp : pass s start root i len prev = .ok p) :
    loop n start root s i len prev = loop n start root p.str (i + p.skip + 1) p.len p.prev := by
  rw [loop, dif_pos h, hp]; rfl

theorem loop_err {n start i len : Nat} {root prev : Bool} {s : List Nat} {e : Stop} (h : i < n)
    (hp : pass s start root i len prev = .error e) :
    loop n start root s i len prev = .error e := by
  rw [loop, dif_pos h, hp]; rfl

/-- The dots at the start of a name that begins with one, if it is `.` or `..`. -/
def dotsOf : List Nat → Nat
  | [] => 1
  | c :: r =>
    if c = 46 then
      match r with
      | [] => 2
      | d :: _ => if d = 47 then 2 else 0
    else if c = 47 then 1 else 0

theorem dots_eq {n : Nat} {s : List Nat} {i len : Nat} {out r : List Nat}
    (h : St n s i len out (46 :: r)) : dots s i = .ok (dotsOf r) := by
  have hlt := h.lt
  have hl := h.length
  rw [dots]
  match r, h, hlt with
  | [], h, hlt =>
    simp only [List.length_nil] at hlt
    rw [if_pos (by simp; omega)]; rfl
  | c :: r, h, hlt =>
    simp only [List.length_cons] at hlt
    rw [if_neg (by simp; omega)]
    have h1 := rd_drop s _ i 1 c h.rest_eq (by simp)
    by_cases hc : c = 46
    · subst hc
      match r, h, hlt with
      | [], h, hlt =>
        simp only [List.length_nil] at hlt
        simp only [h1, bind, Except.bind, beq_self_eq_true, if_true]
        rw [if_pos (by simp; omega)]; rfl
      | d :: r, h, hlt =>
        simp only [List.length_cons] at hlt
        have h2 := rd_drop s _ i 2 d h.rest_eq (by simp)
        simp only [h1, bind, Except.bind, beq_self_eq_true, if_true]
        rw [if_neg (by simp; omega), h2]
        by_cases hd : d = 47 <;> simp [hd, isSep, dotsOf]
    · have : (c == 46) = false := by simpa using hc
      simp only [h1, bind, Except.bind, this, Bool.false_eq_true, if_false]
      by_cases hd : c = 47 <;> simp [hd, hc, isSep, dotsOf]

theorem enter_skip (root : Bool) (st : List (List Nat)) (x : List Nat) (h : x = [] ∨ x = [46]) :
    enter dotLike root st x = some st := by
  rcases h with rfl | rfl <;> simp [enter]

theorem enter_zero (kept : List Nat → Bool) (root : Bool) (st : List (List Nat)) (x : List Nat)
    (h : 0 ∈ x) : enter kept root st x = none := by simp [enter, h]

theorem enter_name (kept : List Nat → Bool) (root : Bool) (st : List (List Nat)) (x : List Nat)
    (h : Name x) (h1 : x ≠ [46]) (h2 : x ≠ [46, 46]) :
    enter kept root st x = some (st ++ [x]) := by
  simp [enter, h.1, h.2.2, h1, h2]

theorem enterAll_none (kept : List Nat → Bool) (root : Bool) (st xs : List (List Nat)) (x : List Nat)
    (h : enter kept root st x = none) : enterAll kept root st (x :: xs) = none := by
  rw [enterAll, h]; rfl

theorem enterAll_some (kept : List Nat → Bool) (root : Bool) (st st' xs : List (List Nat))
    (x : List Nat) (h : enter kept root st x = some st') :
    enterAll kept root st (x :: xs) = enterAll kept root st' xs := by
  rw [enterAll, h]; rfl

theorem names_enter (root : Bool) (st st' : List (List Nat)) (x : List Nat) (hx : 47 ∉ x)
    (hn : ∀ y ∈ st, Name y) (h : enter dotLike root st x = some st') : ∀ y ∈ st', Name y := by
  rw [enter] at h
  by_cases h0 : 0 ∈ x
  · simp [h0] at h
  rw [if_neg h0] at h
  by_cases h1 : x = [] ∨ x = [46]
  · rw [if_pos h1] at h
    cases h; exact hn
  rw [if_neg h1] at h
  have hnx : Name x := ⟨fun e => h1 (Or.inl e), hx, h0⟩
  have happ : ∀ y ∈ st ++ [x], Name y := by
    intro y hy
    rcases List.mem_append.1 hy with hy | hy
    · exact hn y hy
    · simp at hy; subst hy; exact hnx
  by_cases h2 : x = [46, 46]
  · rw [if_pos h2] at h
    cases hl : st.getLast? with
    | none =>
      rw [hl] at h
      cases root with
      | true => simp at h
      | false => simp at h; subst h; intro y hy; simp at hy; subst hy; exact hnx
    | some y =>
      rw [hl] at h
      by_cases hd : dotLike y = true
      · simp only [hd, if_true, Option.some.injEq] at h
        subst h; exact happ
      · simp only [hd, if_false, Option.some.injEq, Bool.false_eq_true] at h
        subst h
        intro z hz
        exact hn z (List.dropLast_subset st hz)
  · rw [if_neg h2] at h
    cases h; exact happ

theorem loop_eq (n : Nat) (root : Bool) (base : List Nat) (hb : base = if root then [47] else [])
    (k : Nat) : ∀ (s : List Nat) (i len : Nat) (out rest : List Nat) (st : List (List Nat)),
    rest.length ≤ k → St n s i len out rest → (∀ x ∈ st, Name x) →
    (out = base ++ flat st →
      Ends n base (enterAll dotLike root st (split rest)) (loop n base.length root s i len true)) ∧
    (∀ cur, Name cur → out = base ++ flat st ++ cur →
      (∀ r, (split (cur ++ rest)) ≠ [46] :: r ∧ (split (cur ++ rest)) ≠ [46, 46] :: r) →
      Ends n base (enterAll dotLike root st (split (cur ++ rest)))
        (loop n base.length root s i len false)) := by
  induction k with
  | zero =>
    intro s i len out rest st hk h hn
    have hr : rest = [] := List.length_eq_zero_iff.1 (by omega)
    subst hr
    have hol := h.out_length
    have hlen : len ≤ n := by
      have h1 := congrArg List.length h.out_eq
      have h2 := h.length
      simp at h1; omega
    constructor
    · rintro rfl
      rw [loop_done h.done]
      refine ⟨fun e => ?_, fun st' e => ?_⟩
      · simp [split, enterAll, enter] at e
      · simp [split, enterAll, enter] at e
        subst e
        exact ⟨hn, s, len, rfl, h.length, hlen, Or.inl h.out_eq⟩
    · intro cur hcur hout hdot
      rw [loop_done h.done]
      rw [List.append_nil] at hdot ⊢
      rw [split_cur _ hcur.2.1] at hdot ⊢
      have he := enter_name dotLike root st cur hcur
        (fun e => (hdot []).1 (by rw [e])) (fun e => (hdot []).2 (by rw [e]))
      rw [enterAll_some _ _ _ _ _ _ he, enterAll]
      refine ⟨fun e => by simp at e, fun st' e => ?_⟩
      cases e
      refine ⟨?_, s, len, rfl, h.length, hlen, Or.inr ⟨by simp, ?_⟩⟩
      · intro y hy
        rcases List.mem_append.1 hy with hy | hy
        · exact hn y hy
        · simp at hy; subst hy; exact hcur
      · rw [join_append, h.out_eq, hout]; simp
  | succ k ih =>
    intro s i len out rest st hk h hn
    cases rest with
    | nil =>
      exact (by
        have := ih s i len out [] st (by simp) h hn
        exact this)
    | cons c r =>
    simp only [List.length_cons] at hk
    have hlt := h.lt
    have hin : i < n := by omega
    have hc := h.rd0
    by_cases hsep : c = 47
    · subst hsep
      constructor
      · rintro rfl
        have hp : pass s base.length root i len true = .ok ⟨s, len, true, 0⟩ := by
          simp [pass, hc, bind, Except.bind, isSep]
        rw [loop_ok hin hp]
        rw [split, if_pos rfl, enterAll_some _ _ _ _ _ _ (enter_skip root st [] (Or.inl rfl))]
        have := ih s (i + 1) len _ r st (by omega) (by simpa using h.skip 1) hn
        exact this.1 rfl
      · intro cur hcur hout hdot
        obtain ⟨h1, h2⟩ := h.put 47
        have hp : pass s base.length root i len false = .ok ⟨s.set len 47, len + 1, true, 0⟩ := by
          simp [pass, hc, bind, Except.bind, isSep, h1]
        rw [loop_ok hin hp]
        rw [split_sep _ _ hcur.2.1] at hdot ⊢
        have he := enter_name dotLike root st cur hcur
          (fun e => (hdot _).1 (by rw [e])) (fun e => (hdot _).2 (by rw [e]))
        rw [enterAll_some _ _ _ _ _ _ he]
        have := ih _ (i + 1) (len + 1) _ r (st ++ [cur]) (by omega) h2
          (names_enter root st _ cur hcur.2.1 hn he)
        exact this.1 (by rw [flat_append, hout]; simp)
    · have hsep' : isSep c = false := by simpa [isSep] using hsep
      by_cases h0 : c = 0
      · subst h0
        constructor
        · rintro rfl
          have hp : pass s base.length root i len true = .error .invalidPath := by
            simp [pass, hc, bind, Except.bind, isSep, isReserved]
          rw [loop_err hin hp, split_cons_ne _ _ hsep,
            enterAll_none _ _ _ _ _ (enter_zero _ _ _ _ (by simp))]
          exact ⟨fun _ => rfl, fun st' e => by simp at e⟩
        · intro cur hcur hout hdot
          have hp : pass s base.length root i len false = .error .invalidPath := by
            simp [pass, hc, bind, Except.bind, isSep, isReserved]
          rw [loop_err hin hp, split_append _ _ hcur.2.1,
            enterAll_none _ _ _ _ _ (enter_zero _ _ _ _ (by simp [split_cons_ne _ _ hsep]))]
          exact ⟨fun _ => rfl, fun st' e => by simp at e⟩
      · have hres : isReserved c = false := by simp [isReserved, h0, hsep]
        obtain ⟨s', hpl, hst⟩ := h.plain
        have hnc : Name [c] := ⟨by simp, by simpa using fun e => hsep e.symm,
          by simpa using fun e => h0 e.symm⟩
        constructor
        · rintro rfl
          -- the byte is copied
          have hcopy : pass s base.length root i len true = .ok ⟨s', len + 1, false, 0⟩ →
              (∀ q, split (c :: r) ≠ [46] :: q ∧ split (c :: r) ≠ [46, 46] :: q) →
              Ends n base (enterAll dotLike root st (split (c :: r)))
                (loop n base.length root s i len true) := by
            intro hp hdot
            rw [loop_ok hin hp]
            have := ih s' (i + 1) (len + 1) _ r st (by omega) hst hn
            exact this.2 [c] hnc rfl hdot
          by_cases hdot : c = 46
          · subst hdot
            have hd := dots_eq h
            match r, hd, h, hlt, hk, hst, hcopy with
            | [], hd, h, hlt, hk, hst, hcopy =>
              have hp : pass s base.length root i len true = .ok ⟨s, len, true, 1⟩ := by
                simp [pass, hc, bind, Except.bind, isSep, isReserved, hd, dotsOf]
              rw [loop_ok hin hp]
              have hs : split [46] = [[46]] := split_cur _ (by simp)
              rw [hs, enterAll_some _ _ _ _ _ _ (enter_skip root st [46] (Or.inr rfl)), enterAll]
              have := ih s (i + 2) len _ [] st (by simp) (by simpa using h.skip 2) hn
              have := this.1 rfl
              simpa [split, enterAll, enter] using this
            | d :: r, hd, h, hlt, hk, hst, hcopy =>
            simp only [List.length_cons] at hk
            by_cases hd7 : d = 47
            · subst hd7
              have hp : pass s base.length root i len true = .ok ⟨s, len, true, 1⟩ := by
                simp [pass, hc, bind, Except.bind, isSep, isReserved, hd, dotsOf]
              rw [loop_ok hin hp]
              have hs : split (46 :: 47 :: r) = [46] :: split r := split_sep [46] r (by simp)
              rw [hs, enterAll_some _ _ _ _ _ _ (enter_skip root st [46] (Or.inr rfl))]
              exact (ih s (i + 2) len _ r st (by omega) (by simpa using h.skip 2) hn).1 rfl
            by_cases hd6 : d = 46
            · subst hd6
              match r, hd, h, hlt, hk, hst, hcopy with
              | [], hd, h, hlt, hk, hst, hcopy =>
                obtain ⟨d1, d2⟩ := dotDot_eq hb hn h
                have hpd : pass s base.length root i len true = dotDot s base.length root i len := by
                  simp [pass, hc, bind, Except.bind, isSep, isReserved, hd, dotsOf]
                have hs : split [46, 46] = [[46, 46]] := split_cur _ (by simp)
                rw [hs]
                cases he : enter dotLike root st [46, 46] with
                | none =>
                  rw [enterAll_none _ _ _ _ _ he, loop_err hin (by rw [hpd]; exact d1 he)]
                  exact ⟨fun _ => rfl, fun st' e => by simp at e⟩
                | some st' =>
                  obtain ⟨s2, len2, e1, e2⟩ := d2 st' he
                  rw [enterAll_some _ _ _ _ _ _ he, loop_ok hin (by rw [hpd]; exact e1), enterAll]
                  have hn' := names_enter root st st' _ (by simp) hn he
                  rcases e2 with e2 | ⟨_, e2, e3, e4, e5⟩
                  · have := (ih _ _ _ _ [] st' (by simp) e2 hn').1 rfl
                    simpa [split, enterAll, enter] using this
                  · simp only [List.length_cons, List.length_nil] at hlt
                    rw [loop_done (by dsimp only; omega)]
                    refine ⟨fun e => by simp at e, fun st'' e => ?_⟩
                    cases e
                    exact ⟨hn', s2, len2, rfl, e2, e3, Or.inr ⟨e4, e5⟩⟩
              | d :: r, hd, h, hlt, hk, hst, hcopy =>
              by_cases hd7 : d = 47
              · subst hd7
                obtain ⟨d1, d2⟩ := dotDot_eq hb hn h
                have hpd : pass s base.length root i len true = dotDot s base.length root i len := by
                  simp [pass, hc, bind, Except.bind, isSep, isReserved, hd, dotsOf]
                have hs : split (46 :: 46 :: 47 :: r) = [46, 46] :: split r :=
                  split_sep [46, 46] r (by simp)
                rw [hs]
                cases he : enter dotLike root st [46, 46] with
                | none =>
                  rw [enterAll_none _ _ _ _ _ he, loop_err hin (by rw [hpd]; exact d1 he)]
                  exact ⟨fun _ => rfl, fun st' e => by simp at e⟩
                | some st' =>
                  obtain ⟨s2, len2, e1, e2⟩ := d2 st' he
                  rw [enterAll_some _ _ _ _ _ _ he, loop_ok hin (by rw [hpd]; exact e1)]
                  have hn' := names_enter root st st' _ (by simp) hn he
                  rcases e2 with e2 | ⟨e0, _⟩
                  · simp only [List.length_cons] at hk
                    exact (ih _ _ _ _ r st' (by omega) (by simpa using e2) hn').1 rfl
                  · simp at e0
              · apply hcopy
                · simp [pass, hc, bind, Except.bind, isSep, isReserved, hd, dotsOf, hd7, hpl]
                · intro q
                  rw [show (46 :: 46 :: d :: r) = [46, 46] ++ (d :: r) from rfl,
                    split_append _ _ (by simp)]
                  simp [split_cons_ne _ _ hd7]
            · apply hcopy
              · simp [pass, hc, bind, Except.bind, isSep, isReserved, hd, dotsOf, hd7, hd6, hpl]
              · intro q
                rw [show (46 :: d :: r) = [46] ++ (d :: r) from rfl,
                  split_append _ _ (by simp)]
                simp [split_cons_ne _ _ hd7, hd6]
          · apply hcopy
            · simp [pass, hc, bind, Except.bind, hsep', hres, hdot, hpl]
            · intro q
              rw [split_cons_ne _ _ hsep]
              simp [hdot]
        · intro cur hcur hout hdot
          have hp : pass s base.length root i len false = .ok ⟨s', len + 1, false, 0⟩ := by
            simp [pass, hc, bind, Except.bind, hsep', hres, hpl]
          rw [loop_ok hin hp]
          have := ih s' (i + 1) (len + 1) _ r st (by omega) hst hn
          have hcur' : Name (cur ++ [c]) := by
            refine ⟨by simp, ?_, ?_⟩
            · simp [hcur.2.1]; exact fun e => hsep e.symm
            · simp [hcur.2.2]; exact fun e => h0 e.symm
          have := this.2 (cur ++ [c]) hcur' (by rw [hout]; simp) (by simpa using hdot)
          simpa using this

end C3.PathStd
