import Verif.ConstInit.LemmasInit

/-! # Stores and initializers do not fail -/

set_option autoImplicit false

namespace C3.ConstInit

variable {α : Type} {fl : Bool}

def NotFull (h : Heap α) (a : Nat) : Prop := ∀ t els, h[a]? ≠ some (t, .arrayFull els)

/-- The change is made; with `nf` only if the root is not `CONST_INIT_ARRAY_FULL`. -/
def Prog (fl nb sc nf : Bool) (k : Update α) (t t' : Ty) : Prop :=
  ∀ (h : Heap α) (a : Nat) (v : Val α) (m w : Content α) (F Fv : Nat → Prop),
    Own fl h t a m F → OwnVal fl h t' v w Fv → (∀ x, F x → ¬ Fv x) →
    (nb = true → sema_initializer_list_is_empty h v = false) → (sc = true → ∃ x, v = .scalar x) → (nf = true → NotFull h a) →
    ∃ h' v', k h a v = some (h', v')

theorem rewrite_prog (t : Ty) : Prog (α := α) fl false false false const_init_rewrite_to_value t t := by
  intro h a v m w F Fv o ov dj _ _ _
  cases ov with
  | scalar x => exact ⟨_, _, rfl⟩
  | init ob =>
    obtain ⟨n, hb, -⟩ := ob.cell
    exact ⟨_, _, by simp [const_init_rewrite_to_value, hb]; exact ⟨rfl, rfl⟩⟩

theorem Prog.weaken {nb sc nf nb' sc' nf' : Bool} {k : Update α} {t t' : Ty} (hk : Prog fl nb sc nf k t t')
    (h1 : nb = true → nb' = true) (h2 : sc = true → sc' = true) (h3 : nf = true → nf' = true) : Prog fl nb' sc' nf' k t t' :=
  fun h a v m w F Fv o ov dj hnb hsc hnf => hk h a v m w F Fv o ov dj (fun h => hnb (h1 h)) (fun h => hsc (h2 h)) (fun h => hnf (h3 h))

theorem struct_prog {nb sc last : Bool} {k : Update α} {ms : List Ty} {i : Nat} {t t' : Ty} (hk : Prog fl nb sc false k t t')
    (ht : ms[i]? = some t) : Prog fl (nb || last) sc false (updateStruct last k ms i) (.struct ms) t' := by
  intro h a v m w F Fv o ov dj hnb hsc _
  obtain ⟨n, hn, -⟩ := o.cell
  have hcond : (last && sema_initializer_list_is_empty h v) = false := by
    cases hl : last
    · rfl
    · simp [hnb (by simp [hl])]
  obtain ⟨els, h1, he⟩ : ∃ els h1, expandStruct h a ms n = some (els, h1) := by
    cases o with
    | zero hz => rw [hz] at hn; cases hn; exact ⟨_, _, rfl⟩
    | struct hz => rw [hz] at hn; cases hn; exact ⟨_, _, rfl⟩
  obtain ⟨M, F1, rfl, s, hlen, hsub, hfr⟩ := expandStruct_spec o hn he
  have ovf : ∀ x, Fv x → h1[x]? = h[x]? := fun x hx => hfr x (ov.lt x hx) fun h => dj x h hx
  have dj1 : ∀ x, fp a F1 (· < ms.length) x → ¬ Fv x := by
    intro x hx hv
    rcases hsub x hx with h1 | h1
    · exact dj x h1 hv
    · have := ov.lt x hv; omega
  have hi : i < ms.length := (List.getElem?_eq_some_iff.1 ht).1
  have hs : els[i]? = some (els[i]'(by have := s.hl; omega)) := List.getElem?_eq_getElem _
  obtain ⟨h', v', hu⟩ := hk h1 _ v (M i) w (F1 i) Fv (s.kids i t _ ht hs) (ov.frame ovf)
    (fun x hx => dj1 x (Or.inr ⟨i, hi, hx⟩)) (fun hb => by rw [ov.empty_frame ovf]; exact hnb (by simp [hb])) hsc nofun
  exact ⟨h', v', by simp [updateStruct, hn, hcond, he, hs, hu]⟩

theorem union_prog {nb sc last : Bool} {k : Update α} {ms : List Ty} {i : Nat} {t t' : Ty} (hk : Prog fl nb sc false k t t')
    (ht : ms[i]? = some t) : Prog fl nb sc false (updateUnion last k ms i) (.union ms) t' := by
  intro h a v m w F Fv o ov dj hnb hsc _
  obtain ⟨n, hn, -⟩ := o.cell
  by_cases hcond : (last && sema_initializer_list_is_empty h v) = true
  · exact ⟨_, _, by simp only [updateUnion, hn, Option.bind_eq_bind, Option.bind_some, hcond, if_true]; rfl⟩
  · obtain ⟨sub, h1, he⟩ : ∃ sub h1, unionElement h i t n = some (sub, h1) := by
      cases o with
      | zero hz => rw [hz] at hn; cases hn; exact ⟨_, _, rfl⟩
      | @union _ e j _ tj mj Fj hz htj kid sep =>
        rw [hz] at hn; cases hn
        obtain ⟨n, hkc, -⟩ := kid.cell
        by_cases hij : i = j
        · exact ⟨_, _, by simp [unionElement, hij, hkc]; exact ⟨rfl, rfl⟩⟩
        · exact ⟨_, _, by simp [unionElement, hij]; exact ⟨rfl, rfl⟩⟩
    obtain ⟨M, Fk, rfl, ok, hka, ha1, hlen, hsub, hfr⟩ := unionElement_spec o hn ht he
    have hfr1 : ∀ x, x < h.length → ¬ F x → (h1.set a (.union ms, .union sub i))[x]? = h[x]? := by
      intro x hx hf
      rw [get_set_ne (fun (e : x = a) => hf (e ▸ o.root)), hfr x hx hf]
    have ovf : ∀ x, Fv x → (h1.set a (.union ms, .union sub i))[x]? = h[x]? := fun x hx => hfr1 x (ov.lt x hx) fun h => dj x h hx
    have dj1 : ∀ x, Fk x → ¬ Fv x := by
      intro x hx hv
      rcases hsub x hx with h1 | h1
      · exact dj x h1 hv
      · have := ov.lt x hv; omega
    obtain ⟨h', v', hu⟩ := hk _ sub v (M i) w Fk Fv ok (ov.frame ovf) dj1
      (fun hb => by rw [ov.empty_frame ovf]; exact hnb hb) hsc nofun
    exact ⟨h', v', by simp only [updateUnion, hn, Option.bind_eq_bind, Option.bind_some, hcond, if_false, ht, he, hu, Bool.false_eq_true]⟩

theorem walk_some {h : Heap α} {C E : Nat → Nat} {T : Nat → Ty} {i : Nat} : ∀ {L : List Nat} (p : Nat),
    (∀ j, j ∈ L → h[C j]? = some (T j, .arrayValue (E j) j)) → ∃ pos, walk h i (L.map C) p = some pos := by
  intro L
  induction L with
  | nil => intro p _; exact ⟨p, rfl⟩
  | cons j L ih =>
    intro p hc
    simp only [List.map_cons, walk, hc j (by simp)]
    split
    · exact ih (p + 1) fun j hj => hc j (by simp [hj])
    · exact ⟨p, rfl⟩

theorem length_le_of_sorted : ∀ (A : List Nat) (lo i : Nat), A.Pairwise (· < ·) → (∀ j, j ∈ A → lo ≤ j ∧ j < i) → lo ≤ i → lo + A.length ≤ i := by
  intro A
  induction A with
  | nil => intro lo i _ _ h; simpa using h
  | cons j A ih =>
    intro lo i hs hA _
    have hj := hA j (by simp)
    have := ih (j + 1) i (List.pairwise_cons.1 hs).2 (fun l hl => ⟨(List.pairwise_cons.1 hs).1 l hl, (hA l (by simp [hl])).2⟩) hj.2
    simp only [List.length_cons]; omega

/-- The search succeeds: the assertion in it holds. -/
theorem Arr.find_some {h : Heap α} {len : Nat} {base : Ty} {a : Nat} {L : List Nat} {C E : Nat → Nat} {T : Nat → Ty} {M : Nat → Content α}
    {F : Nat → Nat → Prop} (s : Arr fl h len base a L C E T M F) {i ins : Nat}
    (hins : ∀ j, j ∈ L.take ins → j < i) (hle : ins ≤ L.length) : ∃ r, atIndex h base (L.map C) i ins = some r := by
  obtain ⟨pos, hw⟩ := walk_some (h := h) (C := C) (E := E) (T := T) (i := i) (L := L.drop ins) ins
    fun j hj => (s.cells j (List.mem_of_mem_drop hj)).1
  obtain ⟨A', B, hAB, hpos, hA', hB⟩ := walk_spec (E := E) (T := T) (fun j hj => (s.cells j (List.mem_of_mem_drop hj)).1) hw
  rw [List.map_drop] at hw
  obtain ⟨A, hA, hL, hAl⟩ : ∃ A, (∀ j, j ∈ A → j < i) ∧ L = A ++ B ∧ A.length = pos := by
    refine ⟨L.take ins ++ A', ?_, ?_, ?_⟩
    · intro j hj
      rcases List.mem_append.1 hj with hj | hj
      · exact hins j hj
      · exact hA' j hj
    · rw [List.append_assoc, ← hAB, List.take_append_drop]
    · simp only [List.length_append, List.length_take]; omega
  subst hL
  have hle' := length_le_of_sorted A 0 i (List.pairwise_append.1 s.sorted).1 (fun j hj => ⟨Nat.zero_le _, hA j hj⟩) (Nat.zero_le _)
  simp only [atIndex, alloc, hw, Option.bind_eq_bind, Option.bind_some]
  cases B with
  | nil =>
    rw [List.append_nil, List.getElem?_eq_none (by simp; omega)]
    exact ⟨_, rfl⟩
  | cons b B =>
    have hget : ((A ++ b :: B).map C)[pos]? = some (C b) := by
      rw [← hAl]; simp
    have hbc := s.cells b (by simp)
    rw [hget]
    simp only [hbc.1]
    split
    · rename_i hbi
      have := hB b (by simp)
      rw [if_pos (by omega)]
      exact ⟨_, rfl⟩
    · exact ⟨_, rfl⟩

theorem arrayLoop_some {nb sc z r : Bool} {k : Update α} {base t' : Ty} {ps : List (List Nat)} (hk : Upd fl nb sc z r k base t' ps)
    (hp : Prog fl nb sc false k base t') {len a : Nat} :
    ∀ (n lo ins : Nat) (h : Heap α) (v : Val α) (L : List Nat) (C E : Nat → Nat) (T : Nat → Ty)
      (M : Nat → Content α) (F : Nat → Nat → Prop) (w : Content α) (Fv : Nat → Prop),
    Arr fl h len base a L C E T M F → ins ≤ L.length → (∀ j, j ∈ L.take ins → j < lo) →
    lo + n ≤ len → OwnVal fl h t' v w Fv → (∀ x, arrFp a L C F x → ¬ Fv x) →
    (nb = true → sema_initializer_list_is_empty h v = false) → (sc = true → ∃ x, v = .scalar x) → (2 ≤ n → ∃ x, v = .scalar x) →
    ∃ h' v', arrayLoop k base a n lo ins h v = some (h', v') := by
  intro n
  induction n with
  | zero =>
    intro lo ins h v L C E T M F w Fv s hins hlt hlen ov dj hnb hsc h2
    exact ⟨_, _, rfl⟩
  | succ n ih =>
    intro lo ins h v L C E T M F w Fv s hins hlt hlen ov dj hnb hsc h2
    obtain ⟨nd, hnd, hel, hwe⟩ : ∃ nd : Node α, h[a]? = some (.array len base, nd) ∧ elementsOf nd = some (L.map C) ∧
        ∀ els, withElements els nd = .array els := by
      rcases s.ha with ha | ⟨ha, rfl⟩
      · exact ⟨_, ha, rfl, fun _ => rfl⟩
      · exact ⟨_, ha, rfl, fun _ => rfl⟩
    obtain ⟨⟨e, els, pos, h1⟩, hf⟩ := s.find_some hlt hins
    obtain ⟨L1, C1, E1, T1, F1, s1, hels, hi, he, hpos, hlt1, hlen1, hfr1, hsub1⟩ := s.find (by omega) hlt hins hf
    subst he
    have ovf : ∀ x, Fv x → (h1.set a (.array len base, .array els))[x]? = h[x]? := fun x hx =>
      hfr1 x (ov.lt x hx) fun (e : x = a) => dj x (.inl e) hx
    have dj1 : ∀ x, arrFp a L1 C1 F1 x → ¬ Fv x := by
      intro x hx hv
      rcases hsub1 x hx with h3 | h3
      · exact dj x h3 hv
      · have := ov.lt x hv; omega
    obtain ⟨h2', v2, hk'⟩ := hp _ _ v (M lo) w (F1 lo) Fv (s1.kids lo hi) (ov.frame ovf)
      (fun x hx => dj1 x (.inr ⟨lo, hi, .inr hx⟩)) (fun hb => by rw [ov.empty_frame ovf]; exact hnb hb) hsc nofun
    obtain ⟨⟨F', r⟩, hv, -⟩ := hk _ _ v h2' v2 (M lo) w (F1 lo) Fv hk' (s1.kids lo hi) (ov.frame ovf)
      (fun x hx => dj1 x (.inr ⟨lo, hi, .inr hx⟩)) (fun hb => by rw [ov.empty_frame ovf]; exact hnb hb) hsc
    obtain ⟨F2, s2, hsub2, hfr2⟩ := s1.change hi r dj1
    have goal : ∃ h' v', arrayLoop k base a n (lo + 1) pos h2' v2 = some (h', v') := by
      cases n with
      | zero => exact ⟨_, _, rfl⟩
      | succ n =>
        obtain ⟨x0, rfl⟩ := h2 (by omega)
        have hv2 := hv x0 rfl
        subst hv2
        cases ov with
        | scalar x0 =>
        exact ih (lo + 1) pos h2' (.scalar x0) L1 C1 E1 T1 _ F2 _ (fun _ => False) s2 hpos
          (fun j hj => by have := hlt1 j hj; omega) (by omega) (.scalar x0) (fun _ _ h => h) (fun _ => rfl) (fun _ => ⟨x0, rfl⟩) (fun _ => ⟨x0, rfl⟩)
    obtain ⟨h', v', hg⟩ := goal
    exact ⟨h', v', by simp only [arrayLoop, hnd, Option.bind_eq_bind, Option.bind_some, hel, hwe, hf, hk', hg]⟩

theorem array_prog {nb sc z r : Bool} {k : Update α} {base t' : Ty} {ps : List (List Nat)} (hk : Upd fl nb sc z r k base t' ps)
    (hp : Prog fl nb sc false k base t') {len lo hi : Nat} (hh : hi < len) :
    Prog fl nb (sc || decide (lo < hi)) fl (updateArray k base lo hi) (.array len base) t' := by
  intro h a v m w F Fv o ov dj hnb hsc hnf
  rcases o.arr with ⟨L, C, E, T, M, F', s, rfl, rfl⟩ | ⟨hfl, els, ha, hl, hc⟩
  · by_cases hlh : lo ≤ hi
    · exact arrayLoop_some hk hp (hi + 1 - lo) lo 0 h v L C E T M F' w Fv s (by simp) (by simp) (by omega) ov dj hnb
        (fun hb => hsc (by simp [hb])) (fun h2 => hsc (by simp; omega))
    · exact ⟨h, v, by simp [updateArray, show hi + 1 - lo = 0 by omega, arrayLoop]⟩
  · exact absurd ha (hnf hfl _ _)

/-- A step and what follows it. -/
theorem step_prog {s : Step} {p : List Step} {t t' : Ty} (h : sema_expr_analyse_designator t (s :: p) = some t') (hin : inside t (s :: p) = true)
    (ih : ∀ {u : Ty}, sema_expr_analyse_designator u p = some t' → inside u p = true →
      Prog (α := α) fl (endsInStruct u p) (p.any Step.wide) false (if p.isEmpty then const_init_rewrite_to_value else update p) u t') :
    Prog (α := α) fl (endsInStruct t (s :: p)) ((s :: p).any Step.wide) (fl && !s.isField) (update (s :: p)) t t' := by
  have step : ∀ {k : Update α} {nb sc nf : Bool}, Prog fl nb sc nf k t t' →
      (∀ h a v n, h[a]? = some (t, n) → update (s :: p) h a v = k h a v) → Prog (α := α) fl nb sc nf (update (s :: p)) t t' := by
    intro k nb sc nf hk heq h a v m w F Fv o ov dj h1 h2 h3
    obtain ⟨n, hn, -⟩ := o.cell
    rw [heq h a v n hn]
    exact hk h a v m w F Fv o ov dj h1 h2 h3
  cases s <;> cases t <;> simp only [sema_expr_analyse_designator, reduceCtorEq] at h
  · obtain ⟨u, h1, h2⟩ := Option.bind_eq_some_iff.1 h
    rename_i i ms
    have hk := ih h2 (by simpa [inside, Ty.child, Step.first, h1] using hin)
    refine step (k := updateStruct p.isEmpty (if p.isEmpty then const_init_rewrite_to_value else update p) ms i) ?_ ?_
    · refine (struct_prog (last := p.isEmpty) hk h1).weaken ?_ ?_ (by simp)
      · simp only [endsInStruct, Step.first, Ty.child, h1, Ty.isStruct, Option.any_some, Bool.or_eq_true, Bool.true_and]
        exact Or.symm
      · simp [Step.wide]
    · intro h a v n hn
      simp [update, hn]
  · obtain ⟨u, h1, h2⟩ := Option.bind_eq_some_iff.1 h
    rename_i i ms
    have hk := ih h2 (by simpa [inside, Ty.child, Step.first, h1] using hin)
    refine step (k := updateUnion p.isEmpty (if p.isEmpty then const_init_rewrite_to_value else update p) ms i) ?_ ?_
    · refine (union_prog (last := p.isEmpty) hk h1).weaken ?_ ?_ (by simp)
      · simp [endsInStruct, Step.first, Ty.child, h1, Ty.isStruct]
      · simp [Step.wide]
    · intro h a v n hn
      simp [update, hn]
  · rename_i i len base
    by_cases hi : i ≥ len
    · rw [if_pos hi] at h; cases h
    · rw [if_neg hi] at h
      have hin' : inside base p = true := by simpa [inside, Ty.child, Step.first] using hin
      have hk := ih h hin'
      refine step (k := updateArray (if p.isEmpty then const_init_rewrite_to_value else update p) base i i) ?_ ?_
      · refine (array_prog (len := len) (path_upd (fl := fl) p h hin') hk (by omega)).weaken ?_ ?_ (by simp [Step.isField])
        · simp [endsInStruct, Step.first, Ty.child, Ty.isStruct]
        · simp [Step.wide]
      · intro h a v n hn
        simp [update, hn]
  · rename_i lo hi len base
    by_cases h1 : lo ≥ len
    · rw [if_pos h1] at h; cases h
    · rw [if_neg h1] at h
      by_cases h2 : lo > hi
      · rw [if_pos h2] at h; cases h
      · rw [if_neg h2] at h
        by_cases h3 : hi > len
        · rw [if_pos h3] at h; cases h
        · rw [if_neg h3] at h
          simp only [inside, Bool.and_eq_true, decide_eq_true_eq] at hin
          have hk := ih h hin.2
          refine step (k := updateArray (if p.isEmpty then const_init_rewrite_to_value else update p) base lo hi) ?_ ?_
          · refine (array_prog (len := len) (path_upd (fl := fl) p h hin.2) hk hin.1).weaken ?_ ?_ (by simp [Step.isField])
            · simp [endsInStruct, Step.first, Ty.child, Ty.isStruct]
            · simp only [List.any_cons, Step.wide, Bool.or_eq_true]; exact Or.symm
          · intro h a v n hn
            simp [update, hn]

theorem path_prog : ∀ (p : List Step) {t t' : Ty}, (fl = false ∨ p.all Step.isField = true) → sema_expr_analyse_designator t p = some t' →
    inside t p = true →
    Prog (α := α) fl (endsInStruct t p) (p.any Step.wide) false (if p.isEmpty then const_init_rewrite_to_value else update p) t t' := by
  intro p
  induction p with
  | nil =>
    intro t t' _ h _
    simp only [sema_expr_analyse_designator, Option.some.injEq] at h
    subst h
    exact rewrite_prog t
  | cons s p ih =>
    intro t t' hc h hin
    simp only [List.isEmpty_cons, Bool.false_eq_true, if_false]
    refine (step_prog h hin fun h1 h2 => ih ?_ h1 h2).weaken id id ?_
    · rcases hc with hc | hc
      · exact .inl hc
      · exact .inr (by simp only [List.all_cons, Bool.and_eq_true] at hc; exact hc.2)
    · rcases hc with hc | hc
      · simp [hc]
      · simp only [List.all_cons, Bool.and_eq_true] at hc
        simp [hc.1]

theorem applyAll_some {t : Ty} {a : Nat} {ds : Desigs α} : ∀ {l : List (List Step × Val α)} {Fs : List (Nat → Prop)} {h : Heap α} {m : Content α} {F : Nat → Prop},
    Todo fl h t ds l Fs → Own fl h t a m F → (∀ G, G ∈ Fs → ∀ x, F x → ¬ G x) → (fl = false ∨ shallow ds = true) → NotFull h a →
    ∃ h', applyAll a l h = some h' := by
  intro l
  induction l generalizing ds with
  | nil => intro Fs h m F d o dj _ _; exact ⟨h, rfl⟩
  | cons pv l ih =>
    intro Fs h m F d o dj hsh hnf
    cases d with
    | @cons path i v t' Fv ds _ Fs hp ht hin ov hw hs hb rest djr =>
    have hpu := path_upd (α := α) (fl := fl) path ht hin
    have hpp : Prog (α := α) fl (endsInStruct t path) (path.any Step.wide) true (update path) t t' := by
      cases path with
      | nil => cases hp
      | cons s p =>
        refine (step_prog ht hin fun h1 h2 => path_prog p ?_ h1 h2).weaken id id (fun _ => rfl)
        rcases hsh with h | h
        · exact .inl h
        · simp only [shallow, Bool.and_eq_true] at h; exact .inr h.1
    rw [hp] at hpu
    simp only [Bool.false_eq_true, if_false, Bool.false_or] at hpu
    obtain ⟨h1, v1, hu1⟩ := hpp h a v m (denote t' i) F Fv o ov (dj Fv (by simp)) hs hw fun _ => hnf
    obtain ⟨⟨F1, r⟩, -, hz⟩ := hpu h a v h1 v1 m (denote t' i) F Fv hu1 o ov (dj Fv (by simp)) hs hw
    have dlt := rest.lt
    have rest1 : Todo fl h1 t ds l Fs := rest.frame fun G hG x hx =>
      r.frame x (dlt G hG x hx) fun hf => dj G (by simp [hG]) x hf hx
    have dj1 : ∀ G, G ∈ Fs → ∀ x, F1 x → ¬ G x := by
      intro G hG x hx hgx
      rcases r.sub x hx with h2 | h2 | h2
      · exact dj G (by simp [hG]) x h2 hgx
      · exact djr G hG x h2 hgx
      · have := dlt G hG x hgx; omega
    obtain ⟨h', hu⟩ := ih rest1 r.own dj1 (hsh.imp id fun h => by simp only [shallow, Bool.and_eq_true] at h; exact h.2)
      fun t'' els he => by have := (hz t'' _ he).2 els rfl; cases this
    exact ⟨h', by simp only [applyAll, hu1, Option.bind_eq_bind, Option.bind_some, hu]⟩

theorem leads_analyse : ∀ (p : List Step) {t : Ty}, leads t p = true → ∃ t', sema_expr_analyse_designator t p = some t' := by
  intro p
  induction p with
  | nil => intro t _; exact ⟨t, by simp [sema_expr_analyse_designator]⟩
  | cons s p ih =>
    intro t h
    cases s <;> cases t <;> simp only [leads, Bool.false_eq_true] at h
    · rename_i i ms
      cases hm : ms[i]? with
      | none => simp [hm] at h
      | some u => exact (ih (by simpa [hm] using h)).imp fun t' h' => by simp [sema_expr_analyse_designator, hm, h']
    · rename_i i ms
      cases hm : ms[i]? with
      | none => simp [hm] at h
      | some u => exact (ih (by simpa [hm] using h)).imp fun t' h' => by simp [sema_expr_analyse_designator, hm, h']
    · simp only [Bool.and_eq_true, decide_eq_true_eq] at h
      exact (ih h.2).imp fun t' h' => by
        rw [sema_expr_analyse_designator, if_neg (by omega)]; exact h'
    · simp only [Bool.and_eq_true, decide_eq_true_eq] at h
      exact (ih h.2).imp fun t' h' => by
        rw [sema_expr_analyse_designator, if_neg (by omega), if_neg (by omega), if_neg (by omega)]; exact h'

mutual

theorem build_some : ∀ (i : Init α) (t : Ty) (h : Heap α), typed t i = true → plain t i = true → settled t i = true →
    ∃ v h', build t i h = some (v, h')
  | .scalar x => by
    intro t h ht _ _
    cases t <;> first | cases ht | skip
    exact ⟨_, _, rfl⟩
  | .empty => by
    intro t h _ _ _
    cases t <;> exact ⟨_, _, rfl⟩
  | .list vs => by
    intro t h ht hp hs
    simp only [plain] at hp
    simp only [settled] at hs
    cases t with
    | scalar => simp [typed] at ht
    | struct ms =>
      simp only [typed, Bool.and_eq_true, Bool.not_eq_true', List.isEmpty_eq_false_iff] at ht
      obtain ⟨l, h1, hl, hll⟩ := buildList_some vs (.struct ms) 0 ms h ht.2 hp hs (fun j u hu => by simpa [Ty.child] using hu)
      have hle : l ≠ [] := fun e => by subst e; exact ht.1 (List.length_eq_zero_iff.1 hll.symm)
      exact ⟨_, _, by simp [build, hl, hle]; exact ⟨rfl, rfl⟩⟩
    | union ms =>
      simp only [typed, Bool.and_eq_true, Bool.not_eq_true', List.isEmpty_eq_false_iff] at ht
      obtain ⟨l, h1, hl, hll⟩ := buildList_some vs (.union ms) 0 (ms.take 1) h ht.2 hp hs (fun j u hu => by
        rw [List.getElem?_take] at hu
        split at hu
        · simpa [Ty.child] using hu
        · cases hu)
      cases ms with
      | nil => exact absurd rfl ht.1
      | cons u ms =>
        cases l with
        | nil => simp at hll
        | cons v l =>
          simp only [List.take_succ_cons, List.take_zero] at hl
          exact ⟨_, _, by simp [build, hl, cellsOf]; exact ⟨rfl, rfl⟩⟩
    | array len base =>
      simp only [typed, Bool.and_eq_true, decide_eq_true_eq] at ht
      obtain ⟨l, h1, hl, hll⟩ := buildList_some vs (.array len base) 0 (List.replicate len base) h ht.2 hp hs (fun j u hu => by
        rw [List.getElem?_replicate] at hu
        split at hu
        · simpa [Ty.child] using hu
        · cases hu)
      have hle : l ≠ [] := fun e => by subst e; simp at hll; omega
      exact ⟨_, _, by simp [build, hl, hle]; exact ⟨rfl, rfl⟩⟩
  | .desig ds => by
    intro t h ht hp hs
    simp only [plain] at hp
    simp only [settled, Bool.and_eq_true, Bool.or_eq_true, Bool.not_eq_true'] at hs
    have hne : ds ≠ .nil := fun e => by subst e; simp [typed] at ht
    have ht' : typedDesigs t ds = true := by cases ds with
      | nil => exact absurd rfl hne
      | cons => simpa only [typed] using ht
    obtain ⟨l, h1, hl, hll⟩ := buildDesigs_some ds t h ht' hp hs.2
    obtain ⟨e1, Fs, td, hge⟩ := buildDesigs_spec ds t h l h1 hl hp (desigsHave t ds) id
    have td' := td.frame (h' := h1 ++ [(t, .zero)]) fun G hG x hx => List.getElem?_append_left (td.lt G hG x hx)
    obtain ⟨h2, ha⟩ := applyAll_some td' (.zero (a := h1.length) (by simp)) (fun G hG x hx hgx => by
      have := td.lt G hG x hgx; omega) hs.1.symm (fun t'' els he => by simp at he)
    exact ⟨_, _, by simp [build, hl, hll hne, ha]; exact ⟨rfl, rfl⟩⟩

theorem buildList_some : ∀ (vs : Inits α) (t : Ty) (k : Nat) (ts : List Ty) (h : Heap α), typedList ts vs = true → plainList t k vs = true →
    settledList t k vs = true → (∀ (j : Nat) (u : Ty), ts[j]? = some u → t.child (k + j) = some u) →
    ∃ l h', buildList ts vs h = some (l, h') ∧ l.length = ts.length
  | .nil => by
    intro t k ts h ht _ _ _
    simp only [typedList, List.isEmpty_iff] at ht
    subst ht
    exact ⟨[], h, by simp [buildList], rfl⟩
  | .cons v vs => by
    intro t k ts h ht hp hs hts
    cases ts with
    | nil => simp [typedList] at ht
    | cons u ts =>
      have hu : t.child k = some u := by simpa using hts 0 u rfl
      simp only [typedList, Bool.and_eq_true] at ht
      simp only [plainList, hu, Option.getD_some, Bool.and_eq_true] at hp
      simp only [settledList, hu, Option.getD_some, Bool.and_eq_true] at hs
      obtain ⟨x, h1, hb1⟩ := build_some v u h ht.1 hp.1 hs.1
      obtain ⟨l, h2, hb2, hl⟩ := buildList_some vs t (k + 1) ts h1 ht.2 hp.2 hs.2 (fun j w hw => by
        rw [Nat.add_assoc, Nat.add_comm 1]; exact hts (j + 1) w (by simpa using hw))
      exact ⟨x :: l, h2, by simp [buildList, hb1, hb2], by simp [hl]⟩

theorem buildDesigs_some : ∀ (ds : Desigs α) (t : Ty) (h : Heap α), typedDesigs t ds = true → plainDesigs t ds = true →
    settledDesigs t ds = true → ∃ l h', buildDesigs t ds h = some (l, h') ∧ (ds ≠ .nil → l ≠ [])
  | .nil => by
    intro t h _ _ _
    exact ⟨[], h, by simp [buildDesigs], fun h => absurd rfl h⟩
  | .cons path v ds => by
    intro t h ht hp hs
    simp only [typedDesigs, Bool.and_eq_true, Bool.not_eq_true'] at ht
    obtain ⟨⟨⟨hpe, hle⟩, htv⟩, htd⟩ := ht
    obtain ⟨t', hd⟩ := leads_analyse path hle
    have hta := analyse_typeAt path hd
    simp only [plainDesigs, hta, Option.getD_some, Bool.and_eq_true] at hp
    simp only [settledDesigs, hta, Option.getD_some, Bool.and_eq_true] at hs
    simp only [hta, Option.getD_some] at htv
    obtain ⟨x, h1, hb1⟩ := build_some v t' h htv hp.1.2 hs.1
    obtain ⟨l, h2, hb2, -⟩ := buildDesigs_some ds t h1 htd hp.2 hs.2
    have hpe' : path ≠ [] := by simpa using hpe
    exact ⟨(path, x) :: l, h2, by simp [buildDesigs, hpe', hd, hb1, hb2], fun _ => by simp⟩

end

/-! ## What is built has the right form -/

theorem analyse_leads : ∀ (p : List Step) {t t' : Ty}, sema_expr_analyse_designator t p = some t' → inside t p = true → leads t p = true := by
  intro p
  induction p with
  | nil => intro t t' _ _; simp [leads]
  | cons s p ih =>
    intro t t' h hin
    cases s <;> cases t <;> simp only [sema_expr_analyse_designator, reduceCtorEq] at h
    · obtain ⟨u, h1, h2⟩ := Option.bind_eq_some_iff.1 h
      simp [leads, h1, ih h2 (by simpa [inside, Ty.child, Step.first, h1] using hin)]
    · obtain ⟨u, h1, h2⟩ := Option.bind_eq_some_iff.1 h
      simp [leads, h1, ih h2 (by simpa [inside, Ty.child, Step.first, h1] using hin)]
    · split at h
      · cases h
      · simp only [leads, ih h (by simpa [inside, Ty.child, Step.first] using hin), Bool.and_true, decide_eq_true_eq]; omega
    · simp only [inside, Bool.and_eq_true, decide_eq_true_eq] at hin
      split at h
      · cases h
      · split at h
        · cases h
        · split at h
          · cases h
          · simp only [leads, ih h hin.2, Bool.and_true, Bool.and_eq_true, decide_eq_true_eq]; omega

mutual

theorem build_typed : ∀ (i : Init α) (t : Ty) (h : Heap α) (r : Val α × Heap α), build t i h = some r → plain t i = true → typed t i = true
  | .scalar x => by
    intro t h r hb _
    cases t <;> simp [build] at hb
    rfl
  | .empty => by intro t h r _ _; simp [typed]
  | .list vs => by
    intro t h r hb hp
    simp only [plain] at hp
    cases t with
    | scalar => simp [build] at hb
    | struct ms =>
      simp only [build, Option.bind_eq_bind, Option.bind_eq_some_iff] at hb
      obtain ⟨⟨l, h1⟩, hl, hb⟩ := hb
      by_cases hle : l.isEmpty = true
      · rw [if_pos hle] at hb; cases hb
      obtain ⟨h2, h3⟩ := buildList_typed vs (.struct ms) 0 ms h _ hl hp (fun j u hu => by simpa [Ty.child] using hu)
      simp only [typed, h2, Bool.and_true, Bool.not_eq_true', List.isEmpty_eq_false_iff]
      intro he
      subst he
      exact hle (by simpa using h3)
    | union ms =>
      simp only [build, Option.bind_eq_bind, Option.bind_eq_some_iff] at hb
      obtain ⟨⟨l, h1⟩, hl, hb⟩ := hb
      by_cases hle : l.isEmpty = true
      · rw [if_pos hle] at hb; cases hb
      obtain ⟨h2, h3⟩ := buildList_typed vs (.union ms) 0 (ms.take 1) h _ hl hp (fun j u hu => by
        rw [List.getElem?_take] at hu
        split at hu
        · simpa [Ty.child] using hu
        · cases hu)
      simp only [typed, h2, Bool.and_true, Bool.not_eq_true', List.isEmpty_eq_false_iff]
      intro he
      subst he
      exact hle (by simpa using h3)
    | array len base =>
      simp only [build, Option.bind_eq_bind, Option.bind_eq_some_iff] at hb
      obtain ⟨⟨l, h1⟩, hl, hb⟩ := hb
      by_cases hle : l.isEmpty = true
      · rw [if_pos hle] at hb; cases hb
      obtain ⟨h2, h3⟩ := buildList_typed vs (.array len base) 0 (List.replicate len base) h _ hl hp (fun j u hu => by
        rw [List.getElem?_replicate] at hu
        split at hu
        · simpa [Ty.child] using hu
        · cases hu)
      simp only [typed, h2, Bool.and_true, decide_eq_true_eq]
      rcases Nat.eq_zero_or_pos len with he | he
      · subst he; exact absurd (by simpa using h3) hle
      · exact he
  | .desig ds => by
    intro t h r hb hp
    simp only [plain] at hp
    simp only [build, Option.bind_eq_bind, Option.bind_eq_some_iff] at hb
    obtain ⟨⟨l, h1⟩, hl, hb⟩ := hb
    by_cases hle : l.isEmpty = true
    · rw [if_pos hle] at hb; cases hb
    have := buildDesigs_typed ds t h _ hl hp
    cases ds with
    | nil => simp [buildDesigs] at hl; simp [hl.1] at hle
    | cons => simpa only [typed] using this

theorem buildList_typed : ∀ (vs : Inits α) (t : Ty) (k : Nat) (ts : List Ty) (h : Heap α) (r : List (Val α) × Heap α),
    buildList ts vs h = some r → plainList t k vs = true → (∀ (j : Nat) (u : Ty), ts[j]? = some u → t.child (k + j) = some u) →
    typedList ts vs = true ∧ r.1.length = ts.length
  | .nil => by
    intro t k ts h r hb _ _
    cases ts <;> simp [buildList] at hb
    subst hb
    simp [typedList]
  | .cons v vs => by
    intro t k ts h r hb hp hts
    cases ts with
    | nil => simp [buildList] at hb
    | cons u ts =>
      simp only [buildList, Option.bind_eq_bind, Option.bind_eq_some_iff] at hb
      obtain ⟨⟨x, h1⟩, hb1, ⟨l', h2⟩, hb2, hb⟩ := hb
      cases hb
      have hu : t.child k = some u := by simpa using hts 0 u rfl
      simp only [plainList, hu, Option.getD_some, Bool.and_eq_true] at hp
      have h3 := buildList_typed vs t (k + 1) ts h1 _ hb2 hp.2 (fun j w hw => by
        rw [Nat.add_assoc, Nat.add_comm 1]; exact hts (j + 1) w (by simpa using hw))
      exact ⟨by simp [typedList, build_typed v u h _ hb1 hp.1, h3.1], by simpa using h3.2⟩

theorem buildDesigs_typed : ∀ (ds : Desigs α) (t : Ty) (h : Heap α) (r : List (List Step × Val α) × Heap α),
    buildDesigs t ds h = some r → plainDesigs t ds = true → typedDesigs t ds = true
  | .nil => by intro t h r _ _; simp [typedDesigs]
  | .cons path v ds => by
    intro t h r hb hp
    simp only [buildDesigs] at hb
    by_cases hpe : path.isEmpty = true
    · rw [if_pos hpe] at hb; cases hb
    rw [if_neg hpe] at hb
    simp only [Option.bind_eq_bind, Option.bind_eq_some_iff] at hb
    obtain ⟨t', ht, ⟨x, h1⟩, hb1, ⟨l', h2⟩, hb2, hb⟩ := hb
    have hta := analyse_typeAt path ht
    simp only [plainDesigs, hta, Option.getD_some, Bool.and_eq_true] at hp
    simp only [typedDesigs, hta, Option.getD_some, Bool.and_eq_true, Bool.not_eq_true']
    exact ⟨⟨⟨by simpa using hpe, analyse_leads path ht hp.1.1.2⟩, build_typed v t' h _ hb1 hp.1.2⟩, buildDesigs_typed ds t h1 _ hb2 hp.2⟩

end

end C3.ConstInit
