import Verif.NameRes.LemmasPath

/-!
# Lemmas: which modules are related, and what is visible
-/

set_option autoImplicit false

namespace C3.NameRes

variable {P : Prog}

theorem IsPath.prefix_idents {s : Name} {a b : List Name} (h : IsPath s (a ++ b)) (ha : a ≠ []) : IsPath (joinPath a) a :=
  ⟨rfl, ha, fun x hx => h.ident x (by simp [hx])⟩

theorem joinPath_prefix_le {a b : List Name} (h : a <+: b) : (joinPath a).length ≤ (joinPath b).length := by
  obtain ⟨c, rfl⟩ := h
  by_cases ha : a = []
  · subst ha; simp [joinPath]
  · by_cases hc : c = []
    · subst hc; simp
    · rw [joinPath_append ha hc]; simp

theorem joinPath_prefix_eq {a b : List Name} (hne : a ≠ []) (h : a <+: b) (hl : (joinPath b).length ≤ (joinPath a).length) : a = b := by
  obtain ⟨c, rfl⟩ := h
  by_cases hc : c = []
  · subst hc; simp
  · rw [joinPath_append hne hc] at hl
    simp at hl
    omega

/-- The loop over the parents stops at the longest prefix of the path that is no longer than `len`. -/
theorem climb_eq (wf : WF P) (len : Nat) (n : Nat) :
    ∀ (a : Nat) (ma : Module) (A : List Name), A.length = n → P.modules[a]? = some ma → IsPath ma.name A →
      (∃ B, B ≠ [] ∧ B <+: A ∧ (joinPath B).length ≤ len) →
      ∃ q mq Q, climb P len a = some q ∧ P.modules[q]? = some mq ∧ IsPath mq.name Q ∧ Q <+: A ∧ (joinPath Q).length ≤ len ∧
        ∀ B, B <+: A → (joinPath B).length ≤ len → B <+: Q := by
  induction n with
  | zero =>
    intro a ma A hA _ hp
    exact absurd (List.length_eq_zero_iff.1 hA) hp.nonempty
  | succ n ih =>
    intro a ma A hA hm hp hex
    rw [climb]
    simp only [hm, Option.bind_eq_bind, Option.bind_some]
    by_cases hl : ma.name.length > len
    · rw [if_pos hl]
      obtain ⟨A', x, rfl⟩ : ∃ A' x, A = A' ++ [x] := by
        rcases List.eq_nil_or_concat A with h | ⟨l, y, h⟩
        · exact absurd h hp.nonempty
        · exact ⟨l, y, by simpa using h⟩
      have hpre : ∀ B, B <+: A' ++ [x] → (joinPath B).length ≤ len → B <+: A' := by
        intro B hB hBl
        rcases List.prefix_concat_iff.1 (by simpa using hB) with h | h
        · exfalso
          have ht := hp.text
          have : B = A' ++ [x] := by simpa using h
          rw [← this] at ht
          rw [ht] at hl
          omega
        · exact h
      obtain ⟨B, hBne, hB, hBl⟩ := hex
      have hA' : A' ≠ [] := by
        rintro rfl
        have := hpre B hB hBl
        simp at this
        exact hBne this
      obtain ⟨p, pm, hpar, hpm, hpp⟩ := (wf.parent a ma A' x hm hp).2 hA'
      simp only [hpar, Option.bind_some]
      obtain ⟨q, mq, Q, h1, h2, h3, h4, h5, h6⟩ := ih p pm A' (by simp at hA; omega) hpm hpp ⟨B, hBne, hpre B hB hBl, hBl⟩
      exact ⟨q, mq, Q, h1, h2, h3, h4.trans (List.prefix_append _ _), h5, fun C hC hCl => h6 C (hpre C hC hCl) hCl⟩
    · rw [if_neg hl]
      refine ⟨a, ma, A, rfl, hm, hp, List.prefix_refl _, ?_, fun B hB _ => hB⟩
      rw [← hp.text]
      omega

theorem toTemplate_eq (wf : WF P) {a : Nat} {A : List Name} (h : HasPath P a A) :
    ∃ t tm, toTemplate P a = some t ∧ P.modules[t]? = some tm ∧ IsPath tm.name A := by
  obtain ⟨mm, hm, ⟨hg, hp⟩ | ⟨t, tm, hg, ht, hp⟩⟩ := h
  · refine ⟨a, mm, ?_, hm, hp⟩
    rw [toTemplate]
    simp [hm, hg]
  · refine ⟨t, tm, ?_, ht, hp⟩
    obtain ⟨tm', ht', hg', _⟩ := wf.generic a mm t hm hg
    rw [ht] at ht'
    cases ht'
    rw [toTemplate]
    simp only [hm, hg, Option.bind_eq_bind, Option.bind_some]
    rw [toTemplate]
    simp [ht, hg']

theorem HasPath.inj {m : Nat} {A B : List Name} (ha : HasPath P m A) (hb : HasPath P m B) : A = B := by
  obtain ⟨mm, hm, h⟩ := ha
  obtain ⟨mm', hm', h'⟩ := hb
  rw [hm] at hm'
  cases hm'
  rcases h with ⟨hg, hp⟩ | ⟨t, tm, hg, ht, hp⟩ <;> rcases h' with ⟨hg', hp'⟩ | ⟨t', tm', hg', ht', hp'⟩
  · exact hp.inj hp'
  · rw [hg] at hg'; cases hg'
  · rw [hg] at hg'; cases hg'
  · rw [hg] at hg'
    cases hg'
    rw [ht] at ht'
    cases ht'
    exact hp.inj hp'

theorem hasPath_exists (wf : WF P) {m : Nat} {mm : Module} (hm : P.modules[m]? = some mm) : ∃ A, HasPath P m A := by
  cases hg : mm.generic with
  | none =>
    obtain ⟨A, hA⟩ := wf.path m mm hm
    exact ⟨A, mm, hm, .inl ⟨hg, hA⟩⟩
  | some t =>
    obtain ⟨tm, ht, _⟩ := wf.generic m mm t hm hg
    obtain ⟨A, hA⟩ := wf.path t tm ht
    exact ⟨A, mm, hm, .inr ⟨t, tm, hg, ht, hA⟩⟩

theorem related_symm {a b : Nat} (h : Related P a b) : Related P b a := by
  obtain ⟨A, B, ha, hb, h⟩ := h
  exact ⟨B, A, hb, ha, h.symm⟩

theorem same_of_path (wf : WF P) {a b : Nat} {ma mb : Module} {A : List Name} (ha : P.modules[a]? = some ma) (hb : P.modules[b]? = some mb)
    (pa : IsPath ma.name A) (pb : IsPath mb.name A) : a = b :=
  wf.unique a b ma mb ha hb (pa.text.trans pb.text.symm)

theorem climb_half (wf : WF P) {a b : Nat} {ma mb : Module} {x : Name} {A B : List Name} (hma : P.modules[a]? = some ma)
    (hmb : P.modules[b]? = some mb) (pa : IsPath ma.name (x :: A)) (pb : IsPath mb.name (x :: B)) :
    ∃ q, climb P mb.name.length a = some q ∧ (q = b ↔ x :: B <+: x :: A) := by
  have hx : (joinPath [x]).length ≤ mb.name.length := by
    rw [pb.text]
    exact joinPath_prefix_le ⟨B, rfl⟩
  obtain ⟨q, mq, Q, h1, h2, h3, h4, h5, h6⟩ := climb_eq wf mb.name.length _ a ma (x :: A) rfl hma pa ⟨[x], by simp, ⟨A, rfl⟩, hx⟩
  refine ⟨q, h1, ?_, ?_⟩
  · rintro rfl
    rw [h2] at hmb
    cases hmb
    rw [← h3.inj pb]
    exact h4
  · intro hpre
    have := h6 (x :: B) hpre (by rw [← pb.text]; exact Nat.le_refl _)
    have hQ : x :: B = Q := joinPath_prefix_eq (by simp) this (by rw [← pb.text]; exact h5)
    exact same_of_path wf h2 hmb (hQ ▸ h3) pb

theorem inclusionMatch_eq (wf : WF P) {a b : Nat} {ma mb : Module} (ha : P.modules[a]? = some ma) (hb : P.modules[b]? = some mb) :
    ∃ r, inclusionMatch P a b = some r ∧ (r = true ↔ Related P a b) := by
  obtain ⟨A, hA⟩ := hasPath_exists wf ha
  obtain ⟨B, hB⟩ := hasPath_exists wf hb
  obtain ⟨ta, tma, e1, hta, pa⟩ := toTemplate_eq wf hA
  obtain ⟨tb, tmb, e2, htb, pb⟩ := toTemplate_eq wf hB
  have hrel : Related P a b ↔ (A <+: B ∨ B <+: A) := by
    constructor
    · rintro ⟨A', B', hA', hB', h⟩
      rw [hA.inj hA', hB.inj hB']
      exact h
    · exact fun h => ⟨A, B, hA, hB, h⟩
  rw [hrel]
  unfold inclusionMatch
  simp only [e1, e2, hta, htb, Option.bind_eq_bind, Option.bind_some]
  cases A with
  | nil => exact absurd rfl pa.nonempty
  | cons x A =>
    cases B with
    | nil => exact absurd rfl pb.nonempty
    | cons y B =>
      obtain ⟨t1, tm1, g1, g2, g3⟩ := wf.top ta tma x A hta pa
      obtain ⟨t2, tm2, g4, g5, g6⟩ := wf.top tb tmb y B htb pb
      by_cases hxy : x = y
      · subst hxy
        have : t1 = t2 := wf.unique t1 t2 tm1 tm2 g2 g5 (g3.trans g6.symm)
        subst this
        rw [if_neg (by rw [g1, g4]; simp)]
        by_cases hl : tma.name.length < tmb.name.length
        · rw [if_pos hl]
          obtain ⟨q, hq, hiff⟩ := climb_half wf htb hta pb pa
          simp only [hq, Option.bind_some]
          refine ⟨_, rfl, ?_⟩
          rw [beq_iff_eq, hiff]
          constructor
          · exact .inl
          · rintro (h | h)
            · exact h
            · have := joinPath_prefix_le h
              rw [← pa.text, ← pb.text] at this
              omega
        · rw [if_neg hl]
          obtain ⟨q, hq, hiff⟩ := climb_half wf hta htb pa pb
          simp only [hq, Option.bind_some]
          refine ⟨_, rfl, ?_⟩
          rw [beq_iff_eq, hiff]
          constructor
          · exact .inr
          · rintro (h | h)
            · have he := joinPath_prefix_eq (by simp) h (by rw [← pa.text, ← pb.text]; omega)
              rw [he]
              exact List.prefix_refl _
            · exact h
      · have : t1 ≠ t2 := by
          rintro rfl
          rw [g2] at g5
          cases g5
          exact hxy (g3.symm.trans g6)
        rw [if_pos (by rw [g1, g4]; simpa using this)]
        refine ⟨false, rfl, ?_⟩
        simp only [Bool.false_eq_true, false_iff, not_or]
        constructor
        · rintro ⟨c, hc⟩
          simp at hc
          exact hxy hc.1
        · rintro ⟨c, hc⟩
          simp at hc
          exact hxy hc.1.symm

theorem stdCore_eq : stdCore = joinPath ["std".toList, "core".toList] := by decide

theorem isPath_stdCore : IsPath stdCore ["std".toList, "core".toList] := by
  refine ⟨stdCore_eq, by simp, ?_⟩
  intro x hx
  simp only [List.mem_cons, List.not_mem_nil, or_false] at hx
  rcases hx with rfl | rfl <;> decide

theorem underStdCore_eq (wf : WF P) (n : Nat) :
    ∀ (m : Nat) (mm : Module) (A : List Name), A.length = n → P.modules[m]? = some mm → IsPath mm.name A →
      ∃ r, underStdCore P m = some r ∧ (r = true ↔ ["std".toList, "core".toList] <+: A) := by
  induction n with
  | zero =>
    intro a ma A hA _ hp
    exact absurd (List.length_eq_zero_iff.1 hA) hp.nonempty
  | succ n ih =>
    intro m mm A hA hm hp
    rw [underStdCore]
    simp only [hm, Option.bind_eq_bind, Option.bind_some]
    by_cases hc : mm.name = stdCore
    · rw [if_pos hc]
      refine ⟨true, rfl, ?_⟩
      rw [hc] at hp
      simp [hp.inj isPath_stdCore]
    · rw [if_neg hc]
      obtain ⟨A', x, rfl⟩ : ∃ A' x, A = A' ++ [x] := by
        rcases List.eq_nil_or_concat A with h | ⟨l, y, h⟩
        · exact absurd h hp.nonempty
        · exact ⟨l, y, by simpa using h⟩
      have hstep : ["std".toList, "core".toList] <+: A' ++ [x] ↔ ["std".toList, "core".toList] <+: A' := by
        constructor
        · intro h
          rcases List.prefix_concat_iff.1 (by simpa using h) with h' | h'
          · exfalso
            apply hc
            rw [hp.text, stdCore_eq]
            congr 1
            simpa using h'.symm
          · exact h'
        · exact fun h => h.trans (List.prefix_append _ _)
      rw [hstep]
      by_cases hA' : A' = []
      · rw [(wf.parent m mm A' x hm hp).1 hA']
        exact ⟨false, rfl, by simp [hA']⟩
      · obtain ⟨p, pm, hpar, hpm, hpp⟩ := (wf.parent m mm A' x hm hp).2 hA'
        rw [hpar]
        exact ih p pm A' (by simp at hA; omega) hpm hpp

theorem importCheck_eq (wf : WF P) {isPublic : Bool} {m : Nat} {mm : Module} (hm : P.modules[m]? = some mm) (is : List Import)
    (his : ∀ i ∈ is, ∃ im, P.modules[i.module]? = some im) :
    ∃ r, importCheck P isPublic m is = some r ∧
      (r = true ↔ ∃ i ∈ is, (isPublic = false → i.privAsPublic = true) ∧ i.Reaches P m) := by
  induction is with
  | nil => exact ⟨false, rfl, by simp⟩
  | cons i is ih =>
    obtain ⟨r, hr, hiff⟩ := ih (fun j hj => his j (by simp [hj]))
    have hskip : ¬((isPublic = false → i.privAsPublic = true) ∧ i.Reaches P m) →
        (r = true ↔ ∃ j ∈ i :: is, (isPublic = false → j.privAsPublic = true) ∧ j.Reaches P m) := by
      intro hn
      rw [hiff]
      constructor
      · rintro ⟨j, hj, h⟩
        exact ⟨j, by simp [hj], h⟩
      · rintro ⟨j, hj, h⟩
        rcases List.mem_cons.1 hj with rfl | hj
        · exact absurd h hn
        · exact ⟨j, hj, h⟩
    rw [importCheck]
    by_cases h1 : (!isPublic && !i.privAsPublic) = true
    · rw [if_pos h1]
      refine ⟨r, hr, hskip ?_⟩
      rintro ⟨h, _⟩
      simp at h1
      rw [h h1.1] at h1
      exact absurd h1.2 (by simp)
    · rw [if_neg h1]
      have hacc : isPublic = false → i.privAsPublic = true := by
        intro hp
        simpa [hp] using h1
      by_cases h2 : i.module = m
      · rw [if_pos h2]
        exact ⟨true, rfl, by simp only [true_iff]; exact ⟨i, by simp, hacc, .inl h2⟩⟩
      · rw [if_neg h2]
        by_cases h3 : i.nonRecurse = true
        · rw [if_pos h3]
          refine ⟨r, hr, hskip ?_⟩
          rintro ⟨_, h | h⟩
          · exact h2 h
          · rw [h3] at h; exact absurd h.1 (by simp)
        · rw [if_neg h3]
          obtain ⟨im, him⟩ := his i (by simp)
          obtain ⟨b, hb, hbiff⟩ := inclusionMatch_eq wf him hm
          simp only [hb, Option.bind_eq_bind, Option.bind_some]
          by_cases hbt : b = true
          · rw [if_pos hbt]
            refine ⟨true, rfl, ?_⟩
            simp only [true_iff]
            exact ⟨i, by simp, hacc, .inr ⟨by simpa using h3, hbiff.1 hbt⟩⟩
          · rw [if_neg hbt]
            refine ⟨r, hr, hskip ?_⟩
            rintro ⟨_, h | h⟩
            · exact h2 h
            · exact hbt (hbiff.2 h.2)

theorem moduleOf_eq (wf : WF P) {i : Nat} {d : Decl} (hd : P.decls[i]? = some d) :
    ∃ m mm, P.moduleOf d = some m ∧ P.modules[m]? = some mm ∧ mm.isGeneric = false := by
  obtain ⟨u, hu⟩ := wf.declFile i d hd
  obtain ⟨mm, hm, hg⟩ := wf.unitModule d.file u hu
  exact ⟨u.module, mm, by simp [Prog.moduleOf, hu], hm, hg⟩

theorem hasPath_plain {m : Nat} {mm : Module} {A : List Name} (hm : P.modules[m]? = some mm) (hg : mm.generic = none) :
    HasPath P m A ↔ IsPath mm.name A := by
  constructor
  · rintro ⟨mm', hm', ⟨_, h⟩ | ⟨t, tm, hg', _⟩⟩
    · rw [hm] at hm'; cases hm'; exact h
    · rw [hm] at hm'; cases hm'; rw [hg] at hg'; cases hg'
  · exact fun h => ⟨mm, hm, .inl ⟨hg, h⟩⟩

/-- `decl_is_visible` decides whether a declaration that is not `@local` may be used. -/
theorem declIsVisible_eq (wf : WF P) {f : Nat} {u : CUnit} (hu : P.units[f]? = some u) {i : Nat} {d : Decl} (hd : P.decls[i]? = some d)
    (hv : d.vis ≠ .loc) : ∃ r, declIsVisible P u d = some r ∧ (r = true ↔ Accessible P f d) := by
  obtain ⟨m, mm, hm, hmm, _⟩ := moduleOf_eq wf hd
  obtain ⟨um, hum, _⟩ := wf.unitModule f u hu
  have hacc : Accessible P f d ↔ ((m = u.module ∧ (d.vis = .loc → d.file = f)) ∨
      (m ≠ u.module ∧ mm.generic = none ∧
        ((d.vis = .pub ∧
            (Related P m u.module ∨ (∃ A, HasPath P m A ∧ ["std".toList, "core".toList] <+: A) ∨ ∃ i ∈ u.imports, i.Reaches P m)) ∨
          (d.vis = .priv ∧ ∃ i ∈ u.imports, i.privAsPublic = true ∧ i.Reaches P m)))) := by
    constructor
    · rintro ⟨u', m', mm', hu', hm', hmm', h⟩
      rw [hu] at hu'; cases hu'
      rw [hm] at hm'; cases hm'
      rw [hmm] at hmm'; cases hmm'
      exact h
    · exact fun h => ⟨u, m, mm, hu, hm, hmm, h⟩
  rw [hacc]
  unfold declIsVisible
  simp only [hm, hmm, Option.bind_eq_bind, Option.bind_some]
  by_cases h1 : m = u.module
  · rw [if_pos h1]
    exact ⟨true, rfl, by simp [h1, hv]⟩
  · rw [if_neg h1]
    have himp : ∀ i ∈ u.imports, ∃ im, P.modules[i.module]? = some im := by
      intro i hi
      obtain ⟨_, im, him, _⟩ := wf.imports f u i hu hi
      exact ⟨im, him⟩
    by_cases h2 : mm.generic = none
    · rw [if_neg (by simp [h2])]
      by_cases h3 : d.vis = .pub
      · rw [if_neg (by simp [h3])]
        obtain ⟨b, hb, hbiff⟩ := inclusionMatch_eq wf hmm hum
        obtain ⟨A, hA⟩ := wf.path m mm hmm
        obtain ⟨c, hc, hciff⟩ := underStdCore_eq wf _ m mm A rfl hmm hA
        obtain ⟨e, he, heiff⟩ := importCheck_eq wf (isPublic := true) hmm u.imports himp
        have hcore : (∃ A, HasPath P m A ∧ ["std".toList, "core".toList] <+: A) ↔ c = true := by
          rw [hciff]
          constructor
          · rintro ⟨A', hA', h⟩
            rw [hA.inj ((hasPath_plain hmm h2).1 hA')]
            exact h
          · exact fun h => ⟨A, (hasPath_plain hmm h2).2 hA, h⟩
        have himport : (∃ i ∈ u.imports, i.Reaches P m) ↔ e = true := by
          rw [heiff]
          simp
        simp only [hb, hc, he, Option.bind_some, hcore, himport, ← hbiff]
        cases b <;> cases c <;> simp [h1, h2, h3]
      · have h4 : d.vis = .priv := by
          cases hx : d.vis
          · exact absurd hx h3
          · rfl
          · exact absurd hx hv
        rw [if_pos (by simp [h4])]
        obtain ⟨e, he, heiff⟩ := importCheck_eq wf (isPublic := false) hmm u.imports himp
        refine ⟨e, he, ?_⟩
        rw [heiff]
        simp [h1, h2, h4]
    · rw [if_pos (by cases hg : mm.generic <;> simp_all)]
      exact ⟨false, rfl, by simp [h1, h2]⟩

end C3.NameRes
