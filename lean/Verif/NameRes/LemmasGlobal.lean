import Verif.NameRes.LemmasRes

/-!
# Lemmas: the search among all declarations
-/

set_option autoImplicit false

namespace C3.NameRes

open Classical

variable {P : Prog} {T : Tables} {order : List Nat}

/-- The loop over the candidates alone. -/
def foldAmb (P : Prog) : Cur → List Nat → Option Cur
  | c, [] => some c
  | c, i :: is => do foldAmb P (← resolveAmbiguity P c i) is

theorem foldAmb_append (c : Cur) (l : List Nat) (x : Nat) :
    foldAmb P c (l ++ [x]) = (foldAmb P c l).bind (fun c => resolveAmbiguity P c x) := by
  induction l generalizing c with
  | nil => simp [foldAmb]
  | cons y l ih =>
    simp only [List.cons_append, foldAmb, Option.bind_eq_bind]
    cases resolveAmbiguity P c y with
    | none => rfl
    | some c' => simp [ih]

/-- The candidates, in the order of the table. -/
noncomputable def cands (P : Prog) (f : Nat) (path : Option Name) (sym : Name) (order : List Nat) : List Nat :=
  order.filter (fun i => decide (Candidate P f path sym i))

theorem candidate_isGlobal {f : Nat} {path : Option Name} {sym : Name} {i : Nat} (h : Candidate P f path sym i) : isGlobal P sym i = true := by
  obtain ⟨d, hN, hv, _, _⟩ := h
  exact isGlobal_iff.2 ⟨d, hN.decl, hN.named, hv, hN.name⟩

theorem cands_of_globals (f : Nat) (path : Option Name) (sym : Name) (l : List Nat) :
    cands P f path sym (l.filter (isGlobal P sym)) = cands P f path sym l := by
  unfold cands
  rw [List.filter_filter]
  congr 1
  funext i
  by_cases h : Candidate P f path sym i
  · simp [h, candidate_isGlobal h]
  · simp [h]

theorem globalLoop_eq (wf : WF P) {f : Nat} {u : CUnit} (hu : P.units[f]? = some u) {path : Option Name} (hp : PathArg path) (sym : Name)
    (is : List Nat) : ∀ (c : Cur) (maybe : Option Nat), (∀ i ∈ is, isGlobal P sym i = true) →
      (∀ j, maybe = some j → (P.decls[j]?).isSome = true) →
      ∃ maybe', globalLoop P u path is c maybe = (foldAmb P c (cands P f path sym is)).map (fun c => (c, maybe')) ∧
        (∀ j, maybe' = some j → (P.decls[j]?).isSome = true) := by
  induction is with
  | nil =>
    intro c maybe _ hm
    exact ⟨maybe, by simp [globalLoop, cands, foldAmb], hm⟩
  | cons i is ih =>
    intro c maybe hg hm
    obtain ⟨d, hd, hn, hv, hname⟩ := isGlobal_iff.1 (hg i (by simp))
    have hN : Named P sym i d := ⟨hd, hn, hname⟩
    obtain ⟨b, hb, hbiff⟩ := pathOk_eq wf hp hd
    obtain ⟨e, he, heiff⟩ := declIsVisible_eq wf hu hd hv
    have hcand : Candidate P f path sym i ↔ (b = true ∧ e = true) := by
      rw [hbiff, heiff]
      constructor
      · rintro ⟨d', hN', _, h1, h2⟩
        have : d' = d := Option.some.inj (hN'.decl.symm.trans hd)
        subst this
        exact ⟨h2, h1⟩
      · exact fun ⟨h1, h2⟩ => ⟨d, hN, hv, h2, h1⟩
    rw [globalLoop]
    simp only [hd, hb, he, Option.bind_eq_bind, Option.bind_some]
    have hg' : ∀ j ∈ is, isGlobal P sym j = true := fun j hj => hg j (by simp [hj])
    by_cases hb1 : b = true
    · rw [if_neg (by simp [hb1])]
      by_cases he1 : e = true
      · rw [if_neg (by simp [he1])]
        have hc : cands P f path sym (i :: is) = i :: cands P f path sym is := by
          unfold cands
          rw [List.filter_cons_of_pos (by simpa using hcand.2 ⟨hb1, he1⟩)]
        rw [hc]
        simp only [foldAmb, Option.bind_eq_bind]
        cases hr : resolveAmbiguity P c i with
        | none => exact ⟨maybe, rfl, hm⟩
        | some c' =>
          simp only [Option.bind_some]
          exact ih c' maybe hg' hm
      · have hc : cands P f path sym (i :: is) = cands P f path sym is := by
          unfold cands
          rw [List.filter_cons_of_neg (by simpa using fun h => he1 (hcand.1 h).2)]
        rw [if_pos (by simpa using he1), hc]
        exact ih c (some i) hg' (by rintro j hj; cases hj; simp [hd])
    · have hc : cands P f path sym (i :: is) = cands P f path sym is := by
        unfold cands
        rw [List.filter_cons_of_neg (by simpa using fun h => hb1 (hcand.1 h).1)]
      rw [if_pos (by simpa using hb1), hc]
      exact ih c maybe hg' hm

theorem findInGlobal_eq (wf : WF P) (fl : Filled P T order) {f : Nat} {u : CUnit} (hu : P.units[f]? = some u) {path : Option Name}
    (hp : PathArg path) (sym : Name) (r : Res) (hf : r.found = none) (ha : r.ambiguous = none) :
    ∃ F : Cur → Res, findInGlobal P T u path sym false r = (foldAmb P {} (cands P f path sym order)).map F ∧
      ∀ c, foldAmb P {} (cands P f path sym order) = some c → (F c).found = c.decl ∧ (F c).ambiguous = c.ambiguous := by
  rw [← cands_of_globals]
  have htab := fl.holds.globals sym
  have hall : ∀ i ∈ order.filter (isGlobal P sym), isGlobal P sym i = true := fun i hi => (List.mem_filter.1 hi).2
  generalize order.filter (isGlobal P sym) = gs at htab hall ⊢
  unfold findInGlobal
  match gs, htab, hall with
  | [], htab, _ =>
    rw [htab]
    simp only [entryOf, cands, List.filter_nil, foldAmb, Option.map_some]
    cases path with
    | none => exact ⟨fun _ => { r with found := none }, rfl, by rintro c hc; cases hc; exact ⟨rfl, ha⟩⟩
    | some p => exact ⟨fun _ => { r with found := none, pathFound := _ }, rfl, by rintro c hc; cases hc; exact ⟨rfl, ha⟩⟩
  | [i], htab, hall =>
    rw [htab]
    simp only [entryOf]
    obtain ⟨d, hd, hn, hv, hname⟩ := isGlobal_iff.1 (hall i (by simp))
    have hN : Named P sym i d := ⟨hd, hn, hname⟩
    obtain ⟨b, hb, hbiff⟩ := pathOk_eq wf hp hd
    obtain ⟨e, he, heiff⟩ := declIsVisible_eq wf hu hd hv
    have hcand : Candidate P f path sym i ↔ (b = true ∧ e = true) := by
      rw [hbiff, heiff]
      constructor
      · rintro ⟨d', hN', _, h1, h2⟩
        have : d' = d := Option.some.inj (hN'.decl.symm.trans hd)
        subst this
        exact ⟨h2, h1⟩
      · exact fun ⟨h1, h2⟩ => ⟨d, hN, hv, h2, h1⟩
    simp only [hd, hb, he, Option.bind_eq_bind, Option.bind_some]
    have hnot : ¬Candidate P f path sym i → cands P f path sym [i] = [] := fun h => by
      unfold cands
      rw [List.filter_cons_of_neg (by simpa using h), List.filter_nil]
    by_cases hb1 : b = true
    · rw [if_neg (by simp [hb1])]
      by_cases he1 : e = true
      · rw [if_neg (by simp [he1])]
        have hc : cands P f path sym [i] = [i] := by
          unfold cands
          rw [List.filter_cons_of_pos (by simpa using hcand.2 ⟨hb1, he1⟩), List.filter_nil]
        rw [hc]
        refine ⟨fun _ => { r with priv := none, found := some i }, rfl, ?_⟩
        rintro c hc
        simp only [foldAmb, resolveAmbiguity, Option.bind_eq_bind, Option.bind_some, Option.some.injEq] at hc
        subst hc
        exact ⟨rfl, ha⟩
      · rw [if_pos (by simpa using he1), hnot (fun h => he1 (hcand.1 h).2)]
        split
        · exact ⟨fun _ => { r with priv := some i }, rfl, by rintro c hc; cases hc; exact ⟨hf, ha⟩⟩
        · exact ⟨fun _ => { r with maybe := some i }, rfl, by rintro c hc; cases hc; exact ⟨hf, ha⟩⟩
    · rw [if_pos (by simpa using hb1), hnot (fun h => hb1 (hcand.1 h).1)]
      exact ⟨fun _ => r, rfl, by rintro c hc; cases hc; exact ⟨hf, ha⟩⟩
  | i :: j :: is, htab, hall =>
    rw [htab]
    simp only [entryOf]
    obtain ⟨maybe', hl, hm⟩ := globalLoop_eq wf hu hp sym (i :: j :: is) {} none hall (by simp)
    rw [hl]
    cases hfold : foldAmb P {} (cands P f path sym (i :: j :: is)) with
    | none => exact ⟨fun _ => r, rfl, by simp⟩
    | some c =>
      simp only [Option.map_some, Option.bind_eq_bind, Option.bind_some]
      cases maybe' with
      | none =>
        exact ⟨fun c => { r with ambiguous := c.ambiguous, found := c.decl, priv := none, maybe := none }, rfl, fun _ _ => ⟨rfl, rfl⟩⟩
      | some k =>
        obtain ⟨d, hd⟩ := Option.isSome_iff_exists.1 (hm k rfl)
        simp only [hd, Option.bind_some]
        split
        · exact ⟨fun c => { r with ambiguous := c.ambiguous, found := c.decl, priv := some k, maybe := none }, rfl, fun _ _ => ⟨rfl, rfl⟩⟩
        · exact ⟨fun c => { r with ambiguous := c.ambiguous, found := c.decl, priv := none, maybe := some k }, rfl, fun _ _ => ⟨rfl, rfl⟩⟩

/-! ## What the loop over the candidates ends with -/

theorem resolveAmbiguity_some {c c' : Cur} {x : Nat} (h : resolveAmbiguity P c x = some c') :
    c'.decl.isSome = true ∧ (∀ y, c'.decl = some y → c.decl = some y ∨ y = x) ∧
      (∀ y, c'.ambiguous = some y → c.ambiguous = some y ∨ y = x) := by
  unfold resolveAmbiguity at h
  cases hd : c.decl with
  | none =>
    simp only [hd, Option.some.injEq] at h
    subst h
    exact ⟨rfl, fun y hy => .inr (Option.some.inj hy).symm, fun y hy => .inl hy⟩
  | some o =>
    simp only [hd, Option.bind_eq_bind, Option.bind_eq_some_iff] at h
    obtain ⟨b, _, h⟩ := h
    by_cases hb : b = true
    · rw [if_pos hb] at h
      cases h
      exact ⟨rfl, fun y hy => .inr (Option.some.inj hy).symm, fun y hy => by cases hy⟩
    · rw [if_neg hb] at h
      by_cases ha : c.ambiguous.isSome = true
      · rw [if_pos ha] at h
        cases h
        exact ⟨by simp [hd], fun y hy => .inl (hd ▸ hy), fun y hy => .inl hy⟩
      · rw [if_neg ha] at h
        simp only [Option.bind_eq_some_iff] at h
        obtain ⟨k, _, h⟩ := h
        by_cases hk : k = true
        · rw [if_pos hk] at h
          cases h
          exact ⟨by simp [hd], fun y hy => .inl (hd ▸ hy), fun y hy => .inl hy⟩
        · rw [if_neg hk] at h
          cases h
          exact ⟨by simp [hd], fun y hy => .inl (hd ▸ hy), fun y hy => .inr (Option.some.inj hy).symm⟩

theorem foldAmb_some {l : List Nat} {c c' : Cur} (h : foldAmb P c l = some c') :
    ((l ≠ [] ∨ c.decl.isSome = true) → c'.decl.isSome = true) ∧ (∀ y, c'.decl = some y → c.decl = some y ∨ y ∈ l) ∧
      (∀ y, c'.ambiguous = some y → c.ambiguous = some y ∨ y ∈ l) := by
  induction l generalizing c with
  | nil =>
    simp only [foldAmb, Option.some.injEq] at h
    subst h
    simp
  | cons x l ih =>
    simp only [foldAmb, Option.bind_eq_bind, Option.bind_eq_some_iff] at h
    obtain ⟨c1, h1, h2⟩ := h
    obtain ⟨a1, a2, a3⟩ := resolveAmbiguity_some h1
    obtain ⟨b1, b2, b3⟩ := ih h2
    refine ⟨fun _ => b1 (.inr a1), ?_, ?_⟩
    · intro y hy
      rcases b2 y hy with h | h
      · rcases a2 y h with h | h
        · exact .inl h
        · exact .inr (by simp [h])
      · exact .inr (by simp [h])
    · intro y hy
      rcases b3 y hy with h | h
      · rcases a3 y h with h | h
        · exact .inl h
        · exact .inr (by simp [h])
      · exact .inr (by simp [h])

theorem inInstance_eq (wf : WF P) {i : Nat} {d : Decl} (hd : P.decls[i]? = some d) : ∃ g, inInstance P d = some g := by
  obtain ⟨m, mm, hm, hmm, _⟩ := moduleOf_eq wf hd
  exact ⟨mm.generic.isSome, by simp [inInstance, hm, hmm]⟩

theorem firstIsPreferred_total (wf : WF P) (fo : FoldOk P) {i j : Nat} {d e : Decl} (hd : P.decls[i]? = some d)
    (he : P.decls[j]? = some e) : ∃ b, firstIsPreferred P i j = some b := by
  obtain ⟨g, hg⟩ := inInstance_eq wf hd
  obtain ⟨g2, hg2⟩ := inInstance_eq wf he
  obtain ⟨w, hw⟩ := Option.isSome_iff_exists.1 (fo i d hd)
  obtain ⟨w2, hw2⟩ := Option.isSome_iff_exists.1 (fo j e he)
  unfold firstIsPreferred
  simp only [hd, he, hg, hg2, hw, hw2, Option.bind_eq_bind, Option.bind_some]
  split
  · exact ⟨_, rfl⟩
  · split
    · exact ⟨_, rfl⟩
    · split
      · exact ⟨_, rfl⟩
      · split <;> exact ⟨_, rfl⟩

theorem foldAmb_total (wf : WF P) (fo : FoldOk P) {l : List Nat} : ∀ {c : Cur}, (∀ i ∈ l, (P.decls[i]?).isSome = true) →
    (∀ i, c.decl = some i → (P.decls[i]?).isSome = true) → ∃ c', foldAmb P c l = some c' := by
  induction l with
  | nil => exact fun _ _ => ⟨_, rfl⟩
  | cons x l ih =>
    intro c hl hc
    obtain ⟨d, hd⟩ := Option.isSome_iff_exists.1 (hl x (by simp))
    have hstep : ∃ c1, resolveAmbiguity P c x = some c1 := by
      unfold resolveAmbiguity
      cases hcd : c.decl with
      | none => exact ⟨_, rfl⟩
      | some o =>
        obtain ⟨e, he⟩ := Option.isSome_iff_exists.1 (hc o hcd)
        obtain ⟨b, hb⟩ := firstIsPreferred_total wf fo hd he
        obtain ⟨b', hb'⟩ := firstIsPreferred_total wf fo he hd
        simp only [hb, hb', Option.bind_eq_bind, Option.bind_some]
        split
        · exact ⟨_, rfl⟩
        · split
          · exact ⟨_, rfl⟩
          · split <;> exact ⟨_, rfl⟩
    obtain ⟨c1, h1⟩ := hstep
    obtain ⟨_, h2, _⟩ := resolveAmbiguity_some h1
    obtain ⟨c', hc'⟩ := ih (c := c1) (fun i hi => hl i (by simp [hi])) (by
      intro i hi
      rcases h2 i hi with h | h
      · exact hc i h
      · rw [h, hd]; rfl)
    exact ⟨c', by simp [foldAmb, h1, hc']⟩

/-! ## Without weak aliases -/

/-- Is the declaration marked as builtin? -/
def autoFlag (P : Prog) (i : Nat) : Bool := ((P.decls[i]?).map (·.auto)).getD false

/-- Not in a module made from a generic one, and not a weak alias. -/
def Simple (P : Prog) (i : Nat) : Prop :=
  ∃ d, P.decls[i]? = some d ∧ inInstance P d = some false ∧ (d.kind ≠ .typedef ∨ d.weak = false)

theorem firstIsPreferred_simple {i j : Nat} (hi : Simple P i) (hj : Simple P j) :
    firstIsPreferred P i j = some (autoFlag P i && !autoFlag P j) := by
  obtain ⟨d, hd, hg, _⟩ := hi
  obtain ⟨e, he, hg2, hw⟩ := hj
  unfold firstIsPreferred
  simp only [hd, he, hg, hg2, Option.bind_eq_bind, Option.bind_some, autoFlag, Option.map_some, Option.getD_some]
  by_cases h : (d.auto && !e.auto) = true
  · rw [if_pos (by simp [h]), h]
  · rw [if_neg (by simpa using h), if_pos (by rcases hw with h | h <;> simp [h])]
    simp only [Option.some.injEq]
    exact (Bool.eq_false_iff.2 h).symm

/-- What is picked: the first one, and the second one for the message; of the builtin ones if there are any. -/
def pick (P : Prog) (l : List Nat) : Cur :=
  if l.filter (autoFlag P) = [] then ⟨l.head?, l[1]?⟩ else ⟨(l.filter (autoFlag P)).head?, (l.filter (autoFlag P))[1]?⟩

theorem pick_nil : pick P [] = {} := rfl

theorem resolveAmbiguity_pick (l : List Nat) (x : Nat) (hl : ∀ i ∈ l, Simple P i) (hx : Simple P x) :
    resolveAmbiguity P (pick P l) x = some (pick P (l ++ [x])) := by
  unfold resolveAmbiguity
  cases l with
  | nil =>
    simp only [pick_nil]
    by_cases ha : autoFlag P x = true <;> simp [pick, ha]
  | cons y l =>
    have hy := hl y (by simp)
    by_cases hb : (y :: l).filter (autoFlag P) = []
    · have hya : autoFlag P y = false := by
        cases h : autoFlag P y with
        | false => rfl
        | true => rw [List.filter_cons_of_pos h] at hb; cases hb
      have hp : pick P (y :: l) = ⟨some y, l[0]?⟩ := by
        unfold pick
        rw [if_pos hb]
        rfl
      rw [hp]
      simp only [firstIsPreferred_simple hx hy, firstIsPreferred_simple hy hx, Option.bind_eq_bind, Option.bind_some, hya, Bool.not_false,
        Bool.and_true, Bool.false_and]
      by_cases ha : autoFlag P x = true
      · rw [if_pos ha]
        unfold pick
        have : (y :: l ++ [x]).filter (autoFlag P) = [x] := by
          rw [List.filter_append, hb]
          simp [ha]
        rw [this]
        simp
      · rw [if_neg ha]
        have hf : (y :: l ++ [x]).filter (autoFlag P) = [] := by
          rw [List.filter_append, hb]
          simp [ha]
        unfold pick
        rw [if_pos hf]
        cases l with
        | nil => rfl
        | cons z l => rfl
    · have hp : pick P (y :: l) = ⟨((y :: l).filter (autoFlag P)).head?, ((y :: l).filter (autoFlag P))[1]?⟩ := by
        unfold pick
        rw [if_neg hb]
      rw [hp]
      have hf : (y :: l ++ [x]).filter (autoFlag P) = (y :: l).filter (autoFlag P) ++ (if autoFlag P x then [x] else []) := by
        rw [List.filter_append]
        by_cases ha : autoFlag P x = true <;> simp [ha]
      have hp' : pick P (y :: l ++ [x]) =
          ⟨((y :: l).filter (autoFlag P) ++ (if autoFlag P x then [x] else [])).head?,
            ((y :: l).filter (autoFlag P) ++ (if autoFlag P x then [x] else []))[1]?⟩ := by
        unfold pick
        rw [hf, if_neg (by simp [hb])]
      rw [hp']
      have hmem : ∀ z ∈ (y :: l).filter (autoFlag P), Simple P z ∧ autoFlag P z = true := fun z hz =>
        ⟨hl z (List.mem_filter.1 hz).1, (List.mem_filter.1 hz).2⟩
      generalize (y :: l).filter (autoFlag P) = bs at hb hmem
      cases bs with
      | nil => exact absurd rfl hb
      | cons z bs =>
        obtain ⟨hz, hza⟩ := hmem z (by simp)
        simp only [List.head?_cons, firstIsPreferred_simple hx hz, firstIsPreferred_simple hz hx, Option.bind_eq_bind, Option.bind_some,
          hza, Bool.not_true, Bool.and_false, Bool.false_eq_true, if_false, Bool.true_and]
        cases bs with
        | nil =>
          by_cases ha : autoFlag P x = true <;> simp [ha]
        | cons w bs =>
          by_cases ha : autoFlag P x = true <;> simp [ha]

theorem foldAmb_pick (l : List Nat) (hl : ∀ i ∈ l, Simple P i) : foldAmb P {} l = some (pick P l) := by
  have key : ∀ n (l : List Nat), l.length = n → (∀ i ∈ l, Simple P i) → foldAmb P {} l = some (pick P l) := by
    intro n
    induction n with
    | zero =>
      intro l h _
      rw [List.length_eq_zero_iff.1 h]
      rfl
    | succ n ih =>
      intro l h hl
      rcases List.eq_nil_or_concat l with h' | ⟨l', x, h'⟩
      · simp [h'] at h
      · have : l = l' ++ [x] := by simpa using h'
        subst this
        rw [foldAmb_append, ih l' (by simp at h; omega) (fun i hi => hl i (by simp [hi]))]
        simp only [Option.bind_some]
        exact resolveAmbiguity_pick l' x (fun i hi => hl i (by simp [hi])) (hl x (by simp))
  exact key _ l rfl hl

theorem single_iff {l : List Nat} (hn : l.Nodup) (i : Nat) : (l.head? = some i ∧ l[1]? = none) ↔ (i ∈ l ∧ ∀ j ∈ l, j = i) := by
  match l, hn with
  | [], _ => simp
  | [x], _ => simp; exact fun h => h.symm
  | x :: y :: l, hn =>
    simp only [List.head?_cons, Option.some.injEq, List.getElem?_cons_succ, List.getElem?_cons_zero, reduceCtorEq, and_false, false_iff,
      not_and]
    intro _ h
    have h1 := h x (by simp)
    have h2 := h y (by simp)
    simp only [List.nodup_cons, List.mem_cons, not_or] at hn
    exact hn.1.1 (h1.trans h2.symm)

/-- One declaration is picked, without ambiguity, exactly if it is the only one or the only builtin one. -/
theorem pick_iff {l : List Nat} (hn : l.Nodup) (i : Nat) :
    ((pick P l).decl = some i ∧ (pick P l).ambiguous = none) ↔
      ((i ∈ l ∧ ∀ j ∈ l, j = i) ∨ ((i ∈ l ∧ autoFlag P i = true) ∧ ∀ j ∈ l, autoFlag P j = true → j = i)) := by
  have hmem : ∀ j, j ∈ l.filter (autoFlag P) ↔ j ∈ l ∧ autoFlag P j = true := fun j => List.mem_filter
  have hnf : (l.filter (autoFlag P)).Nodup := hn.sublist List.filter_sublist
  unfold pick
  by_cases hb : l.filter (autoFlag P) = []
  · rw [if_pos hb]
    simp only
    rw [single_iff hn]
    constructor
    · exact .inl
    · rintro (h | ⟨⟨h1, h2⟩, _⟩)
      · exact h
      · have := (hmem i).2 ⟨h1, h2⟩
        rw [hb] at this
        cases this
  · rw [if_neg hb]
    simp only
    rw [single_iff hnf]
    constructor
    · rintro ⟨h1, h2⟩
      exact .inr ⟨(hmem i).1 h1, fun j hj hja => h2 j ((hmem j).2 ⟨hj, hja⟩)⟩
    · rintro (⟨h1, h2⟩ | ⟨h1, h2⟩)
      · obtain ⟨j, hj⟩ := List.exists_mem_of_ne_nil _ hb
        have := h2 j ((hmem j).1 hj).1
        subst this
        exact ⟨hj, fun k hk => h2 k ((hmem k).1 hk).1⟩
      · exact ⟨(hmem i).2 h1, fun j hj => h2 j ((hmem j).1 hj).1 ((hmem j).1 hj).2⟩

end C3.NameRes
