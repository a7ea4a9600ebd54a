import Verif.NameRes.LemmasVis

/-!
# Lemmas: what the tables hold
-/

set_option autoImplicit false

namespace C3.NameRes

variable {P : Prog}

/-- Is the declaration registered under the name outside its file? -/
def isGlobal (P : Prog) (n : Name) (i : Nat) : Bool :=
  match P.decls[i]? with
  | none => false
  | some d => d.kind.named && d.vis != .loc && d.name == n

theorem isGlobal_iff {n : Name} {i : Nat} :
    isGlobal P n i = true ↔ ∃ d, P.decls[i]? = some d ∧ d.kind.named = true ∧ d.vis ≠ .loc ∧ d.name = n := by
  unfold isGlobal
  split
  · rename_i h
    simp [h]
  · rename_i d h
    simp [h, and_assoc]

/-- The entry of a name for a list of declarations. -/
def entryOf : List Nat → Entry
  | [] => .empty
  | [d] => .single d
  | d :: e :: r => .array (d :: e :: r)

theorem entryOf_add (l : List Nat) (i : Nat) : (entryOf l).add i = entryOf (l ++ [i]) := by
  match l with
  | [] => rfl
  | [d] => rfl
  | d :: e :: r => rfl

/-- What the tables hold once the declarations of `done` are registered. -/
structure Holds (P : Prog) (T : Tables) (done : List Nat) : Prop where
  globals : ∀ n, T.globals n = entryOf (done.filter (isGlobal P n))
  modules : ∀ m n i, T.modules m n = some i ↔
    i ∈ done ∧ ∃ d, P.decls[i]? = some d ∧ d.kind.named = true ∧ d.vis ≠ .loc ∧ d.name = n ∧ P.moduleOf d = some m
  files : ∀ f n i, T.files f n = some i ↔ i ∈ done ∧ ∃ d, P.decls[i]? = some d ∧ d.kind.named = true ∧ d.name = n ∧ d.file = f

theorem holds_empty : Holds P Tables.empty [] := ⟨fun _ => rfl, by simp [Tables.empty], by simp [Tables.empty]⟩

theorem update_same {α β : Type} [DecidableEq α] (f : α → β) (a : α) (b : β) : update f a b a = b := by simp [update]

theorem update_ne {α β : Type} [DecidableEq α] (f : α → β) {a x : α} (b : β) (h : x ≠ a) : update f a b x = f x := by simp [update, h]

/-- One more in a table of files or modules. -/
theorem update_iff {κ : Type} [DecidableEq κ] {tab : κ → Name → Option Nat} {done : List Nat} {Q : κ → Name → Nat → Prop}
    (h : ∀ k n i, tab k n = some i ↔ i ∈ done ∧ Q k n i) {k0 : κ} {n0 : Name} {j : Nat} (hfree : tab k0 n0 = none)
    (hQ : ∀ k n, Q k n j ↔ k = k0 ∧ n = n0) (k : κ) (n : Name) (i : Nat) :
    update tab k0 (update (tab k0) n0 (some j)) k n = some i ↔ i ∈ done ++ [j] ∧ Q k n i := by
  by_cases hk : k = k0
  · subst hk
    rw [update_same]
    by_cases hn : n = n0
    · subst hn
      rw [update_same]
      simp only [Option.some.injEq, List.mem_append, List.mem_singleton]
      constructor
      · rintro rfl
        exact ⟨.inr rfl, (hQ k n).2 ⟨rfl, rfl⟩⟩
      · rintro ⟨hi | hi, hq⟩
        · have := (h k n i).2 ⟨hi, hq⟩
          rw [hfree] at this
          cases this
        · exact hi.symm
    · rw [update_ne _ _ hn, h]
      simp only [List.mem_append, List.mem_singleton]
      constructor
      · exact fun ⟨h1, h2⟩ => ⟨.inl h1, h2⟩
      · rintro ⟨hi | hi, hq⟩
        · exact ⟨hi, hq⟩
        · subst hi
          exact absurd ((hQ k n).1 hq).2 hn
  · rw [update_ne _ _ hk, h]
    simp only [List.mem_append, List.mem_singleton]
    constructor
    · exact fun ⟨h1, h2⟩ => ⟨.inl h1, h2⟩
    · rintro ⟨hi | hi, hq⟩
      · exact ⟨hi, hq⟩
      · subst hi
        exact absurd ((hQ k n).1 hq).1 hk

theorem same_iff {κ : Type} {tab : κ → Name → Option Nat} {done : List Nat} {Q : κ → Name → Nat → Prop}
    (h : ∀ k n i, tab k n = some i ↔ i ∈ done ∧ Q k n i) {j : Nat} (hQ : ∀ k n, ¬Q k n j) (k : κ) (n : Name) (i : Nat) :
    tab k n = some i ↔ i ∈ done ++ [j] ∧ Q k n i := by
  rw [h]
  simp only [List.mem_append, List.mem_singleton]
  constructor
  · exact fun ⟨h1, h2⟩ => ⟨.inl h1, h2⟩
  · rintro ⟨hi | hi, hq⟩
    · exact ⟨hi, hq⟩
    · subst hi
      exact absurd hq (hQ k n)

theorem filter_skip {done : List Nat} {n : Name} {j : Nat} (h : isGlobal P n j = false) :
    (done ++ [j]).filter (isGlobal P n) = done.filter (isGlobal P n) := by
  simp [h]

theorem register_holds {T T' : Tables} {done : List Nat} {j : Nat} (h : Holds P T done) (hr : register P T j = some T') :
    Holds P T' (done ++ [j]) := by
  unfold register at hr
  cases hd : P.decls[j]? with
  | none => simp [hd] at hr
  | some d =>
    cases hm : P.moduleOf d with
    | none => simp [hd, hm] at hr
    | some m =>
      simp only [hd, hm, Option.bind_eq_bind, Option.bind_some] at hr
      by_cases hn : d.kind.named = true
      · rw [if_pos hn] at hr
        have hQf : ∀ (k : Nat) (n : Name), (∃ e, P.decls[j]? = some e ∧ e.kind.named = true ∧ e.name = n ∧ e.file = k) ↔
            k = d.file ∧ n = d.name := by
          intro k n
          simp only [hd, Option.some.injEq]
          constructor
          · rintro ⟨e, rfl, _, h3, h4⟩
            exact ⟨h4.symm, h3.symm⟩
          · rintro ⟨rfl, rfl⟩
            exact ⟨d, rfl, hn, rfl, rfl⟩
        by_cases hv : d.vis = .loc
        · rw [if_pos hv] at hr
          by_cases hf : (T.files d.file d.name).isSome = true
          · rw [if_pos hf] at hr; cases hr
          · rw [if_neg hf, if_pos hv] at hr
            injection hr with hr
            subst hr
            refine ⟨?_, ?_, ?_⟩
            · intro n
              rw [filter_skip (by simp [isGlobal, hd, hv])]
              exact h.globals n
            · refine same_iff h.modules ?_
              rintro k n ⟨e, he, _, hv', _⟩
              rw [hd] at he
              cases he
              exact hv' hv
            · exact update_iff h.files (by simpa using hf) hQf
        · rw [if_neg hv] at hr
          simp only at hr
          by_cases hf : (T.files d.file d.name).isSome = true
          · rw [if_pos hf] at hr; cases hr
          · rw [if_neg hf, if_neg hv] at hr
            by_cases hmod : (T.modules m d.name).isSome = true
            · rw [if_pos hmod] at hr; cases hr
            · rw [if_neg hmod] at hr
              injection hr with hr
              subst hr
              refine ⟨?_, ?_, ?_⟩
              · intro n
                simp only
                by_cases hname : n = d.name
                · subst hname
                  rw [update_same, h.globals, entryOf_add]
                  congr 1
                  simp [isGlobal, hd, hn, hv]
                · rw [update_ne _ _ hname, filter_skip (by simp [isGlobal, hd, hn, hv]; exact fun h => hname h.symm)]
                  exact h.globals n
              · refine update_iff h.modules (by simpa using hmod) ?_
                intro k n
                simp only [hd, Option.some.injEq]
                constructor
                · rintro ⟨e, rfl, _, _, h3, h4⟩
                  rw [hm] at h4
                  cases h4
                  exact ⟨rfl, h3.symm⟩
                · rintro ⟨rfl, rfl⟩
                  exact ⟨d, rfl, hn, hv, rfl, hm⟩
              · exact update_iff h.files (by simpa using hf) hQf
      · rw [if_neg hn] at hr
        injection hr with hr
        subst hr
        refine ⟨?_, ?_, ?_⟩
        · intro n
          rw [filter_skip (by simp only [isGlobal, hd]; simp [hn])]
          exact h.globals n
        · refine same_iff h.modules ?_
          rintro k n ⟨e, he, hk, _⟩
          rw [hd] at he
          cases he
          exact hn hk
        · refine same_iff h.files ?_
          rintro k n ⟨e, he, hk, _⟩
          rw [hd] at he
          cases he
          exact hn hk

theorem registerAll_holds {order done : List Nat} {T T' : Tables} (h : Holds P T done) (hr : registerAll P order T = some T') :
    Holds P T' (done ++ order) := by
  induction order generalizing T done with
  | nil =>
    simp only [registerAll, Option.some.injEq] at hr
    subst hr
    simpa using h
  | cons j js ih =>
    simp only [registerAll, Option.bind_eq_bind, Option.bind_eq_some_iff] at hr
    obtain ⟨T1, h1, h2⟩ := hr
    have := ih (register_holds h h1) h2
    simpa using this

theorem Filled.holds {T : Tables} {order : List Nat} (h : Filled P T order) : Holds P T order := by
  simpa using registerAll_holds holds_empty h.ok

theorem Filled.mem {T : Tables} {order : List Nat} (h : Filled P T order) {i : Nat} {d : Decl} (hd : P.decls[i]? = some d) : i ∈ order := by
  rw [h.all.mem_iff, List.mem_range]
  exact (List.getElem?_eq_some_iff.1 hd).1

theorem Filled.nodup {T : Tables} {order : List Nat} (h : Filled P T order) : order.Nodup :=
  h.all.nodup_iff.2 List.nodup_range

end C3.NameRes
