import Verif.Mangle.LemmasInj

/-!
# Instances and symbols
-/

set_option autoImplicit false

namespace C3.Mangle

/-- A use whose instance is good. -/
theorem instName_qual {P : Program} {u : Use} (h : u.inst.Good P) :
    instName u.path none u.args = u.inst.qual := by
  have h' := h
  rw [Use.inst, Mod.Good] at h'
  rw [Use.inst, qual_inst h, instName_eq (fun s hs => (h'.2.2.1 s hs).toWord)]

theorem inst_inj {P : Program} {u u' : Use} (h : u.inst.Good P) (h' : u'.inst.Good P)
    (e : instName u.path none u.args = instName u'.path none u'.args) : u.inst = u'.inst := by
  rw [instName_qual h, instName_qual h'] at e
  have hx : Word ['x'] := ⟨by decide, by decide⟩
  obtain ⟨x, _⟩ := Mod.inj P u.inst u'.inst [['x']] [['x']] [] [] h h' (by decide) (by decide)
    (word_one hx) (word_one hx) (Or.inl rfl) (Or.inl rfl) (by rw [e])
  exact (sameMod_one x).1

theorem dollar_path {ws : List Name} (h : ∀ w ∈ ws, Word w) : '$' ∉ pathText ws := by
  induction ws with
  | nil => simp [pathText]
  | cons w ws ih =>
    have hw : '$' ∉ w := by
      intro e; exact absurd ((h w (by simp)).word _ e) (by decide)
    by_cases e : ws = []
    · subst e; exact hw
    · rw [pathText_cons e]
      intro c
      rcases List.mem_append.1 c with c | c
      · exact hw c
      · rcases List.mem_cons.1 c with c | c
        · exact absurd c (by decide)
        · rcases List.mem_cons.1 c with c | c
          · exact absurd c (by decide)
          · exact ih (fun a h' => h a (by simp [h'])) c

/-- The module found under the name of an instance is that instance. -/
theorem found_eq {P : Program} {m : Mod} {u : Use} (hm : m.Good P) (hu : u.inst.Good P)
    (e : m.text = instName u.path none u.args) : m = u.inst := by
  cases m with
  | plain path x =>
    rw [Mod.Good] at hm
    exfalso
    refine dollar_path hm.2.2 ?_
    rw [Mod.text] at e
    rw [e, instName]
    simp
  | inst path x args =>
    have hx : x = none := by rw [Mod.Good] at hm; exact hm.1
    subst hx
    rw [Mod.text] at e
    exact inst_inj (u := ⟨path, args⟩) hm hu e

theorem instantiate_eq {P : Program} {known : List Mod} {u : Use} (hk : ∀ m ∈ known, m.Good P)
    (hu : u.inst.Good P) :
    (instantiate known u.path none u.args).1 = u.inst ∧
      ∀ m ∈ (instantiate known u.path none u.args).2, m.Good P := by
  rw [instantiate]
  cases hf : known.find? (fun m => m.text == instName u.path none u.args) with
  | none =>
    refine ⟨rfl, ?_⟩
    intro m hm
    rcases List.mem_append.1 hm with h | h
    · exact hk m h
    · rw [List.mem_singleton.1 h]; exact hu
  | some m =>
    have h1 := List.mem_of_find?_eq_some hf
    have h2 := List.find?_some hf
    exact ⟨found_eq (hk m h1) hu (by simpa using h2), hk⟩

theorem instantiateAll_eq {P : Program} : ∀ (us : List Use) (known : List Mod),
    (∀ m ∈ known, m.Good P) → (∀ u ∈ us, u.inst.Good P) →
    instantiateAll known us = us.map Use.inst
  | [], _, _, _ => rfl
  | u :: us, known, hk, hu => by
    obtain ⟨a, b⟩ := instantiate_eq hk (hu u (by simp))
    rw [instantiateAll, List.map_cons]
    rw [← a, ← instantiateAll_eq us _ b (fun v hv => hu v (by simp [hv]))]

/-! ## Uses with the same arguments -/

/-- The instance a use would get is known. -/
def Known (known : List Mod) (u : Use) (m : Mod) : Prop :=
  known.find? (fun m => m.text == instName u.path none u.args) = some m

theorem known_mono {known : List Mod} {u : Use} {m : Mod} (h : Known known u m) (v : Use) :
    Known (instantiate known v.path none v.args).2 u m := by
  rw [instantiate]
  cases hf : known.find? (fun m => m.text == instName v.path none v.args) with
  | none =>
    rw [Known, List.find?_append, h]; rfl
  | some m => exact h

theorem known_self (known : List Mod) (u : Use) :
    Known (instantiate known u.path none u.args).2 u (instantiate known u.path none u.args).1 := by
  rw [instantiate]
  cases hf : known.find? (fun m => m.text == instName u.path none u.args) with
  | none =>
    rw [Known, List.find?_append, hf]
    simp [Mod.text, instName]
  | some m => exact hf

theorem known_get {us : List Use} {known : List Mod} {u : Use} {m : Mod} {j : Nat}
    (h : Known known u m) (hj : us[j]? = some u) : (instantiateAll known us)[j]? = some m := by
  induction us generalizing known j with
  | nil => cases hj
  | cons v us ih =>
    cases j with
    | zero =>
      simp only [List.getElem?_cons_zero, Option.some.injEq] at hj
      subst hj
      rw [instantiateAll]
      rw [Known] at h
      simp [instantiate, h]
    | succ j =>
      rw [List.getElem?_cons_succ] at hj
      rw [instantiateAll]
      exact ih (known_mono h v) hj

theorem same_use {us : List Use} {known : List Mod} {u : Use} {i j : Nat} (hij : i ≤ j)
    (hi : us[i]? = some u) (hj : us[j]? = some u) :
    (instantiateAll known us)[i]? = (instantiateAll known us)[j]? := by
  induction us generalizing known i j with
  | nil => cases hi
  | cons v us ih =>
    cases i with
    | zero =>
      simp only [List.getElem?_cons_zero, Option.some.injEq] at hi
      subst hi
      cases j with
      | zero => rfl
      | succ j =>
        rw [List.getElem?_cons_succ] at hj
        rw [instantiateAll]
        show some (instantiate known v.path none v.args).1 =
          (instantiateAll (instantiate known v.path none v.args).2 us)[j]?
        rw [known_get (known_self known v) hj]
    | succ i =>
      cases j with
      | zero => omega
      | succ j =>
        rw [List.getElem?_cons_succ] at hi hj
        rw [instantiateAll]
        exact ih (by omega) hi hj

/-- Two uses with the same name share the instance of the first. -/
theorem shares {u u' : Use} (h : instName u'.path none u'.args = instName u.path none u.args) :
    instantiateAll [] [u, u'] = [u.inst, u.inst] := by
  simp [instantiateAll, instantiate, h, Mod.text, instName, Use.inst]
  simp [instName] at h
  simp [h]

/-! ## Symbols -/

theorem owner_word {P : Program} {t : Ty} (h : Owner t) (hg : t.Good P) : Word t.shown := by
  cases h with
  | basic b =>
    rw [Ty.shown]
    exact ⟨by cases b <;> decide, basic_chars b⟩
  | any => rw [Ty.shown]; exact ⟨by decide, by decide⟩
  | user f m name h =>
    rw [Ty.Good] at hg
    rw [Ty.shown]; exact hg.2.2.2.2.1

theorem keyword_low {w : Name} (h : Keyword w) : Low w := by
  cases h with
  | basic b => cases b <;> exact ⟨_, rfl, by decide, by decide⟩
  | any => exact ⟨_, rfl, by decide, by decide⟩

theorem owner_low {t : Ty} (h : Owner t) : Keyword t.shown ∨ ¬ Low t.shown := by
  cases h with
  | basic b => rw [Ty.shown]; exact Or.inl (.basic b)
  | any => rw [Ty.shown]; exact Or.inl .any
  | user f m name h => rw [Ty.shown]; exact Or.inr h

theorem owner_inj {P : Program} {t t' : Ty} {m m' : Mod} (h : Owner t) (h' : Owner t')
    (hg : t.Good P) (hg' : t'.Good P) (hs : t.shown = t'.shown) (hm : t.home m = t'.home m') :
    t = t' := by
  have ha : ∀ b : Basic, b.name ≠ ['a', 'n', 'y'] := by intro b; cases b <;> decide
  cases h with
  | basic b =>
    cases h' with
    | basic b' => rw [Ty.shown, Ty.shown] at hs; rw [basic_inj hs]
    | any => rw [Ty.shown, Ty.shown] at hs; exact absurd hs (ha b)
    | user f' m' name' h2 =>
      rw [Ty.shown, Ty.shown] at hs
      exact absurd (hs ▸ keyword_low (.basic b)) h2
  | any =>
    cases h' with
    | basic b' => rw [Ty.shown, Ty.shown] at hs; exact absurd hs.symm (ha b')
    | any => rfl
    | user f' m' name' h2 =>
      rw [Ty.shown, Ty.shown] at hs
      exact absurd (hs ▸ keyword_low .any) h2
  | user f n name h1 =>
    cases h' with
    | basic b' =>
      rw [Ty.shown, Ty.shown] at hs
      exact absurd (hs.symm ▸ keyword_low (.basic b')) h1
    | any =>
      rw [Ty.shown, Ty.shown] at hs
      exact absurd (hs.symm ▸ keyword_low .any) h1
    | user f' n' name' h2 =>
      rw [Ty.shown, Ty.shown] at hs
      rw [Ty.home, Ty.home] at hm
      rw [Ty.Good] at hg hg'
      subst hs hm
      rw [hg.2.2.2.1, hg'.2.2.2.1]

/-- The last words of a symbol. -/
def GDecl.words (d : GDecl) : List Name :=
  match d.parent with
  | none => [d.name]
  | some p => [p.shown, d.name]

theorem symbol_eq {P : Program} {d : GDecl} (h : d.Good P) :
    d.symbol = d.home.qual ++ '.' :: (dotted d.words ++ []) := by
  rw [GDecl.symbol, GDecl.home, GDecl.words]
  cases hp : d.parent with
  | none => simp [h.ext, h.isExtern, h.isExport, declName_plain, Mod.qual, dotted]
  | some p => simp [h.ext, h.isExtern, h.isExport, Mod.qual, dotted]

theorem words_word {P : Program} {d : GDecl} (h : d.Good P) : ∀ w ∈ d.words, Word w := by
  intro w hw
  rw [GDecl.words] at hw
  cases hp : d.parent with
  | none =>
    rw [hp] at hw
    rw [List.mem_singleton.1 hw]; exact h.word
  | some p =>
    rw [hp] at hw
    obtain ⟨h1, h2⟩ := h.owner p hp
    simp only [List.mem_cons, List.not_mem_nil, or_false] at hw
    rcases hw with e | e
    · rw [e]; exact owner_word h1 h2
    · rw [e]; exact h.word

theorem words_ne (d : GDecl) : d.words ≠ [] := by
  rw [GDecl.words]; cases d.parent <;> simp

/-- A module's path does not end in the name of a type. -/
theorem no_mix {P : Program} {d d' : GDecl} (h : d.Good P) (h' : d'.Good P) {t : Ty}
    (hp : d.parent = none) (hp' : d'.parent = some t)
    (hs : SameMod d.home d'.home d.words d'.words) : False := by
  have e1 : d.words = [d.name] := by rw [GDecl.words, hp]
  have e2 : d'.words = [t.shown, d'.name] := by rw [GDecl.words, hp']
  rw [e1, e2] at hs
  rcases hs with ⟨p, p', a, b, e⟩ | ⟨_, e, _⟩
  · have e3 : p ++ [d.name] = (p' ++ [t.shown]) ++ [d'.name] := by simpa using e
    obtain ⟨x, _⟩ := List.append_inj' e3 rfl
    obtain ⟨l, k⟩ := h.path p none a t.shown (by rw [x]; simp)
    rcases owner_low (h'.owner t hp').1 with o | o
    · exact k o
    · exact o l
  · simp at e

theorem sameMod_two {m m' : Mod} {a b a' b' : Name} (h : SameMod m m' [a, b] [a', b']) :
    m = m' ∧ a = a' ∧ b = b' := by
  rcases h with ⟨p, p', rfl, rfl, e⟩ | ⟨e, e', _⟩
  · obtain ⟨x, y⟩ := List.append_inj' e rfl
    simp at y
    exact ⟨by rw [x], y⟩
  · simp at e'
    exact ⟨e, e'⟩

theorem sameMod_symm {m m' : Mod} {a b : List Name} (h : SameMod m m' a b) : SameMod m' m b a := by
  rcases h with ⟨p, p', h1, h2, e⟩ | ⟨rfl, e', e⟩
  · exact Or.inl ⟨p', p, h2, h1, e.symm⟩
  · exact Or.inr ⟨rfl, e'.symm, e⟩

theorem symbol_inj {P : Program} {d d' : GDecl} (h : d.Good P) (h' : d'.Good P)
    (e : d.symbol = d'.symbol) : d.home = d'.home ∧ d.parent = d'.parent ∧ d.name = d'.name := by
  rw [symbol_eq h, symbol_eq h'] at e
  obtain ⟨hs, _⟩ := Mod.inj P d.home d'.home d.words d'.words [] [] h.mod h'.mod (words_ne d)
    (words_ne d') (words_word h) (words_word h') (Or.inl rfl) (Or.inl rfl) e
  cases hp : d.parent with
  | none =>
    cases hp' : d'.parent with
    | none =>
      have e1 : d.words = [d.name] := by rw [GDecl.words, hp]
      have e2 : d'.words = [d'.name] := by rw [GDecl.words, hp']
      rw [e1, e2] at hs
      obtain ⟨x, y⟩ := sameMod_one hs
      exact ⟨x, rfl, y⟩
    | some t' => exact (no_mix h h' hp hp' hs).elim
  | some t =>
    cases hp' : d'.parent with
    | none => exact (no_mix h' h hp' hp (sameMod_symm hs)).elim
    | some t' =>
      have e1 : d.words = [t.shown, d.name] := by rw [GDecl.words, hp]
      have e2 : d'.words = [t'.shown, d'.name] := by rw [GDecl.words, hp']
      rw [e1, e2] at hs
      obtain ⟨x, y, z⟩ := sameMod_two hs
      obtain ⟨o1, o2⟩ := h.owner t hp
      obtain ⟨o3, o4⟩ := h'.owner t' hp'
      refine ⟨x, ?_, z⟩
      rw [GDecl.home, GDecl.home, hp, hp'] at x
      rw [owner_inj o1 o3 o2 o4 y x]

end C3.Mangle
