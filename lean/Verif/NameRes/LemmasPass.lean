import Verif.NameRes.ModelPass
import Verif.NameRes.LemmasPath

/-!
# Lemmas: the hierarchy of modules
-/

set_option autoImplicit false

namespace C3.NameRes

/-- What holds between the steps of the pass. -/
structure PassInv (st : List Staged) : Prop where
  path : ∀ (i : Nat) (x : Staged), st[i]? = some x → ∃ segs, IsPath x.1.name segs
  unique : ∀ (i j : Nat) (x y : Staged), st[i]? = some x → st[j]? = some y → x.1.name = y.1.name → i = j
  parent : ∀ (i : Nat) (x : Staged) (segs : List Name) (s : Name), st[i]? = some x → x.2 = true → IsPath x.1.name (segs ++ [s]) →
    (segs = [] → x.1.parent = none) ∧ (segs ≠ [] → ∃ p y, x.1.parent = some p ∧ st[p]? = some y ∧ IsPath y.1.name segs)
  fresh : ∀ (i : Nat) (x : Staged), st[i]? = some x → x.2 = false → x.1.parent = none

/-- What a step keeps. -/
structure Keeps (st st' : List Staged) : Prop where
  len : st.length ≤ st'.length
  old : ∀ (i : Nat) (x : Staged), st[i]? = some x →
    ∃ y, st'[i]? = some y ∧ y.1.name = x.1.name ∧ y.1.isGeneric = x.1.isGeneric ∧ y.1.generic = x.1.generic ∧ (x.2 = true → y.2 = true)
  new : ∀ (i : Nat) (y : Staged), st.length ≤ i → st'[i]? = some y → y.2 = true

theorem keeps_refl (st : List Staged) : Keeps st st :=
  ⟨Nat.le_refl _, fun _ x h => ⟨x, h, rfl, rfl, rfl, id⟩, fun i y h hy => by
    rw [List.getElem?_eq_none h] at hy
    cases hy⟩

theorem set_get {st : List Staged} {i k : Nat} {m x : Staged} (hi : st[i]? = some m) (y : Staged) (h : (st.set i y)[k]? = some x) :
    (k = i ∧ x = y) ∨ (k ≠ i ∧ st[k]? = some x) := by
  by_cases hk : k = i
  · subst hk
    have hlt := (List.getElem?_eq_some_iff.1 hi).1
    rw [List.getElem?_set_self hlt] at h
    exact .inl ⟨rfl, (Option.some.inj h).symm⟩
  · rw [List.getElem?_set_ne (fun e => hk e.symm)] at h
    exact .inr ⟨hk, h⟩

theorem set_keep {st : List Staged} {i k : Nat} {m x : Staged} (hi : st[i]? = some m) (p : Option Nat) (h : st[k]? = some x) :
    ∃ y, (st.set i ({ m.1 with parent := p }, true))[k]? = some y ∧ y.1.name = x.1.name ∧ y.1.isGeneric = x.1.isGeneric ∧
      y.1.generic = x.1.generic ∧ (x.2 = true → y.2 = true) := by
  by_cases hk : k = i
  · subst hk
    have hlt := (List.getElem?_eq_some_iff.1 hi).1
    rw [hi] at h
    cases h
    exact ⟨_, List.getElem?_set_self hlt, rfl, rfl, rfl, fun _ => rfl⟩
  · exact ⟨x, by rw [List.getElem?_set_ne (fun e => hk e.symm)]; exact h, rfl, rfl, rfl, id⟩

/-- Giving a module its parent. -/
theorem passInv_set {st : List Staged} (inv : PassInv st) {i : Nat} {m : Staged} (hi : st[i]? = some m) {segs : List Name} {s : Name}
    (hp : IsPath m.1.name (segs ++ [s])) (p : Option Nat) (hnil : segs = [] → p = none)
    (hcons : segs ≠ [] → ∃ j y, p = some j ∧ st[j]? = some y ∧ IsPath y.1.name segs) :
    PassInv (st.set i ({ m.1 with parent := p }, true)) := by
  refine ⟨?_, ?_, ?_, ?_⟩
  · intro k x hk
    rcases set_get hi _ hk with ⟨_, rfl⟩ | ⟨_, h⟩
    · exact inv.path i m hi
    · exact inv.path k x h
  · intro k l x y hk hl hxy
    rcases set_get hi _ hk with ⟨rfl, rfl⟩ | ⟨_, h1⟩ <;> rcases set_get hi _ hl with ⟨rfl, rfl⟩ | ⟨_, h2⟩
    · rfl
    · exact inv.unique _ _ _ _ hi h2 hxy
    · exact inv.unique _ _ _ _ h1 hi hxy
    · exact inv.unique _ _ _ _ h1 h2 hxy
  · intro k x sg t hk hx hpx
    have lift : ∀ sg', (∃ j y, p = some j ∧ st[j]? = some y ∧ IsPath y.1.name sg') →
        ∃ j y, p = some j ∧ (st.set i ({ m.1 with parent := p }, true))[j]? = some y ∧ IsPath y.1.name sg' := by
      rintro sg' ⟨j, y, h1, h2, h3⟩
      obtain ⟨y', hy', hn, _⟩ := set_keep hi p h2
      exact ⟨j, y', h1, hy', by rw [hn]; exact h3⟩
    rcases set_get hi _ hk with ⟨_, rfl⟩ | ⟨_, h⟩
    · have heq := hpx.inj hp
      have h1 : sg = segs := (List.append_inj' heq rfl).1
      subst h1
      exact ⟨hnil, fun h => lift sg (hcons h)⟩
    · obtain ⟨h1, h2⟩ := inv.parent k x sg t h hx hpx
      refine ⟨h1, fun hne => ?_⟩
      obtain ⟨j, y, g1, g2, g3⟩ := h2 hne
      obtain ⟨y', hy', hn, _⟩ := set_keep hi p g2
      exact ⟨j, y', g1, hy', by rw [hn]; exact g3⟩
  · intro k x hk hx
    rcases set_get hi _ hk with ⟨_, rfl⟩ | ⟨_, h⟩
    · cases hx
    · exact inv.fresh k x h hx

theorem keeps_set {st : List Staged} {i : Nat} {m : Staged} (hi : st[i]? = some m) (p : Option Nat) :
    Keeps st (st.set i ({ m.1 with parent := p }, true)) :=
  ⟨by simp, fun k x h => set_keep hi p h, fun k y h hy => by
    rw [List.getElem?_eq_none (by simpa using h)] at hy
    cases hy⟩

theorem keeps_trans {a b c : List Staged} (h1 : Keeps a b) (h2 : Keeps b c) : Keeps a c := by
  refine ⟨Nat.le_trans h1.len h2.len, ?_, ?_⟩
  · intro i x hx
    obtain ⟨y, hy, e1, e2, e3, e4⟩ := h1.old i x hx
    obtain ⟨z, hz, f1, f2, f3, f4⟩ := h2.old i y hy
    exact ⟨z, hz, f1.trans e1, f2.trans e2, f3.trans e3, fun h => f4 (e4 h)⟩
  · intro i y hi hy
    by_cases hb : i < b.length
    · obtain ⟨x, hx⟩ : ∃ x, b[i]? = some x := ⟨b[i], List.getElem?_eq_getElem hb⟩
      obtain ⟨z, hz, _, _, _, f4⟩ := h2.old i x hx
      rw [hy] at hz
      cases hz
      exact f4 (h1.new i x hi hx)
    · exact h2.new i y (by omega) hy

/-- Adding the parent that was missing. -/
theorem passInv_add {st : List Staged} (inv : PassInv st) {i : Nat} {m : Staged} (hi : st[i]? = some m) {segs : List Name} {s : Name}
    (hp : IsPath m.1.name (segs ++ [s])) (hne : segs ≠ []) (hfree : ∀ (k : Nat) (x : Staged), st[k]? = some x → x.1.name ≠ joinPath segs) :
    PassInv (st.set i ({ m.1 with parent := some st.length }, true) ++ [({ name := joinPath segs }, false)]) := by
  have hseg : IsPath (joinPath segs) segs := ⟨rfl, hne, fun x hx => hp.ident x (by simp [hx])⟩
  have hi' : (st ++ [(({ name := joinPath segs } : Module), false)])[i]? = some m := by
    rw [List.getElem?_append_left (List.getElem?_eq_some_iff.1 hi).1]
    exact hi
  have hcase : ∀ (k : Nat) (x : Staged), (st ++ [(({ name := joinPath segs } : Module), false)])[k]? = some x →
      st[k]? = some x ∨ (k = st.length ∧ x = ({ name := joinPath segs }, false)) := by
    intro k x hk
    by_cases hkl : k < st.length
    · rw [List.getElem?_append_left hkl] at hk
      exact .inl hk
    · rw [List.getElem?_append_right (by omega)] at hk
      match hkk : k - st.length, hk with
      | 0, hk =>
        simp only [List.getElem?_cons_zero, Option.some.injEq] at hk
        exact .inr ⟨by omega, hk.symm⟩
      | n + 1, hk => simp at hk
  have hlift : ∀ (k : Nat) (x : Staged), st[k]? = some x → (st ++ [(({ name := joinPath segs } : Module), false)])[k]? = some x := by
    intro k x hk
    rw [List.getElem?_append_left (List.getElem?_eq_some_iff.1 hk).1]
    exact hk
  have inv' : PassInv (st ++ [(({ name := joinPath segs } : Module), false)]) := by
    refine ⟨?_, ?_, ?_, ?_⟩
    · intro k x hk
      rcases hcase k x hk with h | ⟨_, rfl⟩
      · exact inv.path k x h
      · exact ⟨segs, hseg⟩
    · intro k l x y hk hl hxy
      rcases hcase k x hk with h1 | ⟨rfl, rfl⟩ <;> rcases hcase l y hl with h2 | ⟨rfl, rfl⟩
      · exact inv.unique _ _ _ _ h1 h2 hxy
      · exact absurd hxy (hfree k x h1)
      · exact absurd hxy.symm (hfree l y h2)
      · rfl
    · intro k x sg t hk hx hpx
      rcases hcase k x hk with h | ⟨_, rfl⟩
      · obtain ⟨h1, h2⟩ := inv.parent k x sg t h hx hpx
        refine ⟨h1, fun hne => ?_⟩
        obtain ⟨j, y, g1, g2, g3⟩ := h2 hne
        exact ⟨j, y, g1, hlift j y g2, g3⟩
      · cases hx
    · intro k x hk hx
      rcases hcase k x hk with h | ⟨_, rfl⟩
      · exact inv.fresh k x h hx
      · rfl
  have := passInv_set inv' hi' hp (some st.length) (fun h => absurd h hne)
    (fun _ => ⟨st.length, ({ name := joinPath segs }, false), rfl, by simp, hseg⟩)
  rw [List.set_append_left _ _ (List.getElem?_eq_some_iff.1 hi).1] at this
  exact this

theorem hierarchyPass_ok (fuel : Nat) : ∀ (i : Nat) (m : Staged) (st : List Staged), PassInv st → st[i]? = some m →
    m.1.name.length < fuel →
    ∃ st', hierarchyPass fuel i st = some st' ∧ PassInv st' ∧ Keeps st st' ∧ ∃ y, st'[i]? = some y ∧ y.2 = true := by
  induction fuel with
  | zero => exact fun _ _ _ _ _ h => absurd h (Nat.not_lt_zero _)
  | succ fuel ih =>
    intro i m st inv hi hf
    rw [hierarchyPass]
    simp only [hi, Option.bind_eq_bind, Option.bind_some]
    by_cases hd : m.2 = true
    · rw [if_pos hd]
      exact ⟨st, rfl, inv, keeps_refl st, m, hi, hd⟩
    · rw [if_neg hd]
      obtain ⟨A, hA⟩ := inv.path i m hi
      obtain ⟨segs, s, rfl⟩ : ∃ A' x, A = A' ++ [x] := by
        rcases List.eq_nil_or_concat A with h | ⟨l, y, h⟩
        · exact absurd h hA.nonempty
        · exact ⟨l, y, by simpa using h⟩
      have hpp : parentPath m.1.name = some (joinPath segs) := by
        rw [hA.text]
        exact parentPath_append hA.ident
      simp only [hpp, Option.bind_some]
      have hlt := (List.getElem?_eq_some_iff.1 hi).1
      by_cases hnil : segs = []
      · subst hnil
        rw [if_pos (show joinPath [] = [] from rfl)]
        have hm : m.1 = { m.1 with parent := none } := by
          have := inv.fresh i m hi (by simpa using hd)
          rw [← this]
        rw [hm]
        exact ⟨_, rfl, passInv_set inv hi hA none (fun _ => rfl) (fun h => absurd rfl h), keeps_set hi none,
          _, List.getElem?_set_self hlt, rfl⟩
      · have hid : Idents segs := fun x hx => hA.ident x (by simp [hx])
        have hpos := joinPath_length_pos hnil hid
        rw [if_neg (fun h => by rw [h] at hpos; cases hpos)]
        have hseg : IsPath (joinPath segs) segs := ⟨rfl, hnil, hid⟩
        have hshort : (joinPath segs).length < fuel := by
          have : m.1.name.length = (joinPath segs).length + 2 + s.length := by
            rw [hA.text, joinPath_append hnil (by simp)]
            simp [joinPath]
            omega
          omega
        cases h1 : st.findIdx? (fun x => !x.1.isGeneric && x.1.name == joinPath segs) with
        | some j =>
          simp only
          obtain ⟨hjl, hj, _⟩ := List.findIdx?_eq_some_iff_getElem.1 h1
          simp only [Bool.and_eq_true, beq_iff_eq] at hj
          exact ⟨_, rfl, passInv_set inv hi hA (some j) (fun h => absurd h hnil)
            (fun _ => ⟨j, st[j], rfl, List.getElem?_eq_getElem hjl, by rw [hj.2]; exact hseg⟩), keeps_set hi _,
            _, List.getElem?_set_self hlt, rfl⟩
        | none =>
          simp only
          cases h2 : st.findIdx? (fun x => x.1.name == joinPath segs) with
          | some j =>
            simp only
            obtain ⟨hjl, hj, _⟩ := List.findIdx?_eq_some_iff_getElem.1 h2
            simp only [beq_iff_eq] at hj
            have hjg : st[j]? = some st[j] := List.getElem?_eq_getElem hjl
            have inv' := passInv_set inv hi hA (some j) (fun h => absurd h hnil) (fun _ => ⟨j, st[j], rfl, hjg, by rw [hj]; exact hseg⟩)
            obtain ⟨y, hy, hyn, _⟩ := set_keep hi (some j) hjg
            obtain ⟨st', g1, g2, g3, _⟩ := ih j y _ inv' hy (by rw [hyn, hj]; exact hshort)
            have hk := keeps_trans (keeps_set hi (some j)) g3
            obtain ⟨z, hz, _, _, _, hz2⟩ := g3.old i _ (List.getElem?_set_self hlt)
            exact ⟨st', g1, g2, hk, z, hz, hz2 rfl⟩
          | none =>
            simp only
            have hfree : ∀ (k : Nat) (x : Staged), st[k]? = some x → x.1.name ≠ joinPath segs := by
              intro k x hk hx
              have := List.findIdx?_eq_none_iff.1 h2 x (List.mem_of_getElem? hk)
              simp [hx] at this
            have inv' := passInv_add inv hi hA hnil hfree
            have hlast : (st.set i ({ m.1 with parent := some st.length }, true) ++
                [(({ name := joinPath segs } : Module), false)])[st.length]? = some ({ name := joinPath segs }, false) := by
              rw [List.getElem?_append_right (by simp)]
              simp
            obtain ⟨st', g1, g2, g3, g4⟩ := ih st.length _ _ inv' hlast hshort
            have hset : (st.set i ({ m.1 with parent := some st.length }, true) ++
                [(({ name := joinPath segs } : Module), false)])[i]? = some ({ m.1 with parent := some st.length }, true) := by
              rw [List.getElem?_append_left (by simpa using hlt)]
              exact List.getElem?_set_self hlt
            obtain ⟨z, hz, _, _, _, hz2⟩ := g3.old i _ hset
            refine ⟨st', g1, g2, ⟨?_, ?_, ?_⟩, z, hz, hz2 rfl⟩
            · have := g3.len
              simp at this
              omega
            · intro k x hk
              obtain ⟨y, hy, e1, e2, e3, e4⟩ := set_keep hi (some st.length) hk
              have hy' : (st.set i ({ m.1 with parent := some st.length }, true) ++
                  [(({ name := joinPath segs } : Module), false)])[k]? = some y := by
                rw [List.getElem?_append_left (by simpa using (List.getElem?_eq_some_iff.1 hk).1)]
                exact hy
              obtain ⟨w, hw, f1, f2, f3, f4⟩ := g3.old k y hy'
              exact ⟨w, hw, f1.trans e1, f2.trans e2, f3.trans e3, fun h => f4 (e4 h)⟩
            · intro k y hk hy
              by_cases hkl : k = st.length
              · obtain ⟨z', hz', hz2'⟩ := g4
                rw [hkl, hz'] at hy
                cases hy
                exact hz2'
              · exact g3.new k y (by simp; omega) hy

theorem hierarchyAll_ok (is : List Nat) : ∀ (st : List Staged), PassInv st → (∀ i ∈ is, i < st.length) →
    ∃ st', hierarchyAll is st = some st' ∧ PassInv st' ∧ Keeps st st' ∧ ∀ i ∈ is, ∃ y, st'[i]? = some y ∧ y.2 = true := by
  induction is with
  | nil => exact fun st inv _ => ⟨st, rfl, inv, keeps_refl st, by simp⟩
  | cons i is ih =>
    intro st inv hl
    obtain ⟨m, hi⟩ : ∃ m, st[i]? = some m := ⟨_, List.getElem?_eq_getElem (hl i (by simp))⟩
    obtain ⟨st1, h1, h2, h3, y, hy, hy2⟩ := hierarchyPass_ok (m.1.name.length + 2) i m st inv hi (Nat.lt_of_lt_of_le (Nat.lt_succ_self _) (Nat.le_succ _))
    obtain ⟨st', g1, g2, g3, g4⟩ := ih st1 h2 (fun j hj => Nat.lt_of_lt_of_le (hl j (by simp [hj])) h3.len)
    refine ⟨st', ?_, g2, keeps_trans h3 g3, ?_⟩
    · rw [hierarchyAll]
      simp only [hi, h1, Option.bind_eq_bind, Option.bind_some]
      exact g1
    · intro j hj
      rcases List.mem_cons.1 hj with rfl | hj
      · obtain ⟨z, hz, _, _, _, hz2⟩ := g3.old j y hy
        exact ⟨z, hz, hz2 hy2⟩
      · exact g4 j hj

theorem rootOf_ok {ms : List Module}
    (parent : ∀ (m : Nat) (mm : Module) (segs : List Name) (x : Name), ms[m]? = some mm → IsPath mm.name (segs ++ [x]) →
      (segs = [] → mm.parent = none) ∧ (segs ≠ [] → ∃ p pm, mm.parent = some p ∧ ms[p]? = some pm ∧ IsPath pm.name segs)) (n : Nat) :
    ∀ (m : Nat) (mm : Module) (x : Name) (segs : List Name), segs.length = n → ms[m]? = some mm → IsPath mm.name (x :: segs) →
      ∃ t tm, rootOf ms m = some t ∧ ms[t]? = some tm ∧ tm.name = x := by
  induction n with
  | zero =>
    intro m mm x segs hl hm hp
    have := List.length_eq_zero_iff.1 hl
    subst this
    have h := (parent m mm [] x hm (by simpa using hp)).1 rfl
    refine ⟨m, mm, ?_, hm, by rw [hp.text]; rfl⟩
    rw [rootOf]
    simp [hm, h]
  | succ n ih =>
    intro m mm x segs hl hm hp
    obtain ⟨A, s, rfl⟩ : ∃ A' y, segs = A' ++ [y] := by
      rcases List.eq_nil_or_concat segs with h | ⟨l, y, h⟩
      · simp [h] at hl
      · exact ⟨l, y, by simpa using h⟩
    obtain ⟨p, pm, h1, h2, h3⟩ := (parent m mm (x :: A) s hm (by simpa using hp)).2 (by simp)
    obtain ⟨t, tm, g1, g2, g3⟩ := ih p pm x A (by simp at hl; omega) h2 h3
    refine ⟨t, tm, ?_, g2, g3⟩
    rw [rootOf]
    simp [hm, h1, g1]

theorem topAll_get {ms : List Module} {i : Nat} : (topAll ms)[i]? = (ms[i]?).map (fun m => { m with top := rootOf ms i }) := by
  unfold topAll
  rw [List.getElem?_map, List.getElem?_zipIdx]
  cases ms[i]? with
  | none => rfl
  | some m => simp

/-- The passes give a hierarchy. -/
theorem passes_ok {ms : List Module} (hpath : ∀ m ∈ ms, ∃ segs, IsPath m.name segs)
    (huniq : ∀ (i j : Nat) (x y : Module), ms[i]? = some x → ms[j]? = some y → x.name = y.name → i = j)
    (hnew : ∀ m ∈ ms, m.parent = none) :
    ∃ ms', passes ms = some ms' ∧ Hierarchy ms' ∧
      ∀ (i : Nat) (m : Module), ms[i]? = some m → ∃ m', ms'[i]? = some m' ∧ m'.name = m.name ∧ m'.isGeneric = m.isGeneric ∧
        m'.generic = m.generic := by
  have hget : ∀ (i : Nat) (x : Staged), (ms.map (fun m => (m, false)))[i]? = some x → ms[i]? = some x.1 ∧ x.2 = false := by
    intro i x hx
    rw [List.getElem?_map] at hx
    cases hm : ms[i]? with
    | none => rw [hm] at hx; cases hx
    | some m => rw [hm] at hx; cases hx; exact ⟨rfl, rfl⟩
  have inv : PassInv (ms.map (fun m => (m, false))) := by
    refine ⟨?_, ?_, ?_, ?_⟩
    · intro i x hx
      exact hpath x.1 (List.mem_of_getElem? (hget i x hx).1)
    · intro i j x y hx hy hxy
      exact huniq i j x.1 y.1 (hget i x hx).1 (hget j y hy).1 hxy
    · intro i x segs s hx hx2
      rw [(hget i x hx).2] at hx2
      cases hx2
    · intro i x hx _
      exact hnew x.1 (List.mem_of_getElem? (hget i x hx).1)
  obtain ⟨st, h1, h2, h3, h4⟩ := hierarchyAll_ok (List.range ms.length) _ inv (by simp)
  have hdone : ∀ (i : Nat) (x : Staged), st[i]? = some x → x.2 = true := by
    intro i x hx
    by_cases hi : i < ms.length
    · obtain ⟨y, hy, hy2⟩ := h4 i (by simpa using hi)
      rw [hx] at hy
      cases hy
      exact hy2
    · exact h3.new i x (by simp; omega) hx
  have hst : ∀ (i : Nat) (m : Module), (st.map (·.1))[i]? = some m → ∃ x, st[i]? = some x ∧ x.1 = m := by
    intro i m hm
    rw [List.getElem?_map] at hm
    cases hx : st[i]? with
    | none => rw [hx] at hm; cases hm
    | some x => rw [hx] at hm; exact ⟨x, rfl, Option.some.inj hm⟩
  have hst' : ∀ (i : Nat) (x : Staged), st[i]? = some x → (st.map (·.1))[i]? = some x.1 := by
    intro i x hx
    rw [List.getElem?_map, hx]
    rfl
  have hparent : ∀ (m : Nat) (mm : Module) (segs : List Name) (x : Name), (st.map (·.1))[m]? = some mm → IsPath mm.name (segs ++ [x]) →
      (segs = [] → mm.parent = none) ∧
        (segs ≠ [] → ∃ p pm, mm.parent = some p ∧ (st.map (·.1))[p]? = some pm ∧ IsPath pm.name segs) := by
    intro m mm segs x hm hp
    obtain ⟨y, hy, rfl⟩ := hst m mm hm
    obtain ⟨g1, g2⟩ := h2.parent m y segs x hy (hdone m y hy) hp
    refine ⟨g1, fun hne => ?_⟩
    obtain ⟨p, z, e1, e2, e3⟩ := g2 hne
    exact ⟨p, z.1, e1, hst' p z e2, e3⟩
  have htop : ∀ (i : Nat) (m : Module), (topAll (st.map (·.1)))[i]? = some m →
      ∃ m0, (st.map (·.1))[i]? = some m0 ∧ m = { m0 with top := rootOf (st.map (·.1)) i } := by
    intro i m hm
    rw [topAll_get] at hm
    cases hx : (st.map (·.1))[i]? with
    | none => rw [hx] at hm; cases hm
    | some m0 => rw [hx] at hm; exact ⟨m0, rfl, (Option.some.inj hm).symm⟩
  have htop' : ∀ (i : Nat) (m0 : Module), (st.map (·.1))[i]? = some m0 →
      (topAll (st.map (·.1)))[i]? = some { m0 with top := rootOf (st.map (·.1)) i } := by
    intro i m0 h
    rw [topAll_get, h]
    rfl
  refine ⟨topAll (st.map (·.1)), by simp [passes, h1], ⟨?_, ?_, ?_, ?_⟩, ?_⟩
  · intro i m hm
    obtain ⟨m0, h0, rfl⟩ := htop i m hm
    obtain ⟨y, hy, rfl⟩ := hst i m0 h0
    exact h2.path i y hy
  · intro i j m n hm hn hmn
    obtain ⟨m0, h0, rfl⟩ := htop i m hm
    obtain ⟨y, hy, rfl⟩ := hst i m0 h0
    obtain ⟨n0, h0', rfl⟩ := htop j n hn
    obtain ⟨z, hz, rfl⟩ := hst j n0 h0'
    exact h2.unique i j y z hy hz hmn
  · intro i m segs x hm hp
    obtain ⟨m0, h0, rfl⟩ := htop i m hm
    obtain ⟨g1, g2⟩ := hparent i m0 segs x h0 hp
    refine ⟨g1, fun hne => ?_⟩
    obtain ⟨p, pm, e1, e2, e3⟩ := g2 hne
    exact ⟨p, _, e1, htop' p pm e2, e3⟩
  · intro i m x segs hm hp
    obtain ⟨m0, h0, rfl⟩ := htop i m hm
    obtain ⟨t, tm, e1, e2, e3⟩ := rootOf_ok hparent _ i m0 x segs rfl h0 hp
    exact ⟨t, _, e1, htop' t tm e2, e3⟩
  · intro i m hm
    have h0 : (ms.map (fun m => (m, false)))[i]? = some (m, false) := by rw [List.getElem?_map, hm]; rfl
    obtain ⟨y, hy, e1, e2, e3, _⟩ := h3.old i _ h0
    exact ⟨_, htop' i y.1 (hst' i y hy), e1, e2, e3⟩

end C3.NameRes
