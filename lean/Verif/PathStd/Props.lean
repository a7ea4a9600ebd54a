import Verif.PathStd.LemmasNormal

/-! # C93–C95: paths -/

set_option autoImplicit false

namespace C3.PathStd

/-! ## C93: `normalize` -/

/-- `normalize` reads the names of a path one after the other: empty ones and `.` go, `..` takes the
last one away unless it has two bytes and begins with a dot.  It never indexes out of bounds, and
refuses a path with a zero byte or one that leaves the root. -/
theorem C93_as_built (s : List Nat) : normalize s = orInvalid (normalBy dotLike s) := normalize_eq s

-- "/a/./b//../c" becomes "/a/c"
example : normalize [47, 97, 47, 46, 47, 98, 47, 47, 46, 46, 47, 99] = .ok [47, 97, 47, 99] := by
  rw [C93_as_built, orInvalid_ok]; decide

/-- A path is brought to its normal form. -/
def C93_full : Prop := ∀ s, normalize s = orInvalid (normal s)

/-- ".a/.." stays as it is, though it is "." -/
theorem C93_hidden_stays : normalize [46, 97, 47, 46, 46] = .ok [46, 97, 47, 46, 46] ∧
    normal [46, 97, 47, 46, 46] = some [46] := by
  rw [C93_as_built, orInvalid_ok]; decide

/-- "/.a/../.." leaves the root and is not refused. -/
theorem C93_above_root : normalize [47, 46, 97, 47, 46, 46, 47, 46, 46] =
      .ok [47, 46, 97, 47, 46, 46, 47, 46, 46] ∧
    normal [47, 46, 97, 47, 46, 46, 47, 46, 46] = none := by
  rw [C93_as_built, orInvalid_ok]; decide

theorem C93_fails : ¬ C93_full := by
  intro h
  have := h [46, 97, 47, 46, 46]
  rw [C93_hidden_stays.1, C93_hidden_stays.2] at this
  exact absurd this (by simp [orInvalid])

/-- It is, if no name is a dot and one more byte.  (Missing: names such as `.a`.) -/
theorem C93_normal_partial (s : List Nat) (h : ∀ x ∈ split s, ∀ c, x = [46, c] → c = 46) :
    normalize s = orInvalid (normal s) := by
  rw [C93_as_built, normal, normalBy, normalBy,
    enterAll_congr (isAbsolute s) (split s) [] (by simp) h]

-- "../a/..": names "..", "a", ".."
example : (∀ x ∈ split [46, 46, 47, 97, 47, 46, 46], ∀ c, x = [46, c] → c = 46) ∧
    normal [46, 46, 47, 97, 47, 46, 46] = some [46, 46] := by
  refine ⟨?_, by decide⟩
  rw [show split [46, 46, 47, 97, 47, 46, 46] = [[46, 46], [97], [46, 46]] by decide]
  intro x hx c hc
  subst hc
  simpa using hx

/-! ## C94: normal forms -/

/-- A normal form is its own normal form. -/
theorem C94_idempotent (s t : List Nat) (h : normalize s = .ok t) : normalize t = .ok t := by
  rw [C93_as_built, orInvalid_ok] at h ⊢
  exact normalBy_idem dotLike s t h

example : normalize [46, 97, 47, 47, 98] = .ok [46, 97, 47, 98] := by rw [C93_as_built, orInvalid_ok]; decide

/-- A normal form is `/`, `.`, or names with one separator between them and none at the end; no name
is empty or `.`.  It is absolute when the path was. -/
theorem C94_shape (s t : List Nat) (hs : s ≠ []) (h : normalize s = .ok t) :
    isAbsolute t = isAbsolute s ∧
      ∃ st, t = render (isAbsolute s) st ∧ ∀ x ∈ st, x ≠ [] ∧ x ≠ [46] ∧ 47 ∉ x ∧ 0 ∉ x := by
  rw [C93_as_built, orInvalid_ok] at h
  obtain ⟨st, _, rfl, _, h3⟩ := normalBy_some dotLike s t hs h
  exact ⟨isAbsolute_render _ _ (fun x hx => (h3 x hx).1), st, rfl,
    fun x hx => ⟨(h3 x hx).1.1, (h3 x hx).2, (h3 x hx).1.2⟩⟩

theorem stable_dots (root : Bool) (st : List (List Nat)) (h : Stable (fun x => x == [46, 46]) root st) :
    ∃ k st0, st = List.replicate k [46, 46] ++ st0 ∧ [46, 46] ∉ st0 ∧ (root = true → k = 0) := by
  induction h with
  | nil => exact ⟨0, [], by simp⟩
  | @snoc st x _ he ih =>
    obtain ⟨k, st0, rfl, h2, h3⟩ := ih
    by_cases hx : x = [46, 46]
    · subst hx
      rw [enter, if_neg (by simp), if_neg (by simp), if_pos rfl] at he
      cases hl : (List.replicate k [46, 46] ++ st0).getLast? with
      | none =>
        simp only [List.getLast?_eq_none_iff, List.append_eq_nil_iff] at hl
        obtain ⟨hk, rfl⟩ := hl
        have : k = 0 := by simpa using hk
        subst this
        cases root with
        | true => simp at he
        | false => exact ⟨1, [], by simp⟩
      | some y =>
        rw [hl] at he
        by_cases hy : y = [46, 46]
        · subst hy
          rcases List.eq_nil_or_concat st0 with rfl | ⟨st1, z, rfl⟩
          · refine ⟨k + 1, [], ?_, by simp, ?_⟩
            · simp [List.replicate_succ']
            · intro hr
              have := h3 hr
              subst this
              simp at hl
          · rw [List.concat_eq_append, ← List.append_assoc, getLast_of] at hl
            cases hl
            exact absurd (by simp) h2
        · have hb : (y == [46, 46]) = false := by simpa using hy
          simp only [hb, Bool.false_eq_true, if_false, Option.some.injEq] at he
          have := congrArg List.length he
          simp at this
          omega
    · exact ⟨k, st0 ++ [x], by simp, by simpa [h2] using fun e => hx (Eq.symm e), h3⟩

/-- Then `..` is at its beginning only, and nowhere if it is absolute.  (Missing: names such as
`.a`.) -/
theorem C94_dots_partial (s t : List Nat) (hs : s ≠ []) (hh : ∀ x ∈ split s, ∀ c, x = [46, c] → c = 46)
    (h : normalize s = .ok t) :
    ∃ k st, t = render (isAbsolute s) (List.replicate k [46, 46] ++ st) ∧ [46, 46] ∉ st ∧
      (isAbsolute s = true → k = 0) := by
  rw [C93_normal_partial s hh, orInvalid_ok, normal] at h
  obtain ⟨st, _, rfl, h2, _⟩ := normalBy_some _ s t hs h
  obtain ⟨k, st0, rfl, h4, h5⟩ := stable_dots _ _ h2
  exact ⟨k, st0, rfl, h4, h5⟩

-- "a/../../b"
example : normalize [97, 47, 46, 46, 47, 46, 46, 47, 98] = .ok [46, 46, 47, 98] := by
  rw [C93_as_built, orInvalid_ok]; decide

/-- Appending to a path gives what normalizing both together gives. -/
def C94_append_full : Prop := ∀ a p b, a ≠ [] → normalize a = .ok p →
  append p b = normalize (a ++ 47 :: b)

/-- Nothing can be appended to the root. -/
theorem C94_append_root (b : List Nat) : append [47] b = .error .panic := by
  simp [append, rd, isSep, bind, Except.bind]

theorem C94_append_fails : ¬ C94_append_full := by
  intro h
  have := h [47] [47] [97] (by simp) (by rw [C93_as_built, orInvalid_ok]; decide)
  rw [C94_append_root, C93_as_built,
    show normalBy dotLike ([47] ++ 47 :: [97]) = some [47, 97] by decide] at this
  simp [orInvalid] at this

theorem split_append_sep (a b : List Nat) : split (a ++ 47 :: b) = split a ++ split b := by
  induction a with
  | nil => simp [split]
  | cons c a ih =>
    by_cases hc : c = 47
    · subst hc
      rw [List.cons_append, split, if_pos rfl, ih, split, if_pos rfl]; rfl
    · rw [List.cons_append, split_cons_ne _ _ hc, split_cons_ne _ _ hc]
      have : ∀ (l : List (List Nat)) (h : l ≠ []), (c :: (l ++ split b).head (by simp [h])) ::
          (l ++ split b).tail = (c :: l.head h) :: l.tail ++ split b := by
        intro l h
        cases l with
        | nil => exact absurd rfl h
        | cons x xs => simp
      rw [← this (split a) (split_ne a)]
      simp only [ih]

/-- So it does for every path but the root.  (Missing: the root.) -/
theorem C94_append_partial (a p b : List Nat) (ha : a ≠ []) (h : normalize a = .ok p) (hp : p ≠ [47]) :
    append p b = normalize (a ++ 47 :: b) := by
  rw [C93_as_built, orInvalid_ok] at h
  obtain ⟨st, h1, rfl, h2, h3⟩ := normalBy_some dotLike a p ha h
  have hn : ∀ x ∈ st, Name x := fun x hx => (h3 x hx).1
  have hne := render_ne (isAbsolute a) st hn
  have habs : ∀ c : List Nat, isAbsolute (a ++ c) = isAbsolute a := by
    intro c; cases a with
    | nil => exact absurd rfl ha
    | cons d a => rfl
  have habs2 : ∀ c : List Nat, isAbsolute (render (isAbsolute a) st ++ c) = isAbsolute a := by
    intro c
    have := isAbsolute_render (isAbsolute a) st hn
    cases hr : render (isAbsolute a) st with
    | nil => exact absurd hr hne
    | cons d r => rw [hr] at this; exact this
  have hlast : ∃ q d, render (isAbsolute a) st = q ++ [d] ∧ d ≠ 47 := by
    rcases List.eq_nil_or_concat st with rfl | ⟨st0, x, rfl⟩
    · cases hr : isAbsolute a with
      | true => rw [hr] at hp; simp [render, join] at hp
      | false => exact ⟨[], 46, by simp [render], by simp⟩
    · rw [List.concat_eq_append] at hn ⊢
      have hx := hn x (by simp)
      rcases List.eq_nil_or_concat x with rfl | ⟨y, d, rfl⟩
      · exact absurd rfl hx.1
      · rw [List.concat_eq_append] at hx ⊢
        refine ⟨(if isAbsolute a then [47] else []) ++ flat st0 ++ y, d, ?_, ?_⟩
        · rw [render_snoc]; simp
        · rintro rfl; exact hx.2.1 (by simp)
  obtain ⟨q, d, hq, hd⟩ := hlast
  have hlen : (render (isAbsolute a) st).length ≠ 0 := fun e => hne (List.length_eq_zero_iff.1 e)
  have hrd : rd (render (isAbsolute a) st) ((render (isAbsolute a) st).length - 1) = .ok d := by
    rw [hq]; simp [rd]
  have hda : isSep d = false := by simpa [isSep] using hd
  rw [append, if_neg (by simpa using hlen), hrd]
  simp only [bind, Except.bind, hda, Bool.false_eq_true, if_false]
  rw [C93_as_built, C93_as_built]
  have e1 : render (isAbsolute a) st ++ [47] ++ b = render (isAbsolute a) st ++ 47 :: b := by simp
  rw [e1, normalBy, normalBy, if_neg (by simp), if_neg (by simp), habs, habs2, split_append_sep,
    split_append_sep, enterAll_append, enterAll_append, enterAll_render _ _ _ hn h2, h1]

-- "a/b" and "../c" give "a/c"
example : normalize [97, 47, 98] = .ok [97, 47, 98] ∧
    append [97, 47, 98] [46, 46, 47, 99] = .ok [97, 47, 99] := by
  have h : normalize [97, 47, 98] = .ok [97, 47, 98] := by rw [C93_as_built, orInvalid_ok]; decide
  refine ⟨h, ?_⟩
  rw [C94_append_partial _ _ _ (by decide) h (by decide), C93_as_built, orInvalid_ok]
  decide

/-! ## C95: the parts of a path -/

theorem startOfBase_eq (pre x : List Nat) (hp : pre = [] ∨ ∃ p, pre = p ++ [47]) (hx : 47 ∉ x) :
    startOfBase (pre ++ x) = pre.length := by
  rw [startOfBase]
  rcases hp with rfl | ⟨p, rfl⟩
  · rw [(rindex_none 47 _ _).2 (by simpa using hx)]; rfl
  · have := rindex_at 47 p x hx
    rw [show p ++ [47] ++ x = p ++ 47 :: x by simp, this]; simp

theorem pre_sep (root : Bool) (st : List (List Nat)) :
    ((if root then [47] else []) ++ flat st : List Nat) = [] ∨
      ∃ p, (if root then [47] else []) ++ flat st = p ++ [47] := by
  by_cases h : ((if root then [47] else []) ++ flat st : List Nat) = []
  · exact Or.inl h
  · exact Or.inr (ends_sep _ st (by cases root <;> simp) h)

/-- The last name of a normal path is its `basename`, and the path of the names before it its
`dirname`: `/` or `.` if there are none. -/
theorem C95_base_and_dir (root : Bool) (st : List (List Nat)) (x : List Nat) (hx : 47 ∉ x)
    (hst : ∀ y ∈ st, y ≠ []) :
    basename (render root (st ++ [x])) = x ∧ dirname (render root (st ++ [x])) = render root st := by
  have hb := startOfBase_eq ((if root then [47] else []) ++ flat st) x (pre_sep root st) hx
  constructor
  · rw [basename, render_snoc, hb, List.drop_left]
  · rw [render_snoc, dirname]
    simp only [hb]
    rcases List.eq_nil_or_concat st with rfl | ⟨st0, y, rfl⟩
    · cases root <;> simp [flat, render, join]
    · rw [List.concat_eq_append]
      have e : ((if root then [47] else []) ++ flat (st0 ++ [y]) : List Nat) =
          render root (st0 ++ [y]) ++ [47] := by
        rw [render_snoc, flat_append]; simp
      rw [e]
      have hl : (render root (st0 ++ [y])).length ≠ 0 := by
        intro e
        have h1 := List.length_eq_zero_iff.1 e
        rw [render_snoc, List.append_eq_nil_iff] at h1
        exact hst y (by simp) h1.2
      have h2 : (render root (st0 ++ [y]) ++ [47]).length = (render root (st0 ++ [y])).length + 1 := by
        simp
      rw [h2, if_neg (by simp), if_neg (by omega)]
      simp

-- "/usr/lib": names "usr", "lib"
example : basename [47, 117, 115, 114, 47, 108, 105, 98] = [108, 105, 98] ∧
    dirname [47, 117, 115, 114, 47, 108, 105, 98] = [47, 117, 115, 114] :=
  C95_base_and_dir true [[117, 115, 114]] [108, 105, 98] (by decide) (by decide)

/-- The parent of a normal path is the path of the names before the last one, if it is absolute or
there are such names. -/
def C95_parent_full : Prop := ∀ root st x, 47 ∉ x → (∀ y ∈ st, y ≠ []) → root = true ∨ st ≠ [] →
  parent (render root (st ++ [x])) = .ok (render root st)

/-- The parent of `/a` is the empty path. -/
theorem C95_parent_below_root (x : List Nat) (hx : 47 ∉ x) (hne : x ≠ []) :
    parent (render true [x]) = .ok [] := by
  have h := rindex_at 47 [] x hx
  have hr : render true [x] = 47 :: x := by simp [render, join]
  rw [List.nil_append] at h
  have hl : (47 :: x).length ≠ 1 := by simpa using hne
  rw [hr, parent, h, if_neg (by simpa using hne)]
  rfl

theorem C95_parent_fails : ¬ C95_parent_full := by
  intro h
  have h1 := h true [] [97] (by decide) (by simp) (Or.inl rfl)
  have h2 := C95_parent_below_root [97] (by decide) (by decide)
  rw [List.nil_append, h2] at h1
  simp [render] at h1

/-- So it is if there are names before the last one.  (Missing: those right below the root.) -/
theorem C95_parent_partial (root : Bool) (st : List (List Nat)) (x : List Nat) (hx : 47 ∉ x)
    (hst : ∀ y ∈ st, y ≠ []) (hne : st ≠ []) :
    parent (render root (st ++ [x])) = .ok (render root st) := by
  rcases List.eq_nil_or_concat st with rfl | ⟨st0, y, rfl⟩
  · exact absurd rfl hne
  · rw [List.concat_eq_append] at hst ⊢
    rw [render_snoc2, parent]
    have hl : (render root (st0 ++ [y])).length ≠ 0 := by
      intro e
      have h1 := List.length_eq_zero_iff.1 e
      rw [render_snoc, List.append_eq_nil_iff] at h1
      exact hst y (by simp) h1.2
    have h1 : ¬ ((render root (st0 ++ [y]) ++ 47 :: x).length == 1 &&
        (render root (st0 ++ [y]) ++ 47 :: x).head? == some 47) = true := by
      simp only [List.length_append, List.length_cons, Bool.and_eq_true, beq_iff_eq]
      omega
    rw [if_neg h1, rindex_at 47 _ x hx]
    simp

example : parent [97, 47, 98] = .ok [97] :=
  C95_parent_partial false [[97]] [98] (by decide) (by decide) (by decide)

/-- A path has an extension exactly when that is its `extension`. -/
def C95_extension_full : Prop := ∀ s e, e ≠ [] → 46 ∉ e → (hasExtension s e = true ↔ extension s = .ok e)

theorem hasExtension_iff (s e : List Nat) :
    hasExtension s e = true ↔ ∃ a, basename s = a ++ 46 :: e := by
  rw [hasExtension]
  generalize basename s = b
  constructor
  · intro h
    by_cases h1 : b.length ≤ e.length
    · simp [h1] at h
    rw [if_neg h1] at h
    by_cases h2 : b[b.length - (e.length + 1)]? = some 46
    · rw [if_neg (by simpa using h2)] at h
      have h3 : b.drop (b.length - e.length) = e := by simpa using h
      refine ⟨b.take (b.length - (e.length + 1)), ?_⟩
      have h4 : b.drop (b.length - (e.length + 1)) = 46 :: e := by
        obtain ⟨hlt, hg⟩ := List.getElem?_eq_some_iff.1 h2
        rw [List.drop_eq_getElem_cons hlt, hg,
          show b.length - (e.length + 1) + 1 = b.length - e.length by omega, h3]
      rw [← h4, List.take_append_drop]
    · rw [if_pos (by simpa using h2)] at h
      simp at h
  · rintro ⟨a, rfl⟩
    have hl : (a ++ 46 :: e).length = a.length + e.length + 1 := by simp; omega
    rw [if_neg (by omega), hl, show a.length + e.length + 1 - (e.length + 1) = a.length by omega,
      show a.length + e.length + 1 - e.length = a.length + 1 by omega]
    have : (a ++ 46 :: e).drop (a.length + 1) = e := by
      rw [show a ++ 46 :: e = (a ++ [46]) ++ e by simp, List.drop_left' (by simp)]
    simp [this]

theorem C95_extension_fails : ¬ C95_extension_full := by
  intro h
  -- ".foo"
  have h1 := (h [46, 102, 111, 111] [102, 111, 111] (by decide) (by decide)).1 (by decide)
  have h2 : extension [46, 102, 111, 111] = .ok [] := rfl
  rw [h2] at h1
  simp at h1

/-- It does, if the name is more than a dot and that extension.  (Missing: names such as `.foo`, that
`extension` says have none.) -/
theorem C95_extension_partial (s e : List Nat) (he : e ≠ []) (hd : 46 ∉ e) (hb : basename s ≠ 46 :: e) :
    hasExtension s e = true ↔ extension s = .ok e := by
  rw [hasExtension_iff, extension]
  generalize hbs : basename s = b at hb
  constructor
  · rintro ⟨a, rfl⟩
    have ha : a ≠ [] := by rintro rfl; exact hb rfl
    have hl : a.length ≠ 0 := fun e => ha (List.length_eq_zero_iff.1 e)
    rw [rindex_at 46 a e hd]
    simp [hl]
  · intro h
    rcases rindex_spec 46 b with ⟨h1, _⟩ | ⟨p, q, rfl, _, h1⟩
    · rw [h1] at h; simp at h
    · rw [h1] at h
      by_cases hp : p.length = 0
      · simp [hp] at h
        exact absurd h he
      · simp [hp] at h
        subst h
        exact ⟨p, rfl⟩

-- "a/b.tar.gz" has the extension "gz"
example : extension [97, 47, 98, 46, 116, 97, 114, 46, 103, 122] = .ok [103, 122] :=
  (C95_extension_partial _ _ (by decide) (by decide) (by decide)).1 (by decide)

/-- A name without a dot makes `extension` fail. -/
theorem C95_no_extension (s : List Nat) : extension s = .error .notFound ↔ 46 ∉ basename s := by
  rw [extension]
  generalize basename s = b
  rcases rindex_spec 46 b with ⟨h1, h2⟩ | ⟨p, q, rfl, _, h1⟩
  · rw [h1]; simp [h2]
  · rw [h1]
    dsimp only
    split <;> simp

end C3.PathStd
