import Verif.CallArgs.LemmasForm

/-! # Properties of the matching of arguments -/

set_option autoImplicit false

namespace C3.CallArgs
open Spec

variable {V : Type}

/-! ## C175: which calls are accepted, and what they mean -/

/-- **C175.** A call with positional arguments, named arguments and a slice for the varargs is accepted exactly if it is right, and
then every parameter has the argument it is to have. -/
theorem C175_right (sig : Sig) (hw : WF sig) (P : List V) (N : List (Nat × V)) (S : Option (V × Option (List V)))
    (M : List (Nat × V)) (hS : S ≠ none → sig.variadic = .typed ∧ P.length + N.length = sig.vaargIndex) (r : Call V) :
    matchArgs sig (written P N S M) = .ok r ↔
      ∃ ks, Right sig P ((N ++ M).map Prod.fst) ks ∧ r = meaning sig P ks ((N ++ M).map Prod.snd) (S.map Prod.fst) :=
  right_iff sig hw P N S M hS r

/-- **C175.** Positional arguments do not come behind named ones, whatever else there is. -/
theorem C175_order (sig : Sig) (a b c : List (Arg V)) (n : Nat) (v w : V) (r : Call V) :
    matchArgs sig (a ++ .named n v :: (b ++ .pos w :: c)) ≠ .ok r := by
  obtain ⟨e, he⟩ := loop_after_named sig a b c n v w 0 {}
  unfold matchArgs
  rw [he]
  exact fun h => by cases h

/-- `fn void f(int a, int b = .., int... rest, int x = .., int y)`; the names are numbers. -/
def f : Sig := ⟨[some ⟨some 0, false, false⟩, some ⟨some 1, true, false⟩, some ⟨some 2, false, true⟩,
  some ⟨some 3, true, false⟩, some ⟨some 4, false, false⟩], .typed, 2⟩

theorem f_wf : WF f := by
  refine ⟨fun h => absurd h (by decide), fun _ => (by decide : 2 < 5), fun h => absurd h (by decide), ?_, ?_⟩
  · intro k p h
    match k with
    | 0 | 1 | 2 | 3 | 4 => cases h; decide
    | k + 5 => simp [f] at h
  · intro j k p q n h1 h2 h3 h4
    have key : ∀ (m : Nat) (p : Param), f.params[m]? = some (some p) → p.name = some m := by
      intro m p h
      match m with
      | 0 | 1 | 2 | 3 | 4 => cases h; rfl
      | m + 5 => simp [f] at h
    have e1 := key j p h1
    have e2 := key k q h2
    rw [h3] at e1
    rw [h4] at e2
    cases e1
    cases e2
    rfl

/-- `f(10, 11, 12, 13, y: 14)`, `f(10, b: 11, y: 14)`, `f(10, 11, ...s, y: 14)`, `f(b: 11, a: 10, y: 14)`, `f(10, 11)`. -/
example : matchArgs f (written [10, 11, 12, 13] [(4, 14)] none []) =
      .ok ⟨[some (.given 10), some (.given 11), none, some .default, some (.given 14)], [12, 13], none⟩ ∧
    matchArgs f (written [10] [(1, 11), (4, 14)] none []) =
      .ok ⟨[some (.given 10), some (.given 11), none, some .default, some (.given 14)], [], none⟩ ∧
    matchArgs f (written [10, 11] [] (some (20, none)) [(4, 14)]) =
      .ok ⟨[some (.given 10), some (.given 11), none, some .default, some (.given 14)], [], some 20⟩ ∧
    matchArgs f (written [] [(1, 11), (0, 10), (4, 14)] none []) = .error .order ∧
    matchArgs f (written [10, 11] [] none []) = .error .missing := by decide +kernel

/-! ## C176: splats -/

/-- **C176.** The full statement: a splat means what its elements mean, if it is not passed as the slice of the varargs. -/
def C176_full (V : Type) : Prop := ∀ (sig : Sig) (a b : List (Arg V)) (v : V) (es : List V) (fits : Bool),
  fits = false ∨ sig.variadic ≠ .typed ∨ lastOrNamed b = false →
  matchArgs sig (a ++ .splat v (some es) fits :: b) = matchArgs sig (a ++ (es.map .pos ++ b))

/-- **C176.** It does if it has elements. Missing: splats without elements. -/
theorem C176_elements_partial (sig : Sig) (a b : List (Arg V)) (v : V) (es : List V) (fits : Bool) (hes : es ≠ [])
    (h : fits = false ∨ sig.variadic ≠ .typed ∨ lastOrNamed b = false) :
    matchArgs sig (a ++ .splat v (some es) fits :: b) = matchArgs sig (a ++ (es.map .pos ++ b)) := by
  have hl : lastOrNamed (.splat v (some es) fits :: b) = lastOrNamed (es.map .pos ++ b) := by
    cases es with
    | nil => exact absurd rfl hes
    | cons u us => rfl
  unfold matchArgs
  rw [loop_front sig a _ _ hl]
  intro i st
  rw [loop_pos, loop_splat, if_neg]
  · cases es with
    | nil => exact absurd rfl hes
    | cons u us => rfl
  · rintro ⟨h1, _, h3, h4⟩
    rcases h with h | h | h
    · rw [h] at h4; cases h4
    · exact h h1
    · rw [h] at h3; cases h3

/-- **C176.** `$vasplat` means what the arguments it stands for mean; it may be empty, unless a splat comes right before it. -/
theorem C176_vasplat (sig : Sig) (a b : List (Arg V)) (es : List V)
    (h : es ≠ [] ∨ ∀ a' v es' fits, a ≠ a' ++ [.splat v es' fits]) :
    matchArgs sig (a ++ .vasplat es :: b) = matchArgs sig (a ++ (es.map .pos ++ b)) := by
  have eq : ∀ (i : Nat) (st : St V), loop sig i st (.vasplat es :: b) = loop sig i st (es.map .pos ++ b) := by
    intro i st
    rw [loop_pos]; exact loop_vasplat sig i st es b
  unfold matchArgs
  rcases h with h | h
  · rw [loop_front sig a _ _ ?_ eq]
    cases es with
    | nil => exact absurd rfl h
    | cons u us => rfl
  · rcases List.eq_nil_or_concat a with rfl | ⟨a', x, rfl⟩
    · rw [List.nil_append, List.nil_append, eq]
    · rw [List.concat_eq_append] at h ⊢
      rw [List.append_assoc, List.append_assoc]
      have step : ∀ (i : Nat) (st : St V), loop sig i st ([x] ++ .vasplat es :: b) =
          loop sig i st ([x] ++ (es.map .pos ++ b)) := by
        intro i st
        rw [List.singleton_append, List.singleton_append]
        cases x with
        | pos w =>
          rw [loop, loop]
          cases posStep sig i st w with
          | error e => rfl
          | ok st' => exact eq _ _
        | named n w =>
          rw [loop, loop]
          cases namedStep sig i st n w with
          | error e => rfl
          | ok st' => exact eq _ _
        | splat w es' fits => exact absurd rfl (h a' w es' fits)
        | vasplat fs =>
          rw [loop_vasplat, loop_vasplat]
          cases posSteps sig i st fs with
          | error e => rfl
          | ok st' => exact eq _ _
      have hl : lastOrNamed ([x] ++ .vasplat es :: b) = lastOrNamed ([x] ++ (es.map .pos ++ b)) := by
        cases x <;> rfl
      rw [loop_front sig a' _ _ hl step 0 {}]

/-- **C176.** The condition is needed: an empty `$vasplat` behind the slice for the varargs keeps it from being passed as one. -/
theorem C176_vasplat_fails : matchArgs f [.pos 10, .pos 11, .splat 20 none true, .vasplat [], .named 4 14] =
      .error .unknownLength ∧
    matchArgs f [.pos 10, .pos 11, .splat 20 none true, .named 4 14] =
      .ok ⟨[some (.given 10), some (.given 11), none, some .default, some (.given 14)], [], some 20⟩ := by
  decide +kernel

/-- **C176.** A splat without elements is always refused, if it is not passed as the slice of the varargs. -/
theorem C176_empty (sig : Sig) (a b : List (Arg V)) (v : V) (fits : Bool)
    (h : fits = false ∨ sig.variadic ≠ .typed ∨ lastOrNamed b = false) (r : Call V) :
    matchArgs sig (a ++ .splat v (some []) fits :: b) ≠ .ok r := by
  obtain ⟨e, he⟩ := loop_empty sig a b v fits h 0 {}
  unfold matchArgs
  rw [he]
  exact fun h => by cases h

/-- **C176.** The statement is false. -/
theorem C176_fails : ¬ C176_full Nat := by
  intro h
  have := h ⟨[], .none, 0⟩ [] [] 0 [] false (.inl rfl)
  exact absurd this (by decide)

example : matchArgs f [.splat 20 (some [10, 11, 12]) false, .named 4 14] =
      .ok ⟨[some (.given 10), some (.given 11), none, some .default, some (.given 14)], [12], none⟩ ∧
    matchArgs f [.pos 10, .pos 11, .splat 20 (some [12]) true, .pos 13, .named 4 14] =
      .ok ⟨[some (.given 10), some (.given 11), none, some .default, some (.given 14)], [12, 13], none⟩ ∧
    matchArgs f [.pos 10, .splat 20 (some []) false, .named 4 14] = .error .zeroLength ∧
    matchArgs f [.pos 10, .vasplat [], .named 4 14] =
      .ok ⟨[some (.given 10), some .default, none, some .default, some (.given 14)], [], none⟩ := by decide +kernel

/-! ## C177: names may be given or left out -/

/-- **C177.** To give the last positional arguments with the names of their parameters does not change a call. -/
theorem C177_names (sig : Sig) (hw : WF sig) (P Q : List V) (ns : List Nat) (N : List (Nat × V))
    (hlen : P.length + Q.length ≤ sig.vaargIndex) (hns : ns.length = Q.length)
    (hnamed : ∀ i n, ns[i]? = some n → Named sig n (P.length + i)) (r : Call V) :
    matchArgs sig (written P (ns.zip Q ++ N) none []) = .ok r ↔ matchArgs sig (written (P ++ Q) N none []) = .ok r := by
  rw [C175_right sig hw P _ none [] (fun h => absurd rfl h), C175_right sig hw (P ++ Q) _ none [] (fun h => absurd rfl h)]
  simp only [List.append_nil, List.map_append]
  have e1 : (ns.zip Q).map Prod.fst = ns := List.map_fst_zip (by omega)
  have e2 : (ns.zip Q).map Prod.snd = Q := List.map_snd_zip (by omega)
  rw [e1, e2]
  have hrange : List.Forall₂ (Named sig) ns (List.range' P.length Q.length) := by
    refine List.forall₂_iff_get.2 ⟨by simp [hns], fun i h1 h2 => ?_⟩
    have := hnamed i ns[i] (List.getElem?_eq_getElem h1)
    simpa using this
  -- the values given are the same
  have hgiven : ∀ (ks : List Nat), (∀ k ∈ ks, P.length + Q.length ≤ k ∨ sig.vaargIndex ≤ k) → ∀ k,
      given sig P (List.range' P.length Q.length ++ ks) (Q ++ N.map Prod.snd) k = given sig (P ++ Q) ks (N.map Prod.snd) k := by
    intro ks _ k
    have hz := List.lookup_append (k := k) (l₁ := (List.range' P.length Q.length).zip Q) (l₂ := ks.zip (N.map Prod.snd))
    unfold given
    rw [List.zip_append (by simp), hz]
    have hlook : ∀ (Q : List V) (m : Nat), ((List.range' m Q.length).zip Q).lookup k = if m ≤ k then Q[k - m]? else none := by
      intro Q
      induction Q with
      | nil => intro m; simp
      | cons q Q ih =>
        intro m
        rw [List.length_cons, List.range'_succ, List.zip_cons_cons, List.lookup_cons]
        by_cases hk : k = m
        · subst hk; simp
        · have : (k == m) = false := by simpa using hk
          rw [this]
          simp only
          rw [ih (m + 1)]
          by_cases hm : m ≤ k
          · rw [if_pos hm, if_pos (by omega), show k - m = (k - (m + 1)) + 1 by omega, List.getElem?_cons_succ]
          · rw [if_neg hm, if_neg (by omega)]
    rw [hlook]
    by_cases h1 : k < P.length
    · rw [if_pos ⟨h1, by omega⟩, if_pos ⟨by simp; omega, by omega⟩, List.getElem?_append_left h1]
    · rw [if_neg (fun x => h1 x.1), if_pos (by omega)]
      by_cases h2 : k < P.length + Q.length
      · rw [if_pos ⟨by simpa using h2, by omega⟩, List.getElem?_append_right (by omega),
          List.getElem?_eq_getElem (by omega)]
        rfl
      · rw [if_neg (fun x => h2 (by simpa using x.1)), List.getElem?_eq_none (by omega)]
        rfl
  have hmean : ∀ ks, (∀ k ∈ ks, P.length + Q.length ≤ k ∨ sig.vaargIndex ≤ k) →
      meaning sig P (List.range' P.length Q.length ++ ks) (Q ++ N.map Prod.snd) none =
        meaning sig (P ++ Q) ks (N.map Prod.snd) none := by
    intro ks hks
    unfold meaning
    rw [funext (hgiven ks hks), List.drop_eq_nil_of_le (by omega), List.drop_eq_nil_of_le (by simp; omega)]
  have hmem : ∀ k, k ∈ List.range' P.length Q.length ↔ P.length ≤ k ∧ k < P.length + Q.length := by
    intro k; rw [List.mem_range'_1]
  constructor
  · rintro ⟨ks0, ⟨h1, h2, h3, h4, h5, h6⟩, rfl⟩
    obtain ⟨ks, hks, rfl⟩ : ∃ ks, List.Forall₂ (Named sig) (N.map Prod.fst) ks ∧
        ks0 = List.range' P.length Q.length ++ ks := by
      refine ⟨ks0.drop ns.length, ?_, ?_⟩
      · have := List.forall₂_drop ns.length h1
        rwa [List.drop_left] at this
      · have := List.forall₂_take ns.length h1
        rw [List.take_left] at this
        rw [← Named.uniques hw this hrange, List.take_append_drop]
    obtain ⟨p1, p2, p3⟩ := List.pairwise_append.1 h2
    rw [List.mem_append, not_or] at h3
    have hbig : ∀ k ∈ ks, P.length + Q.length ≤ k ∨ sig.vaargIndex ≤ k := by
      intro k hk
      by_cases hQ : Q.length = 0
      · have := h4 k (List.mem_append_right _ hk); omega
      · have := p3 (P.length + Q.length - 1) ((hmem _).2 (by omega)) k hk; omega
    refine ⟨ks, ⟨hks, p2, h3.2, ?_, ?_, ?_⟩, hmean ks hbig⟩
    · intro k hk hh
      have := hbig k hk
      rw [List.length_append] at hh
      omega
    · intro hv
      have := hw.fixed hv
      rw [List.length_append]; omega
    · intro k hk hv
      rw [List.length_append]
      rcases h6 k hk hv with h | h | h
      · exact .inl ⟨by omega, h.2⟩
      · rcases List.mem_append.1 h with h | h
        · have := (hmem k).1 h
          exact .inl ⟨by omega, by omega⟩
        · exact .inr (.inl h)
      · exact .inr (.inr h)
  · rintro ⟨ks, ⟨h1, h2, h3, h4, h5, h6⟩, rfl⟩
    rw [List.length_append] at h4 h5 h6
    have hbig : ∀ k ∈ ks, P.length + Q.length ≤ k ∨ sig.vaargIndex ≤ k := by
      intro k hk; have := h4 k hk; omega
    refine ⟨List.range' P.length Q.length ++ ks, ⟨List.rel_append hrange h1, ?_, ?_, ?_, ?_, ?_⟩, (hmean ks hbig).symm⟩
    · refine List.pairwise_append.2 ⟨List.pairwise_lt_range', h2, fun x hx y hy => ?_⟩
      have := (hmem x).1 hx
      have := hbig y hy
      omega
    · rw [List.mem_append, not_or]
      refine ⟨fun h => ?_, h3⟩
      have := (hmem _).1 h
      omega
    · intro k hk hh
      rcases List.mem_append.1 hk with hk | hk
      · have := (hmem k).1 hk; omega
      · have := hbig k hk; omega
    · intro hv; have := h5 hv; omega
    · intro k hk hv
      rcases h6 k hk hv with h | h | h
      · by_cases hp : k < P.length
        · exact .inl ⟨hp, h.2⟩
        · exact .inr (.inl (List.mem_append_left _ ((hmem k).2 (by omega))))
      · exact .inr (.inl (List.mem_append_right _ h))
      · exact .inr (.inr h)

example : matchArgs f (written [10] [(1, 11), (4, 14)] none []) = matchArgs f (written [10, 11] [(4, 14)] none []) := by
  decide +kernel

/-! ## C178: a new parameter with a default -/

/-- The signature with one more parameter at its end. -/
def extend (sig : Sig) (p : Param) : Sig := ⟨sig.params ++ [some p], sig.variadic, sig.vaargIndex + 1⟩

/-- **C178.** If a function without varargs gets one more parameter at the end, which has a default, all calls stay right and
mean the same. -/
theorem C178_extend (sig : Sig) (hw : WF sig) (p : Param) (hw' : WF (extend sig p)) (hv : sig.variadic = .none)
    (hp : p.hasDefault = true) (P : List V) (N : List (Nat × V)) (r : Call V)
    (h : matchArgs sig (written P N none []) = .ok r) :
    matchArgs (extend sig p) (written P N none []) = .ok { r with actual := r.actual ++ [some .default] } := by
  obtain ⟨ks, ⟨h1, h2, h3, h4, h5, h6⟩, rfl⟩ := (C175_right sig hw P N none [] (fun h => absurd rfl h) r).1 h
  have hva := hw.fixed hv
  have hroom := h5 hv
  have hlen : (extend sig p).params.length = sig.params.length + 1 := by simp [extend]
  have hold : ∀ k, k < sig.params.length → (extend sig p).params[k]? = sig.params[k]? := by
    intro k hk; simp only [extend]; exact List.getElem?_append_left hk
  have hnew : (extend sig p).params[sig.params.length]? = some (some p) := by simp [extend]
  have hks : ∀ k ∈ ks, k < sig.params.length := by
    intro k hk
    obtain ⟨n, _, hn⟩ : ∃ n ∈ (N ++ []).map Prod.fst, Named sig n k := by
      obtain ⟨i, hi, e⟩ := List.mem_iff_getElem.1 hk
      have hl := h1.length_eq
      have := (List.forall₂_iff_get.1 h1).2 i (by omega) hi
      simp only [List.get_eq_getElem] at this
      exact ⟨_, List.getElem_mem (by rw [hl]; exact hi), by rw [← e]; exact this⟩
    obtain ⟨q, hq, _⟩ := hn
    exact (List.getElem?_eq_some_iff.1 hq).1
  refine (C175_right (extend sig p) hw' P N none [] (fun h => absurd rfl h) _).2 ⟨ks, ⟨?_, h2, ?_, ?_, ?_, ?_⟩, ?_⟩
  · refine h1.imp fun n k hn => ?_
    obtain ⟨q, hq, hq'⟩ := hn
    exact ⟨q, by rw [hold k (List.getElem?_eq_some_iff.1 hq).1]; exact hq, hq'⟩
  · intro hm; have := hks _ hm; simp only [extend] at this; omega
  · intro k hk hh
    exact h4 k hk ⟨hh.1, by omega⟩
  · intro _; rw [hlen]; omega
  · intro k hk hkv
    by_cases hkl : k < sig.params.length
    · rcases h6 k hkl (by omega) with h | h | ⟨q, hq, hq'⟩
      · exact .inl ⟨h.1, by simp only [extend]; omega⟩
      · exact .inr (.inl h)
      · exact .inr (.inr ⟨q, by rw [hold k hkl]; exact hq, hq'⟩)
    · have : k = sig.params.length := by omega
      subst this
      exact .inr (.inr ⟨p, hnew, hp⟩)
  · unfold meaning
    simp only [Call.mk.injEq, Option.map_none, and_true]
    refine ⟨?_, ?_⟩
    · rw [hlen, List.range_succ, List.map_append (l₁ := List.range _)]
      congr 1
      · apply List.map_congr_left
        intro k hk
        rw [List.mem_range] at hk
        have : given (extend sig p) P ks ((N ++ []).map Prod.snd) k = given sig P ks ((N ++ []).map Prod.snd) k := by
          unfold given
          by_cases hc : k < P.length
          · rw [if_pos ⟨hc, by simp only [extend]; omega⟩, if_pos ⟨hc, by omega⟩]
          · rw [if_neg (fun x => hc x.1), if_neg (fun x => hc x.1)]
        rw [this, if_neg (show ¬ k = sig.vaargIndex by omega),
          if_neg (show ¬ k = (extend sig p).vaargIndex by simp only [extend]; omega)]
      · simp only [List.map_cons, List.map_nil, List.cons.injEq, and_true]
        have : given (extend sig p) P ks ((N ++ []).map Prod.snd) sig.params.length = none := by
          unfold given
          rw [if_neg (by omega)]
          have hl := h1.length_eq
          refine none_of ((lookup_isSome ks _ (by simp at hl ⊢; omega) _).not.2 fun hm => ?_)
          exact absurd (hks _ hm) (Nat.lt_irrefl _)
        rw [this, if_neg (by simp only [extend]; omega)]
    · rw [List.drop_eq_nil_of_le (by omega), List.drop_eq_nil_of_le (by simp only [extend]; omega)]

/-- `fn void g(int a, int b)`. -/
def g : Sig := ⟨[some ⟨some 0, false, false⟩, some ⟨some 1, false, false⟩], .none, 2⟩

example : matchArgs g (written [10] [(1, 11)] none []) = .ok ⟨[some (.given 10), some (.given 11)], [], none⟩ ∧
    matchArgs (extend g ⟨some 2, true, false⟩) (written [10] [(1, 11)] none []) =
      .ok ⟨[some (.given 10), some (.given 11), some .default], [], none⟩ := by decide +kernel

end C3.CallArgs
