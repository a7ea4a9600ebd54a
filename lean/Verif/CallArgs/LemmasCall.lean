import Verif.CallArgs.Lemmas

set_option autoImplicit false

namespace C3.CallArgs
open Spec

variable {V : Type}

def withSplat (S : Option (V × Option (List V))) (st : St V) : St V :=
  match S with
  | none => st
  | some (v, _) => { st with splat := some v }

theorem right_iff (sig : Sig) (hw : WF sig) (P : List V) (N : List (Nat × V)) (S : Option (V × Option (List V)))
    (M : List (Nat × V)) (hS : S ≠ none → sig.variadic = .typed ∧ P.length + N.length = sig.vaargIndex) (r : Call V) :
    matchArgs sig (written P N S M) = .ok r ↔
      ∃ ks, Right sig P ((N ++ M).map Prod.fst) ks ∧ r = meaning sig P ks ((N ++ M).map Prod.snd) (S.map Prod.fst) := by
  -- the loop, part by part
  have hwr : written P N S M = P.map .pos ++ (nm N ++
      (slot S ++ nm M)) := by
    unfold written nm
    rw [List.append_assoc, List.append_assoc]
  have hmid : ∀ st : St V, loop sig (P.length + N.length) st
      (slot S ++ nm M) =
      loop sig (P.length + N.length + if S.isSome then 1 else 0)
        (withSplat S st) (nm M) := by
    intro st
    cases S with
    | none => rfl
    | some x =>
      obtain ⟨v, es⟩ := x
      obtain ⟨h1, h2⟩ := hS (by simp)
      exact if_pos ⟨h1, h2, lastOrNamed_nm M, rfl⟩
  have hmidInv : ∀ (i : Nat) (st : St V) B, Inv sig i st B → Inv sig (i + if S.isSome then 1 else 0)
      (withSplat S st) B := by
    intro i st B h
    cases S with
    | none => exact h
    | some x =>
      refine ⟨h.act, h.dflt, fun e => ?_, h.later⟩
      obtain ⟨m, m1, m2⟩ := h.first e
      exact ⟨m, by simp; omega, m2⟩
  have hmidLast : ∀ st : St V, (withSplat S st).last =
      st.last := by
    intro st; cases S <;> rfl
  have hmidVar : ∀ st : St V, (withSplat S st).varargs =
      st.varargs := by
    intro st; cases S <;> rfl
  have hmidSplat : ∀ st : St V, st.splat = none →
      (withSplat S st).splat = S.map Prod.fst := by
    intro st h; cases S with
    | none => exact h
    | some x => rfl
  have hcut : ∀ (js ks : List Nat), js.length = N.length → bind' (bind' (posVals sig P) js (N.map Prod.snd)) ks
      (M.map Prod.snd) = given sig P (js ++ ks) ((N ++ M).map Prod.snd) := by
    intro js ks hl
    rw [bind'_append _ js _ (by simpa using hl), given_eq, List.map_append]
  -- the values given
  have hsome : ∀ (ks : List Nat), ks.length = (N ++ M).length → ∀ k,
      (given sig P ks ((N ++ M).map Prod.snd) k).isSome = true ↔ (k < P.length ∧ k < sig.vaargIndex) ∨ k ∈ ks := by
    intro ks hl k
    unfold given
    by_cases h : k < P.length ∧ k < sig.vaargIndex
    · rw [if_pos h, List.getElem?_eq_getElem h.1]; simp [h]
    · rw [if_neg h, lookup_isSome ks _ (by simpa using hl) k]; simp [h]
  unfold matchArgs
  rw [hwr, loop_pos, Nat.zero_add]
  constructor
  · intro e
    cases e1 : posSteps sig 0 ({} : St V) P with
    | error x => rw [e1] at e; cases e
    | ok st1 =>
      obtain ⟨hroom, rfl⟩ := (posSteps_iff sig hw P st1).1 e1
      rw [e1] at e
      simp only at e
      rw [loop_named] at e
      cases e2 : loop sig P.length (afterPos sig P) (nm N) with
      | error x => rw [e2] at e; cases e
      | ok st2 =>
        rw [e2] at e
        simp only at e
        rw [hmid] at e
        obtain ⟨js, a1, a2, a3, a4, a5, a6, a7, a8, a9, a10⟩ := namedLoop_ok sig hw N _ _ _ _ (inv_afterPos sig P) e2
        have hI := hmidInv _ _ _ a8
        revert e
        generalize hm3 : withSplat S st2 = st3
        intro e
        rw [hm3] at hI
        have l3 := hmidLast st2; rw [hm3] at l3
        have v3 := hmidVar st2; rw [hm3] at v3
        have s3 := hmidSplat st2 a10; rw [hm3] at s3
        cases e3 : loop sig (P.length + N.length + if S.isSome then 1 else 0) st3 (nm M) with
        | error x => rw [e3] at e; cases e
        | ok st4 =>
          rw [e3] at e
          simp only at e
          obtain ⟨ks, b1, b2, b3, b4, b5, b6, b7, b8, b9, b10⟩ := namedLoop_ok sig hw M _ _ _ _ hI e3
          have ljs : js.length = N.length := by have := a1.length_eq; simpa using this.symm
          have lks : ks.length = M.length := by have := b1.length_eq; simpa using this.symm
          have lall : (js ++ ks).length = (N ++ M).length := by simp [ljs, lks]
          rw [hcut js ks ljs] at b8
          obtain ⟨f1, f2⟩ := (finish_iff sig hw _ st4 _ b8 r).1 e
          refine ⟨js ++ ks, ⟨?_, ?_, ?_, ?_, hroom, ?_⟩, ?_⟩
          · rw [List.map_append]
            exact List.rel_append a1 b1
          · refine List.pairwise_append.2 ⟨a4, b4, fun x hx y hy => ?_⟩
            have := a6 x hx
            have := b5 y hy
            omega
          · rw [List.mem_append, not_or]; exact ⟨a2, b2⟩
          · intro k hk hh
            have hpv : (posVals sig P k).isSome = true := by
              rw [posVals, if_pos hh, List.getElem?_eq_getElem hh.1]; rfl
            rcases List.mem_append.1 hk with hk | hk
            · rw [a3 k hk] at hpv; cases hpv
            · have := b3 k hk
              unfold bind' at this
              cases hp : posVals sig P k with
              | none => rw [hp] at hpv; cases hpv
              | some v => rw [hp] at this; cases this
          · intro k hk hv
            rcases f1 k hk hv with h | h
            · rcases (hsome _ lall k).1 h with h | h
              · exact .inl h
              · exact .inr (.inl h)
            · exact .inr (.inr h)
          · rw [f2, meaning, b9, b10, v3, s3, a9]
            rfl
  · rintro ⟨ks0, ⟨h1, h2, h3, h4, h5, h6⟩, rfl⟩
    rw [List.map_append] at h1
    obtain ⟨js, ks, hjs, hks, rfl⟩ : ∃ js ks, List.Forall₂ (Named sig) (N.map Prod.fst) js ∧
        List.Forall₂ (Named sig) (M.map Prod.fst) ks ∧ ks0 = js ++ ks := by
      refine ⟨ks0.take (N.map Prod.fst).length, ks0.drop (N.map Prod.fst).length, ?_, ?_, by simp⟩
      · have := List.forall₂_take (N.map Prod.fst).length h1
        rwa [List.take_left] at this
      · have := List.forall₂_drop (N.map Prod.fst).length h1
        rwa [List.drop_left] at this
    have ljs : js.length = N.length := by have := hjs.length_eq; simpa using this.symm
    have lks : ks.length = M.length := by have := hks.length_eq; simpa using this.symm
    have lall : (js ++ ks).length = (N ++ M).length := by simp [ljs, lks]
    obtain ⟨p1, p2, p3⟩ := List.pairwise_append.1 h2
    rw [List.mem_append, not_or] at h3
    have free : ∀ k ∈ js ++ ks, posVals sig P k = none := by
      intro k hk
      rw [posVals, if_neg (h4 k hk)]
    rw [(posSteps_iff sig hw P (afterPos sig P)).2 ⟨h5, rfl⟩]
    simp only
    rw [loop_named]
    obtain ⟨st2, e2⟩ := namedLoop_conv sig hw N _ _ _ js (inv_afterPos sig P) hjs h3.1
      (fun k hk => free k (List.mem_append_left _ hk)) p1 (fun k _ => by simp only [afterPos]; omega)
    rw [e2]
    simp only
    rw [hmid]
    obtain ⟨js', a1, a2, a3, a4, a5, a6, a7, a8, a9, a10⟩ := namedLoop_ok sig hw N _ _ _ _ (inv_afterPos sig P) e2
    have hju := Named.uniques hw a1 hjs
    subst hju
    have hI := hmidInv _ _ _ a8
    generalize hm3 : withSplat S st2 = st3
    rw [hm3] at hI
    have l3 := hmidLast st2; rw [hm3] at l3
    have v3 := hmidVar st2; rw [hm3] at v3
    have s3 := hmidSplat st2 a10; rw [hm3] at s3
    have hbnone : ∀ k ∈ ks, bind' (posVals sig P) js' (N.map Prod.snd) k = none := by
      intro k hk
      unfold bind'
      rw [free k (List.mem_append_right _ hk)]
      simp only
      refine none_of ((lookup_isSome js' _ (by simpa using ljs) k).not.2 fun hj => ?_)
      exact absurd (p3 k hj k hk) (Nat.lt_irrefl _)
    obtain ⟨st4, e4⟩ := namedLoop_conv sig hw M _ _ _ ks hI hks h3.2 hbnone p2 (fun k hk => by
      rw [l3]
      by_cases hl : st2.last = -1
      · omega
      · obtain ⟨m, m1, m2, _⟩ := a8.later hl
        unfold bind' at m2
        cases hp : posVals sig P m with
        | none =>
          rw [hp] at m2
          simp only at m2
          have := p3 m ((lookup_isSome js' _ (by simpa using ljs) m).1 m2) k hk
          omega
        | some v =>
          -- a positional argument is not the last named one
          have hlt : m < P.length ∧ m < sig.vaargIndex := by
            unfold posVals at hp
            by_cases hh : m < P.length ∧ m < sig.vaargIndex
            · exact hh
            · rw [if_neg hh] at hp; cases hp
          have := h4 k (List.mem_append_right _ hk)
          omega)
    rw [e4]
    simp only
    obtain ⟨ks', b1, b2, b3, b4, b5, b6, b7, b8, b9, b10⟩ := namedLoop_ok sig hw M _ _ _ _ hI e4
    have hku := Named.uniques hw b1 hks
    subst hku
    rw [hcut js' ks' ljs] at b8
    refine (finish_iff sig hw _ st4 _ b8 _).2 ⟨?_, ?_⟩
    · intro k hk hv
      rcases h6 k hk hv with h | h | h
      · exact .inl ((hsome _ lall k).2 (.inl h))
      · exact .inl ((hsome _ lall k).2 (.inr h))
      · exact .inr h
    · rw [meaning, b9, b10, v3, s3, a9]
      rfl


end C3.CallArgs
