import Mathlib.Data.List.Induction
import Verif.CallArgs.Spec

set_option autoImplicit false

namespace C3.CallArgs
open Spec

variable {V : Type}

/-! ## Names -/

theorem find_some (n : Nat) (l : List (Option Param)) : ∀ j k, find n j l = some k →
    ∃ m p, k = j + m ∧ l[m]? = some (some p) ∧ p.name = some n := by
  induction l with
  | nil => intro j k h; cases h
  | cons a l ih =>
    intro j k h
    cases a with
    | none =>
      rw [find] at h
      obtain ⟨m, p, h1, h2, h3⟩ := ih _ _ h
      exact ⟨m + 1, p, by omega, by simpa using h2, h3⟩
    | some q =>
      rw [find] at h
      by_cases hq : q.name = some n
      · rw [if_pos hq] at h
        cases h
        exact ⟨0, q, rfl, rfl, hq⟩
      · rw [if_neg hq] at h
        obtain ⟨m, p, h1, h2, h3⟩ := ih _ _ h
        exact ⟨m + 1, p, by omega, by simpa using h2, h3⟩

theorem find_none (n : Nat) (l : List (Option Param)) : ∀ j, find n j l = none →
    ∀ (m : Nat) (p : Param), l[m]? = some (some p) → p.name ≠ some n := by
  induction l with
  | nil => intro j h m p hm; simp at hm
  | cons a l ih =>
    intro j h m p hm
    cases a with
    | none =>
      rw [find] at h
      cases m with
      | zero => simp at hm
      | succ m => exact ih _ h m p (by simpa using hm)
    | some q =>
      rw [find] at h
      by_cases hq : q.name = some n
      · rw [if_pos hq] at h; cases h
      · rw [if_neg hq] at h
        cases m with
        | zero =>
          simp only [List.length_cons, Nat.zero_lt_succ, getElem?_pos, List.getElem_cons_zero, Option.some.injEq] at hm
          rw [← hm]; exact hq
        | succ m => exact ih _ h m p (by simpa using hm)

theorem find_iff (sig : Sig) (h : WF sig) (n k : Nat) : find n 0 sig.params = some k ↔ Named sig n k := by
  constructor
  · intro hf
    obtain ⟨m, p, h1, h2, h3⟩ := find_some n _ 0 k hf
    rw [Nat.zero_add] at h1
    subst h1
    exact ⟨p, h2, h3⟩
  · intro ⟨p, h1, h2⟩
    cases hf : find n 0 sig.params with
    | none => exact absurd h2 (find_none n _ 0 hf k p h1)
    | some k' =>
      obtain ⟨m, q, e1, e2, e3⟩ := find_some n _ 0 k' hf
      rw [Nat.zero_add] at e1
      subst e1
      rw [h.names k' k q p n e2 h1 e3 h2]

theorem isVararg_iff (sig : Sig) (h : WF sig) (n k : Nat) (hk : Named sig n k) :
    sig.isVararg k = true ↔ k = sig.vaargIndex := by
  obtain ⟨p, h1, _⟩ := hk
  rw [Sig.isVararg, h1]
  exact h.vararg k p h1

theorem hasDefault_iff (sig : Sig) (k : Nat) : sig.hasDefault k = true ↔ HasDefault sig k := by
  unfold Sig.hasDefault HasDefault
  cases h : sig.params[k]? with
  | none => simp
  | some o => cases o <;> simp

/-! ## Positional arguments -/

theorem posSteps_append (sig : Sig) (a b : List V) : ∀ (i : Nat) (st : St V), posSteps sig i st (a ++ b) =
    match posSteps sig i st a with
    | .ok st => posSteps sig (i + a.length) st b
    | .error e => .error e := by
  induction a with
  | nil => intro i st; rfl
  | cons v a ih =>
    intro i st
    rw [List.cons_append, posSteps, posSteps]
    cases posStep sig i st v with
    | error e => rfl
    | ok st' =>
      simp only
      rw [ih, List.length_cons, Nat.add_assoc, Nat.add_comm 1]

theorem loop_pos (sig : Sig) (P : List V) (rest : List (Arg V)) : ∀ (i : Nat) (st : St V),
    loop sig i st (P.map .pos ++ rest) =
      match posSteps sig i st P with
      | .ok st => loop sig (i + P.length) st rest
      | .error e => .error e := by
  induction P with
  | nil => intro i st; rfl
  | cons v P ih =>
    intro i st
    rw [List.map_cons, List.cons_append, loop, posSteps]
    cases posStep sig i st v with
    | error e => rfl
    | ok st' =>
      simp only
      rw [ih, List.length_cons, Nat.add_assoc, Nat.add_comm 1]

/-- The state after the positional arguments. -/
def afterPos (sig : Sig) (P : List V) : St V :=
  { actual := fun k => if k < P.length ∧ k < sig.vaargIndex then P[k]?.map .given else none
    varargs := P.drop sig.vaargIndex }

theorem posSteps_iff (sig : Sig) (h : WF sig) (P : List V) (st : St V) : posSteps sig 0 {} P = .ok st ↔
    (sig.variadic = .none → P.length ≤ sig.params.length) ∧ st = afterPos sig P := by
  induction P using List.reverseRecOn generalizing st with
  | nil =>
    rw [posSteps]
    constructor
    · intro e
      cases e
      exact ⟨fun _ => Nat.zero_le _, by simp [afterPos]⟩
    · rintro ⟨_, rfl⟩
      simp [afterPos]
  | append_singleton P v ih =>
    rw [posSteps_append, Nat.zero_add]
    have step : ∀ st', st' = afterPos sig P → ((match (Except.ok st' : Except Err (St V)) with
        | .ok st => posSteps sig P.length st [v]
        | .error e => .error e) = .ok st ↔
        (sig.variadic = .none → P.length + 1 ≤ sig.params.length) ∧ st = afterPos sig (P ++ [v])) := by
      rintro st' rfl
      simp only
      rw [posSteps, posStep, if_neg (by simp [afterPos]), if_neg (by simp [afterPos])]
      by_cases h1 : sig.variadic = .none ∧ P.length ≥ sig.params.length
      · rw [if_pos h1]
        constructor
        · intro e; cases e
        · rintro ⟨e, _⟩; have := e h1.1; omega
      · rw [if_neg h1]
        have hroom : sig.variadic = .none → P.length + 1 ≤ sig.params.length := by
          intro e
          by_cases hh : P.length ≥ sig.params.length
          · exact absurd ⟨e, hh⟩ h1
          · omega
        by_cases h2 : sig.variadic ≠ .none ∧ P.length ≥ sig.vaargIndex
        · rw [if_pos h2]
          have : ({ afterPos sig P with varargs := (afterPos sig P).varargs ++ [v] } : St V) = afterPos sig (P ++ [v]) := by
            simp only [afterPos, List.length_append, List.length_singleton, St.mk.injEq, and_true]
            refine ⟨?_, ?_⟩
            · funext k
              by_cases hk : k < P.length ∧ k < sig.vaargIndex
              · rw [if_pos hk, if_pos (by omega), List.getElem?_append_left hk.1]
              · rw [if_neg hk, if_neg (by omega)]
            · rw [List.drop_append_of_le_length h2.2]
          simp only [posSteps]
          rw [this]
          constructor
          · intro e; cases e; exact ⟨hroom, rfl⟩
          · rintro ⟨_, rfl⟩; rfl
        · rw [if_neg h2]
          have hlt : P.length < sig.vaargIndex := by
            by_cases hv : sig.variadic = .none
            · have := hroom hv; have := h.fixed hv; omega
            · by_cases hh : P.length ≥ sig.vaargIndex
              · exact absurd ⟨hv, hh⟩ h2
              · omega
          have : ((afterPos sig P).set P.length (.given v)) = afterPos sig (P ++ [v]) := by
            simp only [afterPos, St.set, List.length_append, List.length_singleton, St.mk.injEq, and_true]
            refine ⟨?_, ?_⟩
            · funext k
              by_cases hk : k = P.length
              · subst hk
                rw [if_pos rfl, if_pos (by omega)]
                simp
              · rw [if_neg hk]
                by_cases hk2 : k < P.length ∧ k < sig.vaargIndex
                · rw [if_pos hk2, if_pos (by omega), List.getElem?_append_left hk2.1]
                · rw [if_neg hk2, if_neg (by omega)]
            · rw [List.drop_eq_nil_of_le (by omega), List.drop_eq_nil_of_le (by simp; omega)]
          simp only [posSteps]
          rw [this]
          constructor
          · intro e; cases e; exact ⟨hroom, rfl⟩
          · rintro ⟨_, rfl⟩; rfl
    simp only [List.length_append, List.length_singleton]
    cases hp : posSteps sig 0 {} P with
    | ok st' => exact step st' ((ih st').1 hp).2
    | error e =>
      constructor
      · intro e; cases e
      · rintro ⟨e1, _⟩
        have := (ih (afterPos sig P)).2 ⟨fun hv => by have := e1 hv; omega, rfl⟩
        rw [hp] at this
        cases this

/-! ## Named arguments -/

theorem setDefaults_spec (sig : Sig) (n : Nat) : ∀ (j : Nat) (st : St V),
    (setDefaults sig j n st).varargs = st.varargs ∧ (setDefaults sig j n st).splat = st.splat ∧
    (setDefaults sig j n st).hasNamed = st.hasNamed ∧ (setDefaults sig j n st).last = st.last ∧
    (∀ k, (setDefaults sig j n st).actual k = if j ≤ k ∧ k < j + n ∧ k ≠ sig.vaargIndex ∧ sig.hasDefault k = true
      then some .default else st.actual k) := by
  induction n with
  | zero =>
    intro j st
    refine ⟨rfl, rfl, rfl, rfl, fun k => ?_⟩
    rw [if_neg (by omega)]; rfl
  | succ n ih =>
    intro j st
    rw [setDefaults]
    obtain ⟨h1, h2, h3, h4, h5⟩ := ih (j + 1) (if j = sig.vaargIndex then st else setDefault sig st j)
    have e : ∀ k, (if j = sig.vaargIndex then st else setDefault sig st j).actual k =
        if k = j ∧ j ≠ sig.vaargIndex ∧ sig.hasDefault j = true then some .default else st.actual k := by
      intro k
      by_cases hv : j = sig.vaargIndex
      · rw [if_pos hv, if_neg (by simp [hv])]
      · rw [if_neg hv, setDefault]
        by_cases hd : sig.hasDefault j = true
        · rw [if_pos hd]
          simp [St.set, hv, hd]
        · rw [if_neg hd, if_neg (by simp [hd])]
    have f1 : (if j = sig.vaargIndex then st else setDefault sig st j).varargs = st.varargs := by
      unfold setDefault; repeat' split
      all_goals rfl
    have f2 : (if j = sig.vaargIndex then st else setDefault sig st j).splat = st.splat := by
      unfold setDefault; repeat' split
      all_goals rfl
    have f3 : (if j = sig.vaargIndex then st else setDefault sig st j).hasNamed = st.hasNamed := by
      unfold setDefault; repeat' split
      all_goals rfl
    have f4 : (if j = sig.vaargIndex then st else setDefault sig st j).last = st.last := by
      unfold setDefault; repeat' split
      all_goals rfl
    refine ⟨h1.trans f1, h2.trans f2, h3.trans f3, h4.trans f4, fun k => ?_⟩
    rw [h5, e]
    by_cases hk : k = j
    · subst hk
      rw [if_neg (by omega)]
      by_cases hc : k ≠ sig.vaargIndex ∧ sig.hasDefault k = true
      · rw [if_pos ⟨rfl, hc⟩, if_pos ⟨by omega, by omega, hc⟩]
      · rw [if_neg (fun x => hc x.2), if_neg (fun x => hc x.2.2)]
    · rw [if_neg (c := k = j ∧ _) (fun x => hk x.1)]
      by_cases hc : j + 1 ≤ k ∧ k < j + 1 + n ∧ k ≠ sig.vaargIndex ∧ sig.hasDefault k = true
      · rw [if_pos hc, if_pos ⟨by omega, by omega, hc.2.2⟩]
      · rw [if_neg hc, if_neg (fun x => hc ⟨by omega, by omega, x.2.2⟩)]

/-- What the state says of the values given. -/
structure Inv (sig : Sig) (i : Nat) (st : St V) (B : Nat → Option V) : Prop where
  act : ∀ k v, st.actual k = some (.given v) ↔ B k = some v
  dflt : ∀ k, st.actual k = some .default → HasDefault sig k ∧ k ≠ sig.vaargIndex
  first : st.last = -1 → ∃ m, m ≤ i ∧ ∀ k, (B k).isSome = true ↔ k < m
  later : st.last ≠ -1 → ∃ m : Nat, st.last = m ∧ (B m).isSome = true ∧ ∀ k, m < k → B k = none

def update (B : Nat → Option V) (k : Nat) (v : V) : Nat → Option V := fun j => if j = k then some v else B j

theorem isGiven_iff (sig : Sig) (i : Nat) (st : St V) (B : Nat → Option V) (h : Inv sig i st B) (k : Nat) :
    isGiven (st.actual k) = true ↔ (B k).isSome = true := by
  constructor
  · intro hg
    cases ha : st.actual k with
    | none => rw [ha] at hg; cases hg
    | some x =>
      cases x with
      | default => rw [ha] at hg; cases hg
      | given v => rw [(h.act k v).1 ha]; rfl
  · intro hb
    cases hb' : B k with
    | none => rw [hb'] at hb; cases hb
    | some v => rw [(h.act k v).2 hb']; rfl

theorem none_of {o : Option V} (h : ¬ o.isSome = true) : o = none := by
  cases o with
  | none => rfl
  | some v => exact absurd rfl h

/-- A named argument is taken if the name is that of a parameter that comes behind the last one. -/
theorem namedStep_ok (sig : Sig) (hw : WF sig) (i : Nat) (st : St V) (B : Nat → Option V) (h : Inv sig i st B) (n : Nat)
    (v : V) (st' : St V) (e : namedStep sig i st n v = .ok st') :
    ∃ k : Nat, Named sig n k ∧ k ≠ sig.vaargIndex ∧ B k = none ∧ st.last < k ∧ Inv sig (i + 1) st' (update B k v) ∧
      st'.last = k ∧ st'.varargs = st.varargs ∧ st'.splat = st.splat ∧ st'.hasNamed = true := by
  unfold namedStep at e
  cases hf : find n 0 sig.params with
  | none => rw [hf] at e; cases e
  | some k =>
    rw [hf] at e
    simp only at e
    have hn := (find_iff sig hw n k).1 hf
    by_cases h1 : sig.isVararg k = true
    · rw [if_pos h1] at e; cases e
    rw [if_neg h1] at e
    rw [isVararg_iff sig hw n k hn] at h1
    by_cases h2 : isGiven (st.actual k) = true
    · rw [if_pos h2] at e; cases e
    rw [if_neg h2] at e
    by_cases h3 : st.last > (k : Int)
    · rw [if_pos h3] at e; cases e
    rw [if_neg h3] at e
    have hb : B k = none := by
      cases hb : B k with
      | none => rfl
      | some w => exact absurd ((isGiven_iff sig i st B h k).2 (by rw [hb]; rfl)) h2
    have hlast : st.last < k := by
      by_cases hl : st.last = -1
      · omega
      · obtain ⟨m, m1, m2, _⟩ := h.later hl
        have : m ≠ k := by
          intro e; rw [e, hb] at m2; cases m2
        omega
    generalize hj : ((if st.last = -1 then (i : Int) - 1 else st.last) + 1).toNat = j at e
    have hfree : ∀ l, j ≤ l → B l = none := by
      intro l hl
      by_cases hm : st.last = -1
      · rw [if_pos hm] at hj
        obtain ⟨m, m1, m2⟩ := h.first hm
        exact none_of ((m2 l).not.2 (by omega))
      · rw [if_neg hm] at hj
        obtain ⟨m, m1, _, m3⟩ := h.later hm
        exact m3 l (by omega)
    obtain ⟨d1, d2, d3, d4, d5⟩ := setDefaults_spec sig (k - j) j ({ st with hasNamed := true } : St V)
    cases e
    refine ⟨k, hn, h1, hb, hlast, ⟨?_, ?_, ?_, ?_⟩, rfl, d1, d2, d3⟩
    · intro l w
      simp only [St.set, update]
      by_cases hl : l = k
      · rw [if_pos hl, if_pos hl]; simp
      · rw [if_neg hl, if_neg hl, d5]
        by_cases hc : j ≤ l ∧ l < j + (k - j) ∧ l ≠ sig.vaargIndex ∧ sig.hasDefault l = true
        · rw [if_pos hc, hfree l hc.1]; simp
        · rw [if_neg hc]; exact h.act l w
    · intro l hl
      simp only [St.set] at hl
      by_cases hk : l = k
      · rw [if_pos hk] at hl; cases hl
      · rw [if_neg hk, d5] at hl
        by_cases hc : j ≤ l ∧ l < j + (k - j) ∧ l ≠ sig.vaargIndex ∧ sig.hasDefault l = true
        · exact ⟨(hasDefault_iff sig l).1 hc.2.2.2, hc.2.2.1⟩
        · rw [if_neg hc] at hl; exact h.dflt l hl
    · intro hm; simp only at hm; omega
    · intro _
      refine ⟨k, rfl, by simp [update], fun l hl => ?_⟩
      rw [update, if_neg (by omega)]
      by_cases hm : st.last = -1
      · obtain ⟨m, m1, m2⟩ := h.first hm
        have : ¬ k < m := (m2 k).not.1 (by rw [hb]; simp)
        exact none_of ((m2 l).not.2 (by omega))
      · obtain ⟨m, m1, _, m3⟩ := h.later hm
        exact m3 l (by omega)

theorem Named.unique {sig : Sig} (hw : WF sig) {n j k : Nat} (hj : Named sig n j) (hk : Named sig n k) : j = k := by
  obtain ⟨p, h1, h2⟩ := hj
  obtain ⟨q, h3, h4⟩ := hk
  exact hw.names j k p q n h1 h3 h2 h4

theorem Named.uniques {sig : Sig} (hw : WF sig) {ns : List Nat} : ∀ {js ks : List Nat}, List.Forall₂ (Named sig) ns js →
    List.Forall₂ (Named sig) ns ks → js = ks := by
  induction ns with
  | nil => intro js ks h1 h2; cases h1; cases h2; rfl
  | cons n ns ih =>
    intro js ks h1 h2
    cases h1 with
    | cons a b =>
      cases h2 with
      | cons c d => rw [Named.unique hw a c, ih b d]

theorem namedStep_conv (sig : Sig) (hw : WF sig) (i : Nat) (st : St V) (B : Nat → Option V) (h : Inv sig i st B) (n : Nat)
    (v : V) (k : Nat) (h1 : Named sig n k) (h2 : k ≠ sig.vaargIndex) (h3 : B k = none) (h4 : st.last < k) :
    ∃ st', namedStep sig i st n v = .ok st' := by
  unfold namedStep
  rw [(find_iff sig hw n k).2 h1]
  simp only
  rw [if_neg ((isVararg_iff sig hw n k h1).not.2 h2), if_neg, if_neg (by omega)]
  · exact ⟨_, rfl⟩
  · rw [isGiven_iff sig i st B h k, h3]; simp

/-- The values of `B` and those of the list. -/
def bind' (B : Nat → Option V) (ks : List Nat) (vs : List V) : Nat → Option V := fun k =>
  match B k with
  | some v => some v
  | none => (ks.zip vs).lookup k

theorem bind'_nil (B : Nat → Option V) (vs : List V) : bind' B [] vs = B := by
  funext k
  unfold bind'
  cases B k <;> rfl

theorem bind'_cons (B : Nat → Option V) (k : Nat) (v : V) (ks : List Nat) (vs : List V) (h : B k = none) :
    bind' (update B k v) ks vs = bind' B (k :: ks) (v :: vs) := by
  funext j
  unfold bind' update
  by_cases hj : j = k
  · subst hj
    simp [h]
  · rw [if_neg hj]
    cases B j with
    | some w => rfl
    | none =>
      simp only [List.zip_cons_cons, List.lookup_cons]
      have : (j == k) = false := by simpa using hj
      rw [this]

theorem bind'_append (B : Nat → Option V) (js : List Nat) (us : List V) (hl : js.length = us.length) (ks : List Nat)
    (vs : List V) : bind' (bind' B js us) ks vs = bind' B (js ++ ks) (us ++ vs) := by
  funext k
  unfold bind'
  rw [List.zip_append hl]
  cases B k with
  | some w => rfl
  | none =>
    simp only
    rw [List.lookup_append]
    cases (js.zip us).lookup k <;> rfl

theorem lookup_isSome (ks : List Nat) : ∀ (vs : List V), ks.length = vs.length → ∀ k,
    ((ks.zip vs).lookup k).isSome = true ↔ k ∈ ks := by
  induction ks with
  | nil => intro vs _ k; simp
  | cons a ks ih =>
    intro vs hl k
    cases vs with
    | nil => simp at hl
    | cons v vs =>
      simp only [List.zip_cons_cons, List.lookup_cons, List.mem_cons]
      by_cases hk : k = a
      · subst hk; simp
      · have : (k == a) = false := by simpa using hk
        rw [this]
        simp only
        rw [ih vs (by simpa using hl) k]
        simp [hk]

/-- Named arguments, one after the other. -/
def nm (N : List (Nat × V)) : List (Arg V) := N.map fun x => .named x.1 x.2

theorem loop_named (sig : Sig) (N : List (Nat × V)) (rest : List (Arg V)) : ∀ (i : Nat) (st : St V),
    loop sig i st (nm N ++ rest) =
      match loop sig i st (nm N) with
      | .ok st => loop sig (i + N.length) st rest
      | .error e => .error e := by
  induction N with
  | nil => intro i st; rfl
  | cons x N ih =>
    intro i st
    show loop sig i st (.named x.1 x.2 :: (nm N ++ rest)) = match loop sig i st (.named x.1 x.2 :: nm N) with
      | .ok st => loop sig (i + (N.length + 1)) st rest
      | .error e => .error e
    rw [loop, loop]
    cases namedStep sig i st x.1 x.2 with
    | error e => rfl
    | ok st' =>
      simp only
      rw [ih, Nat.add_assoc, Nat.add_comm 1]

theorem namedLoop_ok (sig : Sig) (hw : WF sig) (N : List (Nat × V)) : ∀ (i : Nat) (st st' : St V) (B : Nat → Option V),
    Inv sig i st B → loop sig i st (nm N) = .ok st' →
    ∃ ks : List Nat, List.Forall₂ (Named sig) (N.map Prod.fst) ks ∧ sig.vaargIndex ∉ ks ∧ (∀ k ∈ ks, B k = none) ∧
      ks.Pairwise (· < ·) ∧ (∀ k ∈ ks, st.last < (k : Int)) ∧ (∀ k ∈ ks, (k : Int) ≤ st'.last) ∧ st.last ≤ st'.last ∧
      Inv sig (i + N.length) st' (bind' B ks (N.map Prod.snd)) ∧ st'.varargs = st.varargs ∧ st'.splat = st.splat := by
  induction N with
  | nil =>
    intro i st st' B h e
    cases e
    exact ⟨[], .nil, by simp, by simp, .nil, by simp, by simp, Int.le_refl _, by rw [bind'_nil]; exact h, rfl, rfl⟩
  | cons x N ih =>
    intro i st st' B h e
    rw [show nm (x :: N) = .named x.1 x.2 :: nm N from rfl, loop] at e
    cases hs : namedStep sig i st x.1 x.2 with
    | error e' => rw [hs] at e; cases e
    | ok st1 =>
      rw [hs] at e
      simp only at e
      obtain ⟨k, k1, k2, k3, k4, k5, k6, k7, k8, _⟩ := namedStep_ok sig hw i st B h _ _ _ hs
      obtain ⟨ks, i1, i2, i3, i4, i5, i6, i7, i8, i9, i10⟩ := ih _ _ _ _ k5 e
      refine ⟨k :: ks, .cons k1 i1, ?_, ?_, ?_, ?_, ?_, by omega, ?_, i9.trans k7, i10.trans k8⟩
      · simp only [List.mem_cons, not_or]; exact ⟨fun e => k2 e.symm, i2⟩
      · intro j hj
        rcases List.mem_cons.1 hj with rfl | hj
        · exact k3
        · have := i3 j hj
          unfold update at this
          by_cases hjk : j = k
          · rw [if_pos hjk] at this; cases this
          · rw [if_neg hjk] at this; exact this
      · refine List.pairwise_cons.2 ⟨fun j hj => ?_, i4⟩
        have := i5 j hj
        omega
      · intro j hj
        rcases List.mem_cons.1 hj with rfl | hj
        · exact k4
        · have := i5 j hj; omega
      · intro j hj
        rcases List.mem_cons.1 hj with rfl | hj
        · omega
        · exact i6 j hj
      · rw [bind'_cons B k x.2 ks _ k3] at i8
        rw [List.length_cons, Nat.add_comm N.length, ← Nat.add_assoc]
        exact i8

theorem namedLoop_conv (sig : Sig) (hw : WF sig) (N : List (Nat × V)) : ∀ (i : Nat) (st : St V) (B : Nat → Option V)
    (ks : List Nat), Inv sig i st B → List.Forall₂ (Named sig) (N.map Prod.fst) ks → sig.vaargIndex ∉ ks →
    (∀ k ∈ ks, B k = none) → ks.Pairwise (· < ·) → (∀ k ∈ ks, st.last < (k : Int)) →
    ∃ st', loop sig i st (nm N) = .ok st' := by
  induction N with
  | nil => intro i st B ks _ _ _ _ _ _; exact ⟨st, rfl⟩
  | cons x N ih =>
    intro i st B ks h h1 h2 h3 h4 h5
    cases h1 with
    | cons a b =>
      rename_i k ks
      simp only [List.mem_cons, not_or] at h2
      obtain ⟨st1, e1⟩ := namedStep_conv sig hw i st B h x.1 x.2 k a (fun e => h2.1 e.symm) (h3 k (List.mem_cons_self ..))
        (h5 k (List.mem_cons_self ..))
      obtain ⟨k', k1, k2, k3, k4, k5, k6, _⟩ := namedStep_ok sig hw i st B h _ _ _ e1
      have := Named.unique hw k1 a
      subst this
      obtain ⟨p1, p2⟩ := List.pairwise_cons.1 h4
      obtain ⟨st', e2⟩ := ih (i + 1) st1 _ ks k5 b h2.2 (fun j hj => by
        rw [update, if_neg (by have := p1 j hj; omega)]; exact h3 j (List.mem_cons_of_mem _ hj)) p2
        (fun j hj => by have := p1 j hj; omega)
      refine ⟨st', ?_⟩
      rw [show nm (x :: N) = .named x.1 x.2 :: nm N from rfl, loop, e1]
      exact e2

/-! ## The end -/

theorem fill_eq (sig : Sig) (hw : WF sig) (i : Nat) (st : St V) (B : Nat → Option V) (h : Inv sig i st B) (k : Nat)
    (hk : k < sig.params.length) : fill sig st k =
      match B k with
      | some v => some (.given v)
      | none => if k = sig.vaargIndex then none else if sig.hasDefault k then some .default else none := by
  have hv : k = sig.vaargIndex → sig.variadic ≠ .none := by
    intro e e'; have := hw.fixed e'; omega
  unfold fill
  cases ha : st.actual k with
  | none =>
    have : B k = none := by
      cases hB : B k with
      | none => rfl
      | some v => rw [(h.act k v).2 hB] at ha; cases ha
    rw [this]
    simp only
    by_cases e : k = sig.vaargIndex
    · rw [if_pos ⟨e, hv e⟩, if_pos e]
    · rw [if_neg (fun x => e x.1), if_neg e]
  | some x =>
    cases x with
    | given v => rw [(h.act k v).1 ha]
    | default =>
      have : B k = none := by
        cases hB : B k with
        | none => rfl
        | some v => rw [(h.act k v).2 hB] at ha; cases ha
      obtain ⟨d1, d2⟩ := h.dflt k ha
      rw [this]
      simp only
      rw [if_neg d2, if_pos ((hasDefault_iff sig k).2 d1)]

theorem finish_iff (sig : Sig) (hw : WF sig) (i : Nat) (st : St V) (B : Nat → Option V) (h : Inv sig i st B) (r : Call V) :
    finish sig st = .ok r ↔
      (∀ k, k < sig.params.length → k ≠ sig.vaargIndex → (B k).isSome = true ∨ HasDefault sig k) ∧
      r = ⟨(List.range sig.params.length).map fun k =>
        match B k with
        | some v => some (.given v)
        | none => if k = sig.vaargIndex then none else some .default, st.varargs, st.splat⟩ := by
  have hany : ((List.range sig.params.length).any fun k => decide (k ≠ sig.vaargIndex) && (fill sig st k).isNone) = true ↔
      ¬ ∀ k, k < sig.params.length → k ≠ sig.vaargIndex → (B k).isSome = true ∨ HasDefault sig k := by
    rw [List.any_eq_true]
    constructor
    · rintro ⟨k, hk, e⟩ hall
      rw [List.mem_range] at hk
      simp only [Bool.and_eq_true, decide_eq_true_eq] at e
      have := hall k hk e.1
      rw [fill_eq sig hw i st B h k hk] at e
      cases hB : B k with
      | some v => rw [hB] at e; simp at e
      | none =>
        rw [hB] at e this
        simp only [Option.isSome_none, Bool.false_eq_true, false_or] at this
        rw [if_neg e.1, if_pos ((hasDefault_iff sig k).2 this)] at e
        simp at e
    · intro hall
      apply Classical.byContradiction
      intro hno
      apply hall
      intro k hk hv
      cases hB : B k with
      | some v => exact .inl rfl
      | none =>
        refine .inr ((hasDefault_iff sig k).1 ?_)
        apply Classical.byContradiction
        intro hd
        apply hno
        refine ⟨k, List.mem_range.2 hk, ?_⟩
        rw [fill_eq sig hw i st B h k hk, hB]
        simp [hv, hd]
  unfold finish
  by_cases hall : ∀ k, k < sig.params.length → k ≠ sig.vaargIndex → (B k).isSome = true ∨ HasDefault sig k
  · rw [if_neg (fun e => hany.1 e hall)]
    have : (List.range sig.params.length).map (fill sig st) = (List.range sig.params.length).map fun k =>
        match B k with
        | some v => some (.given v)
        | none => if k = sig.vaargIndex then none else some .default := by
      apply List.map_congr_left
      intro k hk
      rw [List.mem_range] at hk
      rw [fill_eq sig hw i st B h k hk]
      cases hB : B k with
      | some v => rfl
      | none =>
        simp only
        by_cases e : k = sig.vaargIndex
        · rw [if_pos e, if_pos e]
        · rw [if_neg e, if_neg e]
          have := hall k hk e
          rw [hB] at this
          simp only [Option.isSome_none, Bool.false_eq_true, false_or] at this
          rw [if_pos ((hasDefault_iff sig k).2 this)]
    rw [this]
    constructor
    · intro e; cases e; exact ⟨hall, rfl⟩
    · rintro ⟨_, rfl⟩; rfl
  · rw [if_pos (hany.2 hall)]
    constructor
    · intro e; cases e
    · rintro ⟨e, _⟩; exact absurd e hall

/-! ## Whole calls -/

/-- The values of the positional arguments. -/
def posVals (sig : Sig) (P : List V) : Nat → Option V := fun k => if k < P.length ∧ k < sig.vaargIndex then P[k]? else none

theorem inv_afterPos (sig : Sig) (P : List V) : Inv sig P.length (afterPos sig P) (posVals sig P) := by
  refine ⟨?_, ?_, ?_, ?_⟩
  · intro k v
    simp only [afterPos, posVals]
    by_cases h : k < P.length ∧ k < sig.vaargIndex
    · rw [if_pos h, if_pos h]
      cases P[k]? <;> simp
    · rw [if_neg h, if_neg h]; simp
  · intro k h
    simp only [afterPos] at h
    split at h
    · cases hp : P[k]? with
      | none => rw [hp] at h; cases h
      | some v => rw [hp] at h; cases h
    · cases h
  · intro _
    refine ⟨min P.length sig.vaargIndex, Nat.min_le_left _ _, fun k => ?_⟩
    simp only [posVals]
    by_cases h : k < P.length ∧ k < sig.vaargIndex
    · rw [if_pos h, List.getElem?_eq_getElem h.1]; simp; omega
    · rw [if_neg h]; simp; omega
  · intro h; exact absurd rfl h

theorem given_eq (sig : Sig) (P : List V) (ks : List Nat) (vs : List V) :
    given sig P ks vs = bind' (posVals sig P) ks vs := by
  funext k
  unfold given bind' posVals
  by_cases h : k < P.length ∧ k < sig.vaargIndex
  · rw [if_pos h, if_pos h, List.getElem?_eq_getElem h.1]
  · rw [if_neg h, if_neg h]

theorem lastOrNamed_nm (M : List (Nat × V)) : lastOrNamed (nm M) = true := by cases M <;> rfl

end C3.CallArgs
