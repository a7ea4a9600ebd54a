import Verif.TaskQueue.Model
import Mathlib.Data.List.Basic
import Mathlib.Data.List.Count

/-! # Invariants of the task queue -/

set_option autoImplicit false

namespace C3.TaskQueue

variable {α : Type}

/-- Inside the critical section. -/
def PC.critical : PC α → Bool
  | .counting | .reading _ | .popping _ | .unlocking _ | .leaving => true
  | _ => false

/-- The task taken from the queue but not started. -/
def PC.held : PC α → List α
  | .unlocking t => [t]
  | _ => []

/-- The task being run. -/
def PC.busy : PC α → List α
  | .running t => [t]
  | _ => []

structure Inv (n : Nat) (tasks : List α) (s : State α) : Prop where
  len : s.pcs.length = n
  noFault : s.fault = false
  owner : ∀ i p, s.pcs[i]? = some p → p.critical = true → s.lock = some i
  owned : ∀ i, s.lock = some i → ∃ p, s.pcs[i]? = some p ∧ p.critical = true
  reading : ∀ (i m : Nat), s.pcs[i]? = some (.reading m) → m = s.queue.length ∧ 0 < m
  popping : ∀ (i : Nat) t, s.pcs[i]? = some (.popping t) → ∃ q, s.queue = q ++ [t]
  once : (s.queue ++ s.pcs.flatMap PC.held ++ s.started).Perm tasks
  ended : (s.finished ++ s.pcs.flatMap PC.busy).Perm s.started
  empty : ∀ i : Nat, s.pcs[i]? = some .leaving ∨ s.pcs[i]? = some .exited → s.queue = []
  creating : ∀ k, s.main = .creating k → k ≤ n ∧ ∀ i : Nat, k ≤ i → i < n → s.pcs[i]? = some .notCreated
  createdSoFar : ∀ k, s.main = .creating k → ∀ i : Nat, i < k → s.pcs[i]? ≠ some .notCreated
  joining : ∀ k, s.main = .joining k → k ≤ n ∧ (∀ i : Nat, s.pcs[i]? ≠ some .notCreated) ∧ ∀ i : Nat, i < k → s.pcs[i]? = some .exited
  returned : s.main = .returned → ∀ i : Nat, i < n → s.pcs[i]? = some .exited

theorem split_at {β : Type} (l : List β) (i : Nat) (x : β) (h : l[i]? = some x) :
    ∃ a b, l = a ++ x :: b ∧ ∀ y, l.set i y = a ++ y :: b := by
  obtain ⟨hl, hx⟩ := List.getElem?_eq_some_iff.1 h
  refine ⟨l.take i, l.drop (i + 1), ?_, ?_⟩
  · rw [← hx, ← List.drop_eq_getElem_cons hl, List.take_append_drop]
  · intro y
    rw [List.set_eq_take_append_cons_drop, if_pos hl]

/-- Replacing one worker's position changes what the workers hold by that much. -/
theorem flatMap_set {β : Type} (f : PC α → List β) (l : List (PC α)) (i : Nat) (x : PC α) (h : l[i]? = some x) :
    ∃ rest, (l.flatMap f).Perm (f x ++ rest) ∧ ∀ y, ((l.set i y).flatMap f).Perm (f y ++ rest) := by
  obtain ⟨a, b, h1, h2⟩ := split_at l i x h
  refine ⟨a.flatMap f ++ b.flatMap f, ?_, ?_⟩
  · rw [h1, List.flatMap_append, List.flatMap_cons, ← List.append_assoc, ← List.append_assoc]
    exact List.Perm.append_right _ List.perm_append_comm
  · intro y
    rw [h2 y, List.flatMap_append, List.flatMap_cons, ← List.append_assoc, ← List.append_assoc]
    exact List.Perm.append_right _ List.perm_append_comm

theorem flatMap_same {β : Type} (f : PC α → List β) (l : List (PC α)) (i : Nat) (x y : PC α) (h : l[i]? = some x) (hf : f x = f y) :
    ((l.set i y).flatMap f).Perm (l.flatMap f) := by
  obtain ⟨rest, h1, h2⟩ := flatMap_set f l i x h
  refine (h2 y).trans ?_
  rw [← hf]
  exact h1.symm

theorem get_set {β : Type} (l : List β) (i j : Nat) (x y z : β) (h : l[i]? = some x) (hj : (l.set i y)[j]? = some z) :
    (j = i ∧ z = y) ∨ (j ≠ i ∧ l[j]? = some z) := by
  have hl := (List.getElem?_eq_some_iff.1 h).1
  by_cases hij : j = i
  · subst hij
    rw [List.getElem?_set_self hl, Option.some.injEq] at hj
    exact Or.inl ⟨rfl, hj.symm⟩
  · rw [List.getElem?_set_ne (Ne.symm hij)] at hj
    exact Or.inr ⟨hij, hj⟩

theorem inv_init (n : Nat) (tasks : List α) : Inv n tasks (init n tasks) := by
  have hnc : ∀ (i : Nat) p, (List.replicate n (PC.notCreated (α := α)))[i]? = some p → p = .notCreated := by
    intro i p hi
    rw [List.getElem?_replicate] at hi
    split at hi
    · simpa using hi.symm
    · simp at hi
  have hheld : ∀ f : PC α → List α, f .notCreated = [] → (List.replicate n (PC.notCreated (α := α))).flatMap f = [] := by
    intro f hf
    rw [List.flatMap_eq_nil_iff]
    intro p hp
    rw [(List.mem_replicate.1 hp).2, hf]
  constructor
  · simp [init]
  · rfl
  · intro i p hi hc
    rw [hnc i p hi] at hc; simp [PC.critical] at hc
  · intro i hi; simp [init] at hi
  · intro i m hi; have := hnc i _ hi; simp at this
  · intro i t hi; have := hnc i _ hi; simp at this
  · simp only [init]
    rw [hheld _ rfl]; simp
  · simp only [init]
    rw [hheld _ rfl]; simp
  · intro i hi
    rcases hi with hi | hi
    · have := hnc i _ hi; simp at this
    · have := hnc i _ hi; simp at this
  · intro k hk
    simp only [init, Main.creating.injEq] at hk
    subst hk
    refine ⟨by omega, ?_⟩
    intro i _ hi
    simp [init, List.getElem?_replicate, hi]
  · intro k hk i hi
    simp only [init, Main.creating.injEq] at hk
    omega
  · intro k hk; simp [init] at hk
  · intro hk; simp [init] at hk

/-- What every step of a worker that is neither created nor exited has in common. -/
theorem Inv.worker {n : Nat} {tasks : List α} {s : State α} (h : Inv n tasks s) (i : Nat) (p q : PC α) (hp : s.pcs[i]? = some p)
    (hp1 : p ≠ .notCreated) (hp2 : p ≠ .exited) (hq1 : q ≠ .notCreated) (lk : Option Nat) (qu st fi : List α)
    (hown : ∀ j r, (s.pcs.set i q)[j]? = some r → r.critical = true → lk = some j)
    (hownd : ∀ j, lk = some j → ∃ r, (s.pcs.set i q)[j]? = some r ∧ r.critical = true)
    (hread : ∀ (j m : Nat), (s.pcs.set i q)[j]? = some (.reading m) → m = qu.length ∧ 0 < m)
    (hpop : ∀ (j : Nat) t, (s.pcs.set i q)[j]? = some (.popping t) → ∃ q', qu = q' ++ [t])
    (honce : (qu ++ (s.pcs.set i q).flatMap PC.held ++ st).Perm tasks)
    (hend : (fi ++ (s.pcs.set i q).flatMap PC.busy).Perm st)
    (hem : ∀ j : Nat, (s.pcs.set i q)[j]? = some .leaving ∨ (s.pcs.set i q)[j]? = some .exited → qu = []) :
    Inv n tasks { s with pcs := s.pcs.set i q, lock := lk, queue := qu, started := st, finished := fi } := by
  have hil : i < n := by rw [← h.len]; exact (List.getElem?_eq_some_iff.1 hp).1
  constructor
  · simpa using h.len
  · exact h.noFault
  · exact hown
  · exact hownd
  · exact hread
  · exact hpop
  · exact honce
  · exact hend
  · exact hem
  · intro k hk
    obtain ⟨g1, g2⟩ := h.creating k hk
    refine ⟨g1, ?_⟩
    intro j hkj hjn
    have hne : i ≠ j := by
      rintro rfl
      rw [g2 i hkj hjn, Option.some.injEq] at hp
      exact hp1 hp.symm
    dsimp only
    rw [List.getElem?_set_ne hne]
    exact g2 j hkj hjn
  · intro k hk j hj hc
    rcases get_set _ _ _ _ _ _ hp hc with ⟨-, e⟩ | ⟨-, e⟩
    · exact hq1 e.symm
    · exact h.createdSoFar k hk j hj e
  · intro k hk
    obtain ⟨g1, g2, g3⟩ := h.joining k hk
    refine ⟨g1, ?_, ?_⟩
    · intro j hc
      rcases get_set _ _ _ _ _ _ hp hc with ⟨-, e⟩ | ⟨-, e⟩
      · exact hq1 e.symm
      · exact g2 j e
    · intro j hj
      have hne : i ≠ j := by
        rintro rfl
        rw [g3 i hj, Option.some.injEq] at hp
        exact hp2 hp.symm
      dsimp only
      rw [List.getElem?_set_ne hne]
      exact g3 j hj
  · intro hk j hj
    have hne : i ≠ j := by
      rintro rfl
      rw [h.returned hk i hj, Option.some.injEq] at hp
      exact hp2 hp.symm
    dsimp only
    rw [List.getElem?_set_ne hne]
    exact h.returned hk j hj

theorem Inv.alone {n : Nat} {tasks : List α} {s : State α} (h : Inv n tasks s) {i j : Nat} {p q : PC α} (hp : s.pcs[i]? = some p)
    (hq : s.pcs[j]? = some q) (hpc : p.critical = true) (hqc : q.critical = true) : i = j := by
  have h1 := h.owner i p hp hpc
  have h2 := h.owner j q hq hqc
  rw [h1] at h2
  simpa using h2

theorem inv_step (n : Nat) (tasks : List α) (s t : State α) (h : Inv n tasks s) (hs : Step s t) : Inv n tasks t := by
  classical
  cases hs with
  | create k hm hk =>
    obtain ⟨g1, g2⟩ := h.creating k hm
    have hkn : k < n := by rw [← h.len]; exact hk
    have hp := g2 k (Nat.le_refl k) hkn
    constructor
    · simpa using h.len
    · exact h.noFault
    · intro j p hj hc
      rcases get_set _ _ _ _ _ _ hp hj with ⟨-, e⟩ | ⟨-, e⟩
      · rw [e] at hc; simp [PC.critical] at hc
      · exact h.owner j p e hc
    · intro j hj
      obtain ⟨p, e1, e2⟩ := h.owned j hj
      refine ⟨p, ?_, e2⟩
      dsimp only
      rw [List.getElem?_set_ne, e1]
      rintro rfl
      rw [hp, Option.some.injEq] at e1
      rw [← e1] at e2
      simp [PC.critical] at e2
    · intro j m hj
      rcases get_set _ _ _ _ _ _ hp hj with ⟨-, e⟩ | ⟨-, e⟩
      · simp at e
      · exact h.reading j m e
    · intro j m hj
      rcases get_set _ _ _ _ _ _ hp hj with ⟨-, e⟩ | ⟨-, e⟩
      · simp at e
      · exact h.popping j m e
    · refine List.Perm.trans ?_ h.once
      exact List.Perm.append_right _ (List.Perm.append_left _ (flatMap_same _ _ _ _ _ hp rfl))
    · refine List.Perm.trans ?_ h.ended
      exact List.Perm.append_left _ (flatMap_same _ _ _ _ _ hp rfl)
    · intro j hj
      rcases hj with hj | hj
      · rcases get_set _ _ _ _ _ _ hp hj with ⟨-, e⟩ | ⟨-, e⟩
        · simp at e
        · exact h.empty j (Or.inl e)
      · rcases get_set _ _ _ _ _ _ hp hj with ⟨-, e⟩ | ⟨-, e⟩
        · simp at e
        · exact h.empty j (Or.inr e)
    · intro k' hk'
      simp only [Main.creating.injEq] at hk'
      subst hk'
      refine ⟨hkn, ?_⟩
      intro j hj hjn
      dsimp only
      rw [List.getElem?_set_ne (by omega)]
      exact g2 j (by omega) hjn
    · intro k' hk' j hj hc
      simp only [Main.creating.injEq] at hk'
      subst hk'
      rcases get_set _ _ _ _ _ _ hp hc with ⟨-, e⟩ | ⟨hne, e⟩
      · simp at e
      · exact h.createdSoFar k hm j (by omega) e
    · intro k' hk'; simp at hk'
    · intro hk'; simp at hk'
  | created hm =>
    refine ⟨h.len, h.noFault, h.owner, h.owned, h.reading, h.popping, h.once, h.ended, h.empty, ?_, ?_, ?_, ?_⟩
    · intro k hk; simp at hk
    · intro k hk; simp at hk
    · intro k hk
      simp only [Main.joining.injEq] at hk
      subst hk
      refine ⟨by omega, ?_, ?_⟩
      · intro i hi
        exact h.createdSoFar _ hm i (List.getElem?_eq_some_iff.1 hi).1 hi
      · intro i hi; omega
    · intro hk; simp at hk
  | join k hm hk =>
    obtain ⟨g1, g2, g3⟩ := h.joining k hm
    refine ⟨h.len, h.noFault, h.owner, h.owned, h.reading, h.popping, h.once, h.ended, h.empty, ?_, ?_, ?_, ?_⟩
    · intro k hk; simp at hk
    · intro k hk; simp at hk
    · intro k' hk'
      simp only [Main.joining.injEq] at hk'
      subst hk'
      refine ⟨?_, g2, ?_⟩
      · have := (List.getElem?_eq_some_iff.1 hk).1
        rw [h.len] at this
        exact this
      · intro i hi
        by_cases hik : i = k
        · rw [hik]; exact hk
        · exact g3 i (by omega)
    · intro hk; simp at hk
  | joined hm =>
    obtain ⟨g1, g2, g3⟩ := h.joining _ hm
    refine ⟨h.len, h.noFault, h.owner, h.owned, h.reading, h.popping, h.once, h.ended, h.empty, ?_, ?_, ?_, ?_⟩
    · intro k hk; simp at hk
    · intro k hk; simp at hk
    · intro k hk; simp at hk
    · intro _ i hi
      exact g3 i (by rw [h.len]; exact hi)
  | lock i hp hl =>
    refine h.worker i .locking .counting hp (by simp) (by simp) (by simp) (some i) s.queue s.started s.finished
      ?_ ?_ ?_ ?_ ?_ ?_ ?_
    · intro j r hj hc
      rcases get_set _ _ _ _ _ _ hp hj with ⟨e, -⟩ | ⟨-, e⟩
      · rw [e]
      · have := h.owner j r e hc
        rw [hl] at this
        simp at this
    · intro j hj
      simp only [Option.some.injEq] at hj
      subst hj
      exact ⟨_, List.getElem?_set_self (List.getElem?_eq_some_iff.1 hp).1, rfl⟩
    · intro j m hj
      rcases get_set _ _ _ _ _ _ hp hj with ⟨-, e⟩ | ⟨-, e⟩
      · simp at e
      · exact h.reading j m e
    · intro j m hj
      rcases get_set _ _ _ _ _ _ hp hj with ⟨-, e⟩ | ⟨-, e⟩
      · simp at e
      · exact h.popping j m e
    · refine List.Perm.trans ?_ h.once
      exact List.Perm.append_right _ (List.Perm.append_left _ (flatMap_same _ _ _ _ _ hp rfl))
    · refine List.Perm.trans ?_ h.ended
      exact List.Perm.append_left _ (flatMap_same _ _ _ _ _ hp rfl)
    · intro j hj
      rcases hj with hj | hj
      · rcases get_set _ _ _ _ _ _ hp hj with ⟨-, e⟩ | ⟨-, e⟩
        · simp at e
        · exact h.empty j (Or.inl e)
      · rcases get_set _ _ _ _ _ _ hp hj with ⟨-, e⟩ | ⟨-, e⟩
        · simp at e
        · exact h.empty j (Or.inr e)
  | countEmpty i hp hq =>
    have hq' : s.queue = [] := List.length_eq_zero_iff.1 hq
    have ho := h.owner i _ hp rfl
    refine h.worker i .counting .leaving hp (by simp) (by simp) (by simp) s.lock s.queue s.started s.finished
      ?_ ?_ ?_ ?_ ?_ ?_ ?_
    · intro j r hj hc
      rcases get_set _ _ _ _ _ _ hp hj with ⟨e, -⟩ | ⟨-, e⟩
      · rw [e]; exact ho
      · exact h.owner j r e hc
    · intro j hj
      rw [ho, Option.some.injEq] at hj
      subst hj
      exact ⟨_, List.getElem?_set_self (List.getElem?_eq_some_iff.1 hp).1, rfl⟩
    · intro j m hj
      rcases get_set _ _ _ _ _ _ hp hj with ⟨-, e⟩ | ⟨-, e⟩
      · simp at e
      · exact h.reading j m e
    · intro j m hj
      rcases get_set _ _ _ _ _ _ hp hj with ⟨-, e⟩ | ⟨-, e⟩
      · simp at e
      · exact h.popping j m e
    · refine List.Perm.trans ?_ h.once
      exact List.Perm.append_right _ (List.Perm.append_left _ (flatMap_same _ _ _ _ _ hp rfl))
    · refine List.Perm.trans ?_ h.ended
      exact List.Perm.append_left _ (flatMap_same _ _ _ _ _ hp rfl)
    · intro _ _; exact hq'
  | count i hp hq =>
    have ho := h.owner i _ hp rfl
    refine h.worker i .counting (.reading s.queue.length) hp (by simp) (by simp) (by simp) s.lock s.queue s.started s.finished
      ?_ ?_ ?_ ?_ ?_ ?_ ?_
    · intro j r hj hc
      rcases get_set _ _ _ _ _ _ hp hj with ⟨e, -⟩ | ⟨-, e⟩
      · rw [e]; exact ho
      · exact h.owner j r e hc
    · intro j hj
      rw [ho, Option.some.injEq] at hj
      subst hj
      exact ⟨_, List.getElem?_set_self (List.getElem?_eq_some_iff.1 hp).1, rfl⟩
    · intro j m hj
      rcases get_set _ _ _ _ _ _ hp hj with ⟨-, e⟩ | ⟨-, e⟩
      · simp only [PC.reading.injEq] at e
        exact ⟨e, by omega⟩
      · exact h.reading j m e
    · intro j m hj
      rcases get_set _ _ _ _ _ _ hp hj with ⟨-, e⟩ | ⟨-, e⟩
      · simp at e
      · exact h.popping j m e
    · refine List.Perm.trans ?_ h.once
      exact List.Perm.append_right _ (List.Perm.append_left _ (flatMap_same _ _ _ _ _ hp rfl))
    · refine List.Perm.trans ?_ h.ended
      exact List.Perm.append_left _ (flatMap_same _ _ _ _ _ hp rfl)
    · intro j hj
      rcases hj with hj | hj
      · rcases get_set _ _ _ _ _ _ hp hj with ⟨-, e⟩ | ⟨-, e⟩
        · simp at e
        · exact h.empty j (Or.inl e)
      · rcases get_set _ _ _ _ _ _ hp hj with ⟨-, e⟩ | ⟨-, e⟩
        · simp at e
        · exact h.empty j (Or.inr e)
  | read i m t hp hq =>
    have ho := h.owner i _ hp rfl
    obtain ⟨hm, hm0⟩ := h.reading i m hp
    refine h.worker i (.reading m) (.popping t) hp (by simp) (by simp) (by simp) s.lock s.queue s.started s.finished
      ?_ ?_ ?_ ?_ ?_ ?_ ?_
    · intro j r hj hc
      rcases get_set _ _ _ _ _ _ hp hj with ⟨e, -⟩ | ⟨-, e⟩
      · rw [e]; exact ho
      · exact h.owner j r e hc
    · intro j hj
      rw [ho, Option.some.injEq] at hj
      subst hj
      exact ⟨_, List.getElem?_set_self (List.getElem?_eq_some_iff.1 hp).1, rfl⟩
    · intro j m hj
      rcases get_set _ _ _ _ _ _ hp hj with ⟨-, e⟩ | ⟨-, e⟩
      · simp at e
      · exact h.reading j m e
    · intro j t' hj
      rcases get_set _ _ _ _ _ _ hp hj with ⟨-, e⟩ | ⟨-, e⟩
      · simp only [PC.popping.injEq] at e
        subst e
        have hne : s.queue ≠ [] := by
          intro e0; rw [e0] at hm; simp at hm; omega
        refine ⟨s.queue.dropLast, ?_⟩
        rw [hm, ← List.getLast?_eq_getElem?] at hq
        rw [List.getLast?_eq_some_getLast hne, Option.some.injEq] at hq
        rw [← hq, List.dropLast_concat_getLast]
      · exact h.popping j t' e
    · refine List.Perm.trans ?_ h.once
      exact List.Perm.append_right _ (List.Perm.append_left _ (flatMap_same _ _ _ _ _ hp rfl))
    · refine List.Perm.trans ?_ h.ended
      exact List.Perm.append_left _ (flatMap_same _ _ _ _ _ hp rfl)
    · intro j hj
      rcases hj with hj | hj
      · rcases get_set _ _ _ _ _ _ hp hj with ⟨-, e⟩ | ⟨-, e⟩
        · simp at e
        · exact h.empty j (Or.inl e)
      · rcases get_set _ _ _ _ _ _ hp hj with ⟨-, e⟩ | ⟨-, e⟩
        · simp at e
        · exact h.empty j (Or.inr e)
  | readFault i m hp hq =>
    obtain ⟨hm, hm0⟩ := h.reading i m hp
    rw [List.getElem?_eq_none_iff] at hq
    omega
  | pop i t hp hq =>
    have ho := h.owner i _ hp rfl
    obtain ⟨q, hqt⟩ := h.popping i t hp
    refine h.worker i (.popping t) (.unlocking t) hp (by simp) (by simp) (by simp) s.lock s.queue.dropLast s.started s.finished
      ?_ ?_ ?_ ?_ ?_ ?_ ?_
    · intro j r hj hc
      rcases get_set _ _ _ _ _ _ hp hj with ⟨e, -⟩ | ⟨-, e⟩
      · rw [e]; exact ho
      · exact h.owner j r e hc
    · intro j hj
      rw [ho, Option.some.injEq] at hj
      subst hj
      exact ⟨_, List.getElem?_set_self (List.getElem?_eq_some_iff.1 hp).1, rfl⟩
    · intro j m hj
      rcases get_set _ _ _ _ _ _ hp hj with ⟨-, e⟩ | ⟨hne, e⟩
      · simp at e
      · exact absurd (h.alone hp e rfl rfl).symm hne
    · intro j m hj
      rcases get_set _ _ _ _ _ _ hp hj with ⟨-, e⟩ | ⟨hne, e⟩
      · simp at e
      · exact absurd (h.alone hp e rfl rfl).symm hne
    · obtain ⟨rest, r1, r2⟩ := flatMap_set PC.held s.pcs i _ hp
      have ho := h.once
      have r2 := r2 (.unlocking t)
      simp only [PC.held, List.nil_append] at r1 r2
      rw [hqt, List.dropLast_concat]
      rw [hqt] at ho
      rw [List.perm_iff_count] at r1 r2 ho ⊢
      intro a
      have a1 := r1 a
      have a2 := r2 a
      have a3 := ho a
      simp only [List.count_append] at a1 a2 a3 ⊢
      omega
    · refine List.Perm.trans ?_ h.ended
      exact List.Perm.append_left _ (flatMap_same _ _ _ _ _ hp rfl)
    · intro j hj
      have : s.queue = [] := by
        rcases hj with hj | hj
        · rcases get_set _ _ _ _ _ _ hp hj with ⟨-, e⟩ | ⟨-, e⟩
          · simp at e
          · exact h.empty j (Or.inl e)
        · rcases get_set _ _ _ _ _ _ hp hj with ⟨-, e⟩ | ⟨-, e⟩
          · simp at e
          · exact h.empty j (Or.inr e)
      rw [this]; rfl
  | popFault i t hp hq =>
    obtain ⟨q, hqt⟩ := h.popping i t hp
    rw [hqt] at hq
    simp at hq
  | unlock i t hp =>
    have ho := h.owner i _ hp rfl
    refine h.worker i (.unlocking t) (.running t) hp (by simp) (by simp) (by simp) none s.queue (s.started ++ [t]) s.finished
      ?_ ?_ ?_ ?_ ?_ ?_ ?_
    · intro j r hj hc
      rcases get_set _ _ _ _ _ _ hp hj with ⟨-, e⟩ | ⟨hne, e⟩
      · rw [e] at hc; simp [PC.critical] at hc
      · exact absurd (h.alone hp e rfl hc).symm hne
    · intro j hj; simp at hj
    · intro j m hj
      rcases get_set _ _ _ _ _ _ hp hj with ⟨-, e⟩ | ⟨hne, e⟩
      · simp at e
      · exact h.reading j m e
    · intro j m hj
      rcases get_set _ _ _ _ _ _ hp hj with ⟨-, e⟩ | ⟨hne, e⟩
      · simp at e
      · exact h.popping j m e
    · obtain ⟨rest, r1, r2⟩ := flatMap_set PC.held s.pcs i _ hp
      have ho := h.once
      have r2 := r2 (.running t)
      simp only [PC.held, List.nil_append] at r1 r2
      rw [List.perm_iff_count] at r1 r2 ho ⊢
      intro a
      have a1 := r1 a
      have a2 := r2 a
      have a3 := ho a
      simp only [List.count_append] at a1 a2 a3 ⊢
      omega
    · obtain ⟨rest, r1, r2⟩ := flatMap_set PC.busy s.pcs i _ hp
      have ho := h.ended
      have r2 := r2 (.running t)
      simp only [PC.busy, List.nil_append] at r1 r2
      rw [List.perm_iff_count] at r1 r2 ho ⊢
      intro a
      have a1 := r1 a
      have a2 := r2 a
      have a3 := ho a
      simp only [List.count_append] at a1 a2 a3 ⊢
      omega
    · intro j hj
      rcases hj with hj | hj
      · rcases get_set _ _ _ _ _ _ hp hj with ⟨-, e⟩ | ⟨-, e⟩
        · simp at e
        · exact h.empty j (Or.inl e)
      · rcases get_set _ _ _ _ _ _ hp hj with ⟨-, e⟩ | ⟨-, e⟩
        · simp at e
        · exact h.empty j (Or.inr e)
  | finish i t hp =>
    refine h.worker i (.running t) .locking hp (by simp) (by simp) (by simp) s.lock s.queue s.started (s.finished ++ [t])
      ?_ ?_ ?_ ?_ ?_ ?_ ?_
    · intro j r hj hc
      rcases get_set _ _ _ _ _ _ hp hj with ⟨-, e⟩ | ⟨-, e⟩
      · rw [e] at hc; simp [PC.critical] at hc
      · exact h.owner j r e hc
    · intro j hj
      obtain ⟨p, e1, e2⟩ := h.owned j hj
      refine ⟨p, ?_, e2⟩
      rw [List.getElem?_set_ne, e1]
      rintro rfl
      rw [hp, Option.some.injEq] at e1
      rw [← e1] at e2
      simp [PC.critical] at e2
    · intro j m hj
      rcases get_set _ _ _ _ _ _ hp hj with ⟨-, e⟩ | ⟨hne, e⟩
      · simp at e
      · exact h.reading j m e
    · intro j m hj
      rcases get_set _ _ _ _ _ _ hp hj with ⟨-, e⟩ | ⟨hne, e⟩
      · simp at e
      · exact h.popping j m e
    · refine List.Perm.trans ?_ h.once
      exact List.Perm.append_right _ (List.Perm.append_left _ (flatMap_same _ _ _ _ _ hp rfl))
    · obtain ⟨rest, r1, r2⟩ := flatMap_set PC.busy s.pcs i _ hp
      have ho := h.ended
      have r2 := r2 .locking
      simp only [PC.busy, List.nil_append] at r1 r2
      rw [List.perm_iff_count] at r1 r2 ho ⊢
      intro a
      have a1 := r1 a
      have a2 := r2 a
      have a3 := ho a
      simp only [List.count_append] at a1 a2 a3 ⊢
      omega
    · intro j hj
      rcases hj with hj | hj
      · rcases get_set _ _ _ _ _ _ hp hj with ⟨-, e⟩ | ⟨-, e⟩
        · simp at e
        · exact h.empty j (Or.inl e)
      · rcases get_set _ _ _ _ _ _ hp hj with ⟨-, e⟩ | ⟨-, e⟩
        · simp at e
        · exact h.empty j (Or.inr e)
  | leave i hp =>
    have hq := h.empty i (Or.inl hp)
    refine h.worker i .leaving .exited hp (by simp) (by simp) (by simp) none s.queue s.started s.finished
      ?_ ?_ ?_ ?_ ?_ ?_ ?_
    · intro j r hj hc
      rcases get_set _ _ _ _ _ _ hp hj with ⟨-, e⟩ | ⟨hne, e⟩
      · rw [e] at hc; simp [PC.critical] at hc
      · exact absurd (h.alone hp e rfl hc).symm hne
    · intro j hj; simp at hj
    · intro j m hj
      rcases get_set _ _ _ _ _ _ hp hj with ⟨-, e⟩ | ⟨hne, e⟩
      · simp at e
      · exact h.reading j m e
    · intro j m hj
      rcases get_set _ _ _ _ _ _ hp hj with ⟨-, e⟩ | ⟨hne, e⟩
      · simp at e
      · exact h.popping j m e
    · refine List.Perm.trans ?_ h.once
      exact List.Perm.append_right _ (List.Perm.append_left _ (flatMap_same _ _ _ _ _ hp rfl))
    · refine List.Perm.trans ?_ h.ended
      exact List.Perm.append_left _ (flatMap_same _ _ _ _ _ hp rfl)
    · intro _ _; exact hq

theorem inv_exec (n : Nat) (tasks : List α) (k : Nat) (s : State α) (h : Exec (init n tasks) k s) : Inv n tasks s := by
  have : ∀ (a : State α), Exec a k s → a = init n tasks → Inv n tasks s := by
    intro a ha
    induction ha with
    | refl => rintro rfl; exact inv_init n tasks
    | step _ h2 ih => intro e; exact inv_step n tasks _ _ (ih (e ▸ by assumption) e) h2
  exact this _ h rfl

/-! ## Progress and termination -/

theorem progress (n : Nat) (tasks : List α) (s : State α) (h : Inv n tasks s) (hm : s.main ≠ .returned) : ∃ t, Step s t := by
  -- some worker can move, or all of them have exited or were not created
  by_cases hlock : ∃ i, s.lock = some i
  · obtain ⟨i, hi⟩ := hlock
    obtain ⟨p, hp, hc⟩ := h.owned i hi
    cases p with
    | counting =>
      by_cases hq : s.queue.length = 0
      · exact ⟨_, .countEmpty s i hp hq⟩
      · exact ⟨_, .count s i hp hq⟩
    | reading m =>
      cases hq : s.queue[m - 1]? with
      | none => exact ⟨_, .readFault s i m hp hq⟩
      | some t => exact ⟨_, .read s i m t hp hq⟩
    | popping t =>
      by_cases hq : s.queue.length = 0
      · exact ⟨_, .popFault s i t hp hq⟩
      · exact ⟨_, .pop s i t hp hq⟩
    | unlocking t => exact ⟨_, .unlock s i t hp⟩
    | leaving => exact ⟨_, .leave s i hp⟩
    | notCreated => simp [PC.critical] at hc
    | locking => simp [PC.critical] at hc
    | running t => simp [PC.critical] at hc
    | exited => simp [PC.critical] at hc
  · have hnone : s.lock = none := by
      cases hl : s.lock with
      | none => rfl
      | some i => exact absurd ⟨i, hl⟩ hlock
    cases hmain : s.main with
    | returned => exact absurd hmain hm
    | creating k =>
      obtain ⟨g1, -⟩ := h.creating k hmain
      by_cases hk : k < s.pcs.length
      · exact ⟨_, .create s k hmain hk⟩
      · have : k = s.pcs.length := by rw [h.len] at hk ⊢; omega
        exact ⟨_, .created s (this ▸ hmain)⟩
    | joining k =>
      obtain ⟨g1, g2, -⟩ := h.joining k hmain
      by_cases hk : k < s.pcs.length
      · have hp : s.pcs[k]? = some s.pcs[k] := List.getElem?_eq_getElem hk
        generalize s.pcs[k] = p at hp
        cases p with
        | notCreated => exact absurd hp (g2 k)
        | locking => exact ⟨_, .lock s k hp hnone⟩
        | running t => exact ⟨_, .finish s k t hp⟩
        | exited => exact ⟨_, .join s k hmain hp⟩
        | counting => have := h.owner k _ hp rfl; rw [hnone] at this; simp at this
        | reading m => have := h.owner k _ hp rfl; rw [hnone] at this; simp at this
        | popping t => have := h.owner k _ hp rfl; rw [hnone] at this; simp at this
        | unlocking t => have := h.owner k _ hp rfl; rw [hnone] at this; simp at this
        | leaving => have := h.owner k _ hp rfl; rw [hnone] at this; simp at this
      · have : k = s.pcs.length := by rw [h.len] at hk ⊢; omega
        exact ⟨_, .joined s (this ▸ hmain)⟩

/-- Steps a worker can still make without taking another task. -/
def PC.weight : PC α → Nat
  | .notCreated => 4
  | .locking => 3
  | .counting => 2
  | .reading _ => 1
  | .popping _ => 0
  | .unlocking _ => 5
  | .running _ => 4
  | .leaving => 1
  | .exited => 0

def Main.weight (n : Nat) : Main → Nat
  | .creating k => (n - k) + n + 2
  | .joining k => (n - k) + 1
  | .returned => 0

/-- Bound on the steps left. -/
def measure (s : State α) : Nat := 6 * s.queue.length + (s.pcs.map PC.weight).sum + s.main.weight s.pcs.length

theorem weight_set (l : List (PC α)) (i : Nat) (x y : PC α) (h : l[i]? = some x) :
    ((l.set i y).map PC.weight).sum + x.weight = (l.map PC.weight).sum + y.weight := by
  obtain ⟨a, b, h1, h2⟩ := split_at l i x h
  rw [h2 y]
  conv => rhs; rw [h1]
  simp only [List.map_append, List.map_cons, List.sum_append, List.sum_cons]
  omega

theorem step_measure (n : Nat) (tasks : List α) (s t : State α) (h : Inv n tasks s) (hs : Step s t) : measure t < measure s := by
  have hinv := inv_step n tasks s t h hs
  cases hs with
  | create k hm hk =>
    have hp := (h.creating k hm).2 k (Nat.le_refl _) (by rw [← h.len]; exact hk)
    have := weight_set s.pcs k _ .locking hp
    simp only [measure, hm, Main.weight, List.length_set, PC.weight] at this ⊢
    omega
  | created hm => simp only [measure, hm, Main.weight]; omega
  | join k hm hk =>
    have := (List.getElem?_eq_some_iff.1 hk).1
    simp only [measure, hm, Main.weight]; omega
  | joined hm => simp only [measure, hm, Main.weight]; omega
  | lock i hp hl =>
    have := weight_set s.pcs i _ .counting hp
    simp only [measure, List.length_set, PC.weight] at this ⊢; omega
  | countEmpty i hp hq =>
    have := weight_set s.pcs i _ .leaving hp
    simp only [measure, List.length_set, PC.weight] at this ⊢; omega
  | count i hp hq =>
    have := weight_set s.pcs i _ (.reading s.queue.length) hp
    simp only [measure, List.length_set, PC.weight] at this ⊢; omega
  | read i m t hp hq =>
    have := weight_set s.pcs i _ (.popping t) hp
    simp only [measure, List.length_set, PC.weight] at this ⊢; omega
  | readFault i m hp hq => have := hinv.noFault; simp at this
  | pop i t hp hq =>
    have := weight_set s.pcs i _ (.unlocking t) hp
    simp only [measure, List.length_set, PC.weight, List.length_dropLast] at this ⊢; omega
  | popFault i t hp hq => have := hinv.noFault; simp at this
  | unlock i t hp =>
    have := weight_set s.pcs i _ (.running t) hp
    simp only [measure, List.length_set, PC.weight] at this ⊢; omega
  | finish i t hp =>
    have := weight_set s.pcs i _ .locking hp
    simp only [measure, List.length_set, PC.weight] at this ⊢; omega
  | leave i hp =>
    have := weight_set s.pcs i _ .exited hp
    simp only [measure, List.length_set, PC.weight] at this ⊢; omega

theorem exec_measure (n : Nat) (tasks : List α) (k : Nat) (s : State α) (h : Exec (init n tasks) k s) :
    k + measure s ≤ measure (init n tasks) := by
  have : ∀ (a : State α), Exec a k s → a = init n tasks → k + measure s ≤ measure a := by
    intro a ha
    induction ha with
    | refl => rintro rfl; omega
    | step h1 h2 ih =>
      intro e
      have := ih (e ▸ h1) e
      have := step_measure n tasks _ _ (inv_exec n tasks _ _ (e ▸ h1)) h2
      omega
  exact this _ h rfl

/-! ## The Windows version -/

/-- Waiting for all is joining one after the other. -/
theorem joins (a s : State α) (k0 : Nat) (h : Exec a k0 s) (hm : s.main = .joining 0) (he : ∀ p ∈ s.pcs, p = .exited) :
    ∃ k, Exec a k { s with main := .returned } := by
  have hj : ∀ m, m ≤ s.pcs.length → ∃ k, Exec a k { s with main := .joining m } := by
    intro m
    induction m with
    | zero => intro _; exact ⟨k0, by rw [← hm]; exact h⟩
    | succ m ih =>
      intro hml
      obtain ⟨k, hk⟩ := ih (by omega)
      refine ⟨k + 1, hk.step (.join { s with main := .joining m } m rfl ?_)⟩
      have := he _ (List.getElem_mem (show m < s.pcs.length by omega))
      show s.pcs[m]? = _
      rw [List.getElem?_eq_getElem (by omega), this]
  obtain ⟨k, hk⟩ := hj s.pcs.length (Nat.le_refl _)
  exact ⟨k + 1, hk.step (.joined { s with main := .joining s.pcs.length } rfl)⟩

theorem pcs_length {s t : State α} (h : Step s t) : t.pcs.length = s.pcs.length := by
  cases h <;> simp

theorem win_sim (n : Nat) (tasks : List α) (s : State α) (hn : n ≤ 64) (h : ExecWin (init n tasks) s) :
    ∃ k, Exec (init n tasks) k s := by
  have : ∀ a : State α, ExecWin a s → a = init n tasks → ∃ k, Exec a k s := by
    intro a ha
    induction ha with
    | refl => intro _; exact ⟨0, .refl _⟩
    | step h1 h2 ih =>
      intro e
      obtain ⟨k, hk⟩ := ih (e ▸ h1) e
      cases h2 with
      | other _ h _ => exact ⟨k + 1, hk.step h⟩
      | wait hm _ he => exact joins _ _ k hk hm he
      | waitFailed hm hgt =>
        have := (inv_exec n tasks k _ (e ▸ hk)).len
        omega
  exact this _ h rfl

/-- All workers created, none has moved. -/
theorem win_created (n : Nat) (tasks : List α) : ∀ k, k ≤ n →
    ExecWin (init n tasks) ⟨.creating k, List.replicate k .locking ++ List.replicate (n - k) .notCreated, none, tasks, [], [], false⟩ := by
  intro k
  induction k with
  | zero => intro _; exact .refl _
  | succ k ih =>
    intro hk
    have h := ih (by omega)
    refine h.step ?_
    have hs := Step.create (α := α)
      ⟨.creating k, List.replicate k .locking ++ List.replicate (n - k) .notCreated, none, tasks, [], [], false⟩ k rfl (by simp; omega)
    have hset : (List.replicate k (PC.locking (α := α)) ++ List.replicate (n - k) PC.notCreated).set k PC.locking =
        List.replicate (k + 1) .locking ++ List.replicate (n - (k + 1)) .notCreated := by
      rw [show n - k = (n - (k + 1)) + 1 by omega, List.replicate_succ, List.set_append_right _ _ (by simp),
        List.length_replicate, Nat.sub_self, List.set_cons_zero, List.replicate_succ', List.append_assoc]
      rfl
    refine .other _ _ (by rw [← hset]; exact hs) (fun _ hk' => by simp at hk')

end C3.TaskQueue
