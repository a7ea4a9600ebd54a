import Verif.Lexer.Model

/-! # Moving through the source -/

set_option autoImplicit false

namespace C3.Lexer

theorem rd_some (src : Src) {i : Nat} (h : i ≤ src.length) : ∃ c, rd src i = some c := by
  unfold rd
  split
  · rename_i h'; exact ⟨src[i], by simp [h']⟩
  · rw [if_pos (by omega)]; exact ⟨0, rfl⟩

theorem rd_lt (src : Src) {i c : Nat} (h : rd src i = some c) (hc : c ≠ 0) : i < src.length := by
  unfold rd at h
  split at h
  · assumption
  · split at h
    · simp at h; omega
    · simp at h

theorem rd_le (src : Src) {i c : Nat} (h : rd src i = some c) : i ≤ src.length := by
  unfold rd at h
  split at h
  · omega
  · split at h
    · omega
    · simp at h

theorem rd_get (src : Src) {i : Nat} (h : i < src.length) : rd src i = src[i]? := by
  unfold rd; rw [if_pos h]

theorem rd_end (src : Src) : rd src src.length = some 0 := by
  unfold rd; simp

theorem rd_getElem (src : Src) {i : Nat} (h : i < src.length) : rd src i = some src[i] := by
  rw [rd_get src h]; simp [h]

/-- The text has no zero byte: its end is where a zero is read. -/
def NoNul (src : Src) : Prop := ∀ c ∈ src, c ≠ 0

theorem rd_zero {src : Src} (hz : NoNul src) {i : Nat} (h : rd src i = some 0) : i = src.length := by
  rcases Nat.lt_or_ge i src.length with hi | hi
  · rw [rd_getElem src hi] at h
    exact absurd (Option.some.inj h) (hz _ (List.getElem_mem hi))
  · have := rd_le src h; omega

/-- One character further. -/
def adv1 (src : Src) (l : Lx) : Lx :=
  if src[l.pos]? = some (ch '\n') then { l with pos := l.pos + 1, lineStart := l.pos + 1, row := l.row + 1 }
  else { l with pos := l.pos + 1 }

def advN (src : Src) (l : Lx) : Nat → Lx
  | 0 => l
  | k + 1 => advN src (adv1 src l) k

@[simp] theorem adv1_pos (src : Src) (l : Lx) : (adv1 src l).pos = l.pos + 1 := by unfold adv1; split <;> rfl
@[simp] theorem adv1_start (src : Src) (l : Lx) : (adv1 src l).start = l.start := by unfold adv1; split <;> rfl
@[simp] theorem adv1_startRow (src : Src) (l : Lx) : (adv1 src l).startRow = l.startRow := by unfold adv1; split <;> rfl
@[simp] theorem adv1_startRowStart (src : Src) (l : Lx) : (adv1 src l).startRowStart = l.startRowStart := by
  unfold adv1; split <;> rfl
@[simp] theorem adv1_contracts (src : Src) (l : Lx) : (adv1 src l).contracts = l.contracts := by
  unfold adv1; split <;> rfl

@[simp] theorem advN_pos (src : Src) (k : Nat) : ∀ l, (advN src l k).pos = l.pos + k := by
  induction k with
  | zero => intro l; rfl
  | succ k ih => intro l; simp only [advN, ih, adv1_pos]; omega
@[simp] theorem advN_start (src : Src) (k : Nat) : ∀ l, (advN src l k).start = l.start := by
  induction k with
  | zero => intro l; rfl
  | succ k ih => intro l; simp only [advN, ih, adv1_start]
@[simp] theorem advN_startRow (src : Src) (k : Nat) : ∀ l, (advN src l k).startRow = l.startRow := by
  induction k with
  | zero => intro l; rfl
  | succ k ih => intro l; simp only [advN, ih, adv1_startRow]
@[simp] theorem advN_startRowStart (src : Src) (k : Nat) : ∀ l, (advN src l k).startRowStart = l.startRowStart := by
  induction k with
  | zero => intro l; rfl
  | succ k ih => intro l; simp only [advN, ih, adv1_startRowStart]
@[simp] theorem advN_contracts (src : Src) (k : Nat) : ∀ l, (advN src l k).contracts = l.contracts := by
  induction k with
  | zero => intro l; rfl
  | succ k ih => intro l; simp only [advN, ih, adv1_contracts]

theorem advN_add (src : Src) (a : Nat) : ∀ (l : Lx) (b : Nat), advN src (advN src l a) b = advN src l (a + b) := by
  induction a with
  | zero => intro l b; simp [advN]
  | succ a ih => intro l b; rw [show a + 1 + b = (a + b) + 1 by omega]; simp only [advN]; exact ih _ _

theorem advN_adv1 (src : Src) (l : Lx) (a : Nat) : adv1 src (advN src l a) = advN src l (a + 1) := by
  rw [← advN_add]; rfl

theorem next_eq (src : Src) {l : Lx} (h : l.pos ≤ src.length) : next src l = some (adv1 src l) := by
  unfold next peek adv1
  rcases Nat.lt_or_ge l.pos src.length with h' | h'
  · rw [rd_getElem src h']
    simp only [Option.bind_eq_bind, Option.bind_some, List.getElem?_eq_getElem h', Option.some.injEq]
    split <;> rfl
  · have : l.pos = src.length := by omega
    rw [this, rd_end, List.getElem?_eq_none (by omega)]
    simp [ch]

theorem skip_eq (src : Src) (k : Nat) : ∀ {l : Lx}, l.pos + k ≤ src.length + 1 → skip src l k = some (advN src l k) := by
  induction k with
  | zero => intro l _; rfl
  | succ k ih =>
    intro l h
    simp only [skip, next_eq src (show l.pos ≤ src.length by omega), Option.bind_eq_bind, Option.bind_some, advN]
    exact ih (by simp; omega)

/-- Going back over a character that is no line break undoes `next`. -/
theorem backtrack_adv1 (src : Src) {l : Lx} (h : l.pos ≤ src.length) (hc : rd src l.pos ≠ some (ch '\n')) :
    backtrack src (adv1 src l) = some l := by
  obtain ⟨c, hrd⟩ := rd_some src h
  have hne : c ≠ ch '\n' := by intro e; exact hc (by rw [hrd, e])
  have hget : src[l.pos]? ≠ some (ch '\n') := by
    intro e
    have : l.pos < src.length := by
      rcases Nat.lt_or_ge l.pos src.length with h' | h'
      · exact h'
      · rw [List.getElem?_eq_none h'] at e; cases e
    rw [rd_get src this, e] at hrd
    exact hne (Option.some.inj hrd).symm
  unfold backtrack adv1
  simp [hget, hrd, hne]

theorem backtrack_pos (src : Src) {l : Lx} (h0 : l.pos ≠ 0) (h : l.pos ≤ src.length + 1) :
    ∃ l', backtrack src l = some l' ∧ l'.pos + 1 = l.pos ∧ l'.start = l.start := by
  obtain ⟨c, hrd⟩ := rd_some src (show l.pos - 1 ≤ src.length by omega)
  unfold backtrack
  simp [h0, hrd]
  omega

/-- `l'` is `l` moved forward inside the text. -/
def Adv (src : Src) (l l' : Lx) : Prop := ∃ k, l.pos + k ≤ src.length ∧ l' = advN src l k

theorem Adv.refl {src : Src} {l : Lx} (h : l.pos ≤ src.length) : Adv src l l := ⟨0, h, rfl⟩
theorem Adv.one {src : Src} {l : Lx} (h : l.pos < src.length) : Adv src l (adv1 src l) := ⟨1, h, rfl⟩
theorem Adv.trans {src : Src} {a b c : Lx} (h : Adv src a b) (h' : Adv src b c) : Adv src a c := by
  obtain ⟨k, hk, rfl⟩ := h
  obtain ⟨m, hm, rfl⟩ := h'
  refine ⟨k + m, ?_, by rw [advN_add]⟩
  simp only [advN_pos] at hm; omega
theorem Adv.head {src : Src} {a c : Lx} (h : a.pos < src.length) (h' : Adv src (adv1 src a) c) : Adv src a c :=
  (Adv.one h).trans h'
theorem Adv.le {src : Src} {a b : Lx} (h : Adv src a b) : a.pos ≤ b.pos := by
  obtain ⟨k, hk, rfl⟩ := h; simp
theorem Adv.bound {src : Src} {a b : Lx} (h : Adv src a b) : b.pos ≤ src.length := by
  obtain ⟨k, hk, rfl⟩ := h; simpa using hk
theorem Adv.start {src : Src} {a b : Lx} (h : Adv src a b) : b.start = a.start := by
  obtain ⟨k, hk, rfl⟩ := h; simp
theorem Adv.contracts {src : Src} {a b : Lx} (h : Adv src a b) : b.contracts = a.contracts := by
  obtain ⟨k, hk, rfl⟩ := h; simp
theorem Adv.eq {src : Src} {a b : Lx} (h : Adv src a b) : b = advN src a (b.pos - a.pos) := by
  obtain ⟨k, hk, rfl⟩ := h; simp

theorem accept_eq (src : Src) {l : Lx} (c : Nat) (hc : c ≠ 0) (h : l.pos ≤ src.length) :
    (rd src l.pos = some c ∧ l.pos < src.length ∧ accept src l c = some (adv1 src l, true)) ∨
    (rd src l.pos ≠ some c ∧ accept src l c = some (l, false)) := by
  obtain ⟨d, hd⟩ := rd_some src h
  unfold accept peek
  by_cases e : d = c
  · subst e
    exact .inl ⟨hd, rd_lt src hd hc, by simp [hd, next_eq src h]⟩
  · exact .inr ⟨by rw [hd]; intro e'; exact e (Option.some.inj e'), by simp [hd, e]⟩

/-- `skipWhile` stops at the first character outside the class. -/
theorem skipWhile_eq (src : Src) (p : Nat → Bool) (h0 : p 0 = false) (m : Nat) :
    ∀ {l : Lx}, l.pos ≤ src.length → src.length - l.pos = m →
      ∃ k, l.pos + k ≤ src.length ∧ skipWhile src p l = some (advN src l k) ∧
        (∀ i < k, ∃ c, rd src (l.pos + i) = some c ∧ p c = true) ∧
        (∃ c, rd src (l.pos + k) = some c ∧ p c = false) := by
  induction m with
  | zero =>
    intro l h hm
    have : l.pos = src.length := by omega
    refine ⟨0, by omega, ?_, by omega, 0, by rw [Nat.add_zero, this, rd_end], h0⟩
    rw [skipWhile]; simp [peek, this, rd_end, h0, advN]
  | succ m ih =>
    intro l h hm
    obtain ⟨c, hc⟩ := rd_some src h
    rw [skipWhile]
    cases hp : p c with
    | false => exact ⟨0, by omega, by simp [peek, hc, hp, advN], by omega, c, hc, hp⟩
    | true =>
      obtain ⟨k, hk, he, hall, hstop⟩ := ih (l := adv1 src l) (by simp; omega) (by simp; omega)
      simp only [adv1_pos] at hk hall hstop
      refine ⟨k + 1, by omega, ?_, ?_, ?_⟩
      · simp only [peek, hc, hp, Option.bind_eq_bind, Option.bind_some, if_true, next_eq src h, he, advN]
      · intro i hi
        cases i with
        | zero => exact ⟨c, hc, hp⟩
        | succ i => have := hall i (by omega); rwa [show l.pos + (i + 1) = l.pos + 1 + i by omega]
      · rwa [show l.pos + (k + 1) = l.pos + 1 + k by omega]

theorem skipWhile_adv (src : Src) (p : Nat → Bool) (h0 : p 0 = false) {l : Lx} (h : l.pos ≤ src.length) :
    ∃ l', skipWhile src p l = some l' ∧ Adv src l l' := by
  obtain ⟨k, hk, he, -⟩ := skipWhile_eq src p h0 _ h rfl
  exact ⟨_, he, k, hk, rfl⟩

end C3.Lexer
