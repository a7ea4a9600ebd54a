import Verif.Layout.Spec

/-!
# Arithmetic of alignment, and the loop without overflow
-/

set_option autoImplicit false

namespace C3.Layout

open Spec

theorem Spec.Pow2.pos {a : Nat} (h : Pow2 a) : 0 < a := by
  obtain ⟨k, rfl⟩ := h
  exact Nat.two_pow_pos k

theorem Spec.Pow2.dvd {a b : Nat} (ha : Pow2 a) (hb : Pow2 b) (h : a ≤ b) : a ∣ b := by
  obtain ⟨k, rfl⟩ := ha
  obtain ⟨l, rfl⟩ := hb
  exact Nat.pow_dvd_pow 2 ((Nat.pow_le_pow_iff_right (by omega)).1 h)

theorem pow2_one : Pow2 1 := ⟨0, rfl⟩

theorem pow2_max {a b : Nat} (ha : Pow2 a) (hb : Pow2 b) : Pow2 (max a b) := by
  rcases Nat.le_total a b with h | h
  · rwa [Nat.max_eq_right h]
  · rwa [Nat.max_eq_left h]

theorem le_roundUp (n a : Nat) (ha : 0 < a) : n ≤ roundUp n a := by
  unfold roundUp
  have h1 := Nat.div_add_mod (n + (a - 1)) a
  have h2 := Nat.mod_lt (n + (a - 1)) ha
  rw [Nat.mul_comm]
  omega

theorem roundUp_lt (n a : Nat) (ha : 0 < a) : roundUp n a < n + a := by
  unfold roundUp
  have h1 := Nat.div_add_mod (n + (a - 1)) a
  rw [Nat.mul_comm]
  omega

theorem dvd_roundUp (n a : Nat) : a ∣ roundUp n a := ⟨_, Nat.mul_comm _ _⟩

theorem roundUp_le (n a x : Nat) (ha : 0 < a) (hn : n ≤ x) (hd : a ∣ x) : roundUp n a ≤ x := by
  obtain ⟨k, rfl⟩ := hd
  obtain ⟨j, hj⟩ := dvd_roundUp n a
  have h1 := roundUp_lt n a ha
  rw [hj] at h1 ⊢
  apply Nat.mul_le_mul_left
  by_cases hjk : j ≤ k
  · exact hjk
  · have : a * (k + 1) ≤ a * j := Nat.mul_le_mul_left a (by omega)
    rw [Nat.mul_add] at this
    omega

theorem firstFrom_iff (n a x : Nat) (ha : 0 < a) : FirstFrom n a x ↔ x = roundUp n a := by
  constructor
  · rintro ⟨h1, h2, h3⟩
    exact Nat.le_antisymm (h3 _ (le_roundUp n a ha) (dvd_roundUp n a)) (roundUp_le n a x ha h1 h2)
  · rintro rfl
    exact ⟨le_roundUp n a ha, dvd_roundUp n a, fun y h1 h2 => roundUp_le n a y ha h1 h2⟩

theorem roundUp_of_dvd (n a : Nat) (ha : 0 < a) (h : a ∣ n) : roundUp n a = n :=
  Nat.le_antisymm (roundUp_le n a n ha (Nat.le_refl _) h) (le_roundUp n a ha)

theorem roundUp_one (n : Nat) : roundUp n 1 = n := by simp [roundUp]

theorem roundUp_mono (n a b : Nat) (ha : Pow2 a) (hb : Pow2 b) (h : a ≤ b) : roundUp n a ≤ roundUp n b :=
  roundUp_le n a _ ha.pos (le_roundUp n b hb.pos) (Nat.dvd_trans (ha.dvd hb h) (dvd_roundUp n b))

theorem roundUp_mono_left (n m a : Nat) (ha : 0 < a) (h : n ≤ m) : roundUp n a ≤ roundUp m a :=
  roundUp_le n a _ ha (Nat.le_trans h (le_roundUp m a ha)) (dvd_roundUp m a)

theorem u32_of_lt {n : Nat} (h : n < 2 ^ 32) : u32 n = n := Nat.mod_eq_of_lt h

theorem alignedOffset_eq (n a : Nat) (ha : 0 < a) (h : n + a ≤ 2 ^ 32) : alignedOffset n a = some (roundUp n a) := by
  unfold alignedOffset roundUp
  rw [if_neg (by omega), u32_of_lt (n := n + (a - 1)) (by omega), u32_of_lt]
  have := Nat.div_mul_le_self (n + (a - 1)) a
  omega

/-- For powers of two it is enough that the result fits. -/
theorem alignedOffset_pow2 (n a : Nat) (ha : Pow2 a) (h : roundUp n a < 2 ^ 32) :
    alignedOffset n a = some (roundUp n a) := by
  have ha0 := ha.pos
  have hle := le_roundUp n a ha0
  by_cases h32 : a ≤ 2 ^ 32
  · refine alignedOffset_eq n a ha0 ?_
    obtain ⟨j, hj⟩ := dvd_roundUp n a
    obtain ⟨k, hk⟩ := ha.dvd ⟨32, rfl⟩ h32
    rw [hj, hk] at h
    have hjk : j < k := Nat.lt_of_mul_lt_mul_left h
    have : a * (j + 1) ≤ a * k := Nat.mul_le_mul_left a hjk
    rw [← hk, Nat.mul_add, ← hj] at this
    omega
  · obtain ⟨j, hj⟩ := dvd_roundUp n a
    have hj0 : j = 0 := by
      rcases Nat.eq_zero_or_pos j with h0 | h0
      · exact h0
      · have : a * 1 ≤ a * j := Nat.mul_le_mul_left a h0
        omega
    have hn : n = 0 := by
      rw [hj0, Nat.mul_zero] at hj
      omega
    subst hn
    obtain ⟨k, rfl⟩ := ha
    have hk : 32 < k := by
      rcases Nat.lt_or_ge 32 k with hk | hk
      · exact hk
      · exact absurd (Nat.pow_le_pow_right (n := 2) (by omega) hk) h32
    unfold alignedOffset roundUp
    rw [if_neg (by omega)]
    have e1 : 0 + (2 ^ k - 1) = 2 ^ k - 1 := by omega
    rw [e1, Nat.div_eq_of_lt (by omega : 2 ^ k - 1 < 2 ^ k), Nat.div_eq_of_lt]
    · simp [u32]
    · exact Nat.lt_of_lt_of_le (Nat.mod_lt _ (by omega)) (by omega)

theorem required_pow2 {attrs : Attrs} {m : Member} (h1 : Pow2 m.abi) (h2 : m.given = 0 ∨ Pow2 m.given) :
    Pow2 (required attrs m) := by
  unfold required
  split
  · rcases h2 with h | h
    · omega
    · exact h
  · split
    · exact pow2_one
    · exact h1

/-- Where the members go. -/
def offsets (attrs : Attrs) : Nat → List Member → List Nat
  | _, [] => []
  | start, m :: ms => roundUp start (required attrs m) :: offsets attrs (roundUp start (required attrs m) + m.size) ms

def lastEnd (attrs : Attrs) : Nat → List Member → Nat
  | start, [] => start
  | start, m :: ms => lastEnd attrs (roundUp start (required attrs m) + m.size) ms

theorem placed_iff (attrs : Attrs) (start : Nat) (ms : List Member) (hv : ∀ m ∈ ms, 0 < required attrs m)
    (offs : List Nat) (last : Nat) :
    Placed attrs start ms offs last ↔ offs = offsets attrs start ms ∧ last = lastEnd attrs start ms := by
  induction ms generalizing start offs with
  | nil => simp [Placed, offsets, lastEnd]
  | cons m ms ih =>
    have h0 := hv m (by simp)
    have ih := fun s o => ih s (fun x hx => hv x (List.mem_cons_of_mem _ hx)) o
    simp only [Placed, offsets, lastEnd, firstFrom_iff _ _ _ h0, ih]
    constructor
    · rintro ⟨o, rest, rfl, rfl, rfl, rfl⟩
      exact ⟨rfl, rfl⟩
    · rintro ⟨rfl, rfl⟩
      exact ⟨_, _, rfl, rfl, rfl, rfl⟩

theorem le_lastEnd (attrs : Attrs) (start : Nat) (ms : List Member) (hv : ∀ m ∈ ms, 0 < required attrs m) :
    start ≤ lastEnd attrs start ms := by
  induction ms generalizing start with
  | nil => exact Nat.le_refl _
  | cons m ms ih =>
    have h1 := le_roundUp start _ (hv m (by simp))
    have h2 := ih (roundUp start (required attrs m) + m.size) fun x hx => hv x (List.mem_cons_of_mem _ hx)
    rw [lastEnd]
    omega

/-- A round of the loop without overflow. -/
def step (attrs : Attrs) (s : State) (m : Member) : State :=
  let o := roundUp s.offset (required attrs m)
  let n := roundUp s.offset m.natural
  { natural := max s.natural m.natural
    actual := max s.actual (required attrs m)
    unaligned := s.unaligned || (n ≠ o && m.natural > required attrs m)
    naturallyAligned := s.naturallyAligned && n = o
    offset := o + m.size
    alignment := max s.alignment m.given
    hole := s.hole || o ≠ s.offset || m.hole
    fields := s.fields ++ [⟨o, required attrs m, o - s.offset⟩] }

theorem ite_max (a b : Nat) : (if a > b then a else b) = max b a := by
  split <;> omega

/-- Which members are turned down. -/
def rejects (attrs : Attrs) (i count : Nat) (s : State) (m : Member) : Bool :=
  ((m.flexible || m.inferred) && i ≠ count - 1) || (!m.flexible && m.inferred && i = 0) ||
  (roundUp s.offset (required attrs m) ≠ s.offset && (attrs.nopadding || m.nopadding)) || (m.hole && attrs.compact)

theorem structMember_eq (attrs : Attrs) (i count : Nat) (s : State) (m : Member) (h1 : Pow2 m.abi)
    (h2 : m.given = 0 ∨ Pow2 m.given) (h3 : Pow2 m.natural)
    (hf : roundUp s.offset (required attrs m) + m.size + m.natural ≤ 2 ^ 32) :
    structMember attrs i count s m = some (if rejects attrs i count s m then none else some (step attrs s m)) := by
  have hr : Pow2 (required attrs m) := required_pow2 h1 h2
  have hrej : rejects attrs i count s m =
      (((m.flexible || m.inferred) && decide (i ≠ count - 1)) || (!m.flexible && m.inferred && decide (i = 0)) ||
      (decide (roundUp s.offset (required attrs m) ≠ s.offset) && (attrs.nopadding || m.nopadding)) ||
      (m.hole && attrs.compact)) := rfl
  rw [hrej]
  clear hrej
  unfold structMember step
  rw [show (if m.given ≠ 0 then m.given else if attrs.packed = true then 1 else m.abi) = required attrs m from rfl]
  generalize required attrs m = r at *
  have hr0 := hr.pos
  have hle := le_roundUp s.offset r hr0
  have hn0 := h3.pos
  have e1 := alignedOffset_pow2 s.offset r hr (by omega)
  have e2 := alignedOffset_eq s.offset m.natural hn0 (by omega)
  have e3 : ((if m.given ≠ 0 && decide (m.given > s.alignment) then m.given else s.alignment) : Nat) =
      max s.alignment m.given := by
    by_cases h : m.given > s.alignment
    · simp only [h]; rw [if_pos (by simp; omega)]; omega
    · simp only [h]; rw [if_neg (by simp)]; omega
  simp only [e1, e2, e3, ite_max, Option.bind_eq_bind, Option.bind_some, Option.pure_def]
  have m1 := roundUp_mono s.offset r m.natural hr h3
  have m2 := roundUp_mono s.offset m.natural r h3 hr
  generalize roundUp s.offset r = o at *
  generalize roundUp s.offset m.natural = n at *
  rw [u32_of_lt (by omega : o + m.size < 2 ^ 32),
    show u32 (o + 2 ^ 32 - s.offset) = o - s.offset from by
      rw [show o + 2 ^ 32 - s.offset = (o - s.offset) + 2 ^ 32 by omega]
      unfold u32
      rw [Nat.add_mod_right]
      exact Nat.mod_eq_of_lt (by omega)]
  generalize ((m.flexible || m.inferred) && decide (i ≠ count - 1)) = A
  generalize (!m.flexible && m.inferred && decide (i = 0)) = B
  generalize (decide (o ≠ s.offset) && (attrs.nopadding || m.nopadding)) = C
  generalize (m.hole && attrs.compact) = D
  cases A
  · cases B
    · by_cases hd : n = o
      · subst hd
        cases C <;> cases D <;> simp
      · by_cases hg : m.natural > r
        · have := m1 (by omega)
          rw [if_pos hd, if_pos hg, if_pos (show n > o by omega)]
          cases C <;> cases D <;> simp [hd, hg]
        · have := m2 (by omega)
          rw [if_pos hd, if_neg hg, if_pos (show n < o by omega)]
          cases C <;> cases D <;> simp [hd, hg]
    · simp
  · simp

/-- The whole loop. -/
def steps (attrs : Attrs) (s : State) (ms : List Member) : State := ms.foldl (step attrs) s

def rejectsAny (attrs : Attrs) (count : Nat) : Nat → State → List Member → Bool
  | _, _, [] => false
  | i, s, m :: ms => rejects attrs i count s m || rejectsAny attrs count (i + 1) (step attrs s m) ms

/-- The part of `Valid` about members. -/
def ValidMembers (ms : List Member) : Prop := ∀ m ∈ ms, Pow2 m.abi ∧ Pow2 m.natural ∧ (m.given = 0 ∨ Pow2 m.given)

theorem ValidMembers.required {attrs : Attrs} {ms : List Member} (h : ValidMembers ms) :
    ∀ m ∈ ms, 0 < required attrs m := fun m hm => (required_pow2 (h m hm).1 (h m hm).2.2).pos

theorem structLoop_eq (attrs : Attrs) (count i : Nat) (s : State) (ms : List Member) (hv : ValidMembers ms)
    (hf : Fits ms (lastEnd attrs s.offset ms)) :
    structLoop attrs count i s ms =
      some (if rejectsAny attrs count i s ms then none else some (steps attrs s ms)) := by
  induction ms generalizing i s with
  | nil => simp [structLoop, rejectsAny, steps]
  | cons m ms ih =>
    obtain ⟨h1, h2, h3⟩ := hv m (by simp)
    have hv' : ValidMembers ms := fun x hx => hv x (List.mem_cons_of_mem _ hx)
    have hl := le_lastEnd attrs (roundUp s.offset (required attrs m) + m.size) ms hv'.required
    have hm := hf m (by simp)
    rw [lastEnd] at hm
    rw [structLoop, structMember_eq attrs i count s m h1 h3 h2 (by omega), rejectsAny]
    cases hr : rejects attrs i count s m
    · simp only [Bool.false_or, Bool.false_eq_true, if_false, Option.bind_eq_bind, Option.bind_some]
      rw [ih (i + 1) (step attrs s m) hv' fun x hx => hf x (List.mem_cons_of_mem _ hx)]
      rfl
    · simp

def newFields (attrs : Attrs) : Nat → List Member → List Field
  | _, [] => []
  | start, m :: ms =>
    ⟨roundUp start (required attrs m), required attrs m, roundUp start (required attrs m) - start⟩ ::
      newFields attrs (roundUp start (required attrs m) + m.size) ms

theorem steps_offset (attrs : Attrs) (s : State) (ms : List Member) :
    (steps attrs s ms).offset = lastEnd attrs s.offset ms := by
  induction ms generalizing s with
  | nil => rfl
  | cons m ms ih => exact ih (step attrs s m)

theorem steps_fields (attrs : Attrs) (s : State) (ms : List Member) :
    (steps attrs s ms).fields = s.fields ++ newFields attrs s.offset ms := by
  induction ms generalizing s with
  | nil => simp [steps, newFields]
  | cons m ms ih =>
    have := ih (step attrs s m)
    rw [show steps attrs s (m :: ms) = steps attrs (step attrs s m) ms from rfl, this]
    simp [step, newFields]

theorem newFields_offset (attrs : Attrs) (start : Nat) (ms : List Member) :
    (newFields attrs start ms).map (·.offset) = offsets attrs start ms := by
  induction ms generalizing start with
  | nil => rfl
  | cons m ms ih => simp [newFields, offsets, ih]

theorem newFields_alignment (attrs : Attrs) (start : Nat) (ms : List Member) :
    (newFields attrs start ms).map (·.alignment) = ms.map (required attrs) := by
  induction ms generalizing start with
  | nil => rfl
  | cons m ms ih => simp [newFields, ih]

theorem newFields_length (attrs : Attrs) (start : Nat) (ms : List Member) :
    (newFields attrs start ms).length = ms.length := by
  induction ms generalizing start with
  | nil => rfl
  | cons m ms ih => simp [newFields, ih]

/-! ## Largest of a list -/

/-- `x` is the largest of `a` and the values of `f` on the list. -/
def IsMax (f : Member → Nat) (a : Nat) (ms : List Member) (x : Nat) : Prop :=
  (x = a ∨ ∃ m ∈ ms, x = f m) ∧ a ≤ x ∧ ∀ m ∈ ms, f m ≤ x

theorem isMax_cons (f : Member → Nat) (a : Nat) (m : Member) (ms : List Member) (x : Nat)
    (h : IsMax f (max a (f m)) ms x) : IsMax f a (m :: ms) x := by
  obtain ⟨h1, h2, h3⟩ := h
  refine ⟨?_, by omega, ?_⟩
  · rcases h1 with h1 | ⟨y, hy, h1⟩
    · rcases Nat.le_total a (f m) with h | h
      · exact Or.inr ⟨m, by simp, by omega⟩
      · exact Or.inl (by omega)
    · exact Or.inr ⟨y, by simp [hy], h1⟩
  · intro y hy
    rcases List.mem_cons.1 hy with rfl | hy
    · omega
    · exact h3 y hy

theorem steps_max (attrs : Attrs) (s : State) (ms : List Member) :
    IsMax (·.natural) s.natural ms (steps attrs s ms).natural ∧
    IsMax (required attrs) s.actual ms (steps attrs s ms).actual ∧
    IsMax (·.given) s.alignment ms (steps attrs s ms).alignment := by
  induction ms generalizing s with
  | nil => simp [IsMax, steps]
  | cons m ms ih =>
    obtain ⟨h1, h2, h3⟩ := ih (step attrs s m)
    exact ⟨isMax_cons _ _ _ _ _ h1, isMax_cons _ _ _ _ _ h2, isMax_cons _ _ _ _ _ h3⟩

theorem isMax_pow2 (f : Member → Nat) (a : Nat) (ms : List Member) (x : Nat) (h : IsMax f a ms x) (ha : Pow2 a)
    (hm : ∀ m ∈ ms, Pow2 (f m)) : Pow2 x := by
  rcases h.1 with rfl | ⟨m, hm', rfl⟩
  · exact ha
  · exact hm m hm'

/-! ## After the loop -/

def start (attrs : Attrs) : State :=
  { natural := 1, actual := 1, unaligned := false, naturallyAligned := !attrs.packed
    offset := 0, alignment := attrs.align, hole := false, fields := [] }

def finalAlign (attrs : Attrs) (s : State) : Nat :=
  if attrs.packed then if s.alignment = 0 then 1 else s.alignment else max s.alignment s.actual

theorem finalAlign_is (attrs : Attrs) (ms : List Member) :
    IsAlignment attrs ms (finalAlign attrs (steps attrs (start attrs) ms)) := by
  obtain ⟨-, h2, h3⟩ := steps_max attrs (start attrs) ms
  generalize steps attrs (start attrs) ms = s at *
  obtain ⟨a1, a2, a3⟩ := h2
  obtain ⟨b1, b2, b3⟩ := h3
  dsimp only [start] at *
  unfold finalAlign
  by_cases hp : attrs.packed = true
  · rw [if_pos hp]
    have hreq : ∀ m : Member, required attrs m = if m.given ≠ 0 then m.given else 1 := by
      intro m; simp [required, hp]
    by_cases h0 : s.alignment = 0
    · rw [if_pos h0]
      refine ⟨Or.inl rfl, by omega, by omega, fun m hm => ?_⟩
      have := b3 m hm
      rw [hreq, if_neg (by omega)]
      exact Nat.le_refl _
    · rw [if_neg h0]
      refine ⟨Or.inr ?_, by omega, b2, fun m hm => ?_⟩
      · rcases b1 with h | ⟨m, hm, h⟩
        · exact Or.inl h
        · exact Or.inr ⟨m, hm, by rw [hreq, if_pos (by omega)]; exact h⟩
      · rw [hreq]
        have := b3 m hm
        split <;> omega
  · rw [if_neg hp]
    refine ⟨?_, by omega, by omega, fun m hm => ?_⟩
    · rcases Nat.le_total s.alignment s.actual with h | h
      · rw [Nat.max_eq_right h]
        rcases a1 with h | h
        · exact Or.inl h
        · exact Or.inr (Or.inr h)
      · rw [Nat.max_eq_left h]
        rcases b1 with h1 | ⟨m, hm, h1⟩
        · exact Or.inr (Or.inl h1)
        · refine Or.inr (Or.inr ⟨m, hm, ?_⟩)
          unfold required
          rw [if_pos (by omega), h1]
    · have := a3 m hm
      omega

theorem isAlignment_unique (attrs : Attrs) (ms : List Member) (a b : Nat) (ha : IsAlignment attrs ms a)
    (hb : IsAlignment attrs ms b) : a = b := by
  obtain ⟨a1, a2, a3, a4⟩ := ha
  obtain ⟨b1, b2, b3, b4⟩ := hb
  refine Nat.le_antisymm ?_ ?_
  · rcases a1 with h | h | ⟨m, hm, h⟩
    · omega
    · omega
    · have := b4 m hm
      omega
  · rcases b1 with h | h | ⟨m, hm, h⟩
    · omega
    · omega
    · have := a4 m hm
      omega

theorem isAlignment_pow2 (attrs : Attrs) (ms : List Member) (a : Nat) (hv : Valid attrs ms)
    (ha : IsAlignment attrs ms a) : Pow2 a := by
  obtain ⟨a1, a2, -⟩ := ha
  rcases a1 with h | h | ⟨m, hm, h⟩
  · exact h ▸ pow2_one
  · rcases hv.1 with h0 | h0
    · omega
    · exact h ▸ h0
  · exact h ▸ required_pow2 (hv.2 m hm).1 (hv.2 m hm).2.2

/-- The end of the analysis without overflow; `none` is the failed assertion. -/
def finish (attrs : Attrs) (first : Option Member) (s : State) : Option (Option Layout) :=
  let size := roundUp s.offset (finalAlign attrs s)
  let naturalSize := roundUp s.offset s.natural
  let packed := s.unaligned || decide (size < naturalSize)
  if packed && decide (size > naturalSize) && decide ((size - s.offset) % 2 ^ 16 ≠ 0) then none
  else if attrs.nopadding && (attrs.substruct && first.elim false (·.lacksNopadding) || decide (size ≠ s.offset)) then
    some none
  else some (some {
    fields := if !packed && s.naturallyAligned then s.fields.map fun f => { f with padding := 0 } else s.fields
    size
    alignment := finalAlign attrs s
    padding := if packed || decide (size > naturalSize) then (size - s.offset) % 2 ^ 16 else 0
    packed
    hole := s.hole || decide (size ≠ s.offset) })

theorem structFinish_eq (attrs : Attrs) (first : Option Member) (s : State) (ha : Pow2 (finalAlign attrs s))
    (hn : Pow2 s.natural) (h1 : roundUp s.offset (finalAlign attrs s) + s.natural ≤ 2 ^ 32) :
    structFinish attrs first s = finish attrs first s := by
  have hn0 := hn.pos
  have hle := le_roundUp s.offset _ ha.pos
  have hle' := le_roundUp s.offset _ hn0
  have e1 := alignedOffset_pow2 s.offset _ ha (by omega)
  have e2 := alignedOffset_eq s.offset _ hn0 (by omega)
  have e3 : (if (!attrs.packed && decide ((if (attrs.packed && decide (s.alignment = 0)) = true then 1 else s.alignment) < s.actual)) = true
      then s.actual else if (attrs.packed && decide (s.alignment = 0)) = true then 1 else s.alignment) = finalAlign attrs s := by
    unfold finalAlign
    cases attrs.packed
    · simp only [Bool.false_and, Bool.not_false, Bool.true_and, Bool.false_eq_true, if_false, decide_eq_true_eq]
      split <;> omega
    · simp
  unfold structFinish finish
  simp only [e3, e1, e2, Option.bind_eq_bind, Option.bind_some, Option.pure_def]
  generalize finalAlign attrs s = a at *
  generalize roundUp s.offset a = z at *
  generalize roundUp s.offset s.natural = n at *
  have e4 : u32 (z + 2 ^ 32 - s.offset) = z - s.offset := by
    rw [show z + 2 ^ 32 - s.offset = (z - s.offset) + 2 ^ 32 by omega]
    unfold u32
    rw [Nat.add_mod_right]
    exact Nat.mod_eq_of_lt (by omega)
  rw [Bool.and_assoc]
  generalize (attrs.substruct && first.elim false fun x => x.lacksNopadding) = b
  simp only [e4]
  generalize (s.unaligned || decide (z < n)) = p
  clear e1 e2 e3 e4
  by_cases hz : z > n
  · have h3 : z > s.offset := by omega
    have h4 : z ≠ s.offset := by omega
    by_cases h0 : (z - s.offset) % 2 ^ 16 = 0
    · cases p <;> cases b <;> cases attrs.nopadding <;> simp [hz, h3, h4, h0]
    · cases p <;> cases b <;> cases attrs.nopadding <;> simp [hz, h3, h4, h0]
  · by_cases h3 : z > s.offset
    · have h4 : z ≠ s.offset := by omega
      cases p <;> cases b <;> cases attrs.nopadding <;> simp [hz, h3, h4]
    · have h4 : z = s.offset := by omega
      subst h4
      cases p <;> cases b <;> cases attrs.nopadding <;> simp [hz]

theorem layoutStruct_eq (attrs : Attrs) (ms : List Member) (hne : ms ≠ []) (hv : Valid attrs ms)
    (hf : Fits ms (roundUp (lastEnd attrs 0 ms) (finalAlign attrs (steps attrs (start attrs) ms)))) :
    layoutStruct attrs ms = if rejectsAny attrs ms.length 0 (start attrs) ms then some none
      else finish attrs ms.head? (steps attrs (start attrs) ms) := by
  have ha := isAlignment_pow2 attrs ms _ hv (finalAlign_is attrs ms)
  have hle := le_roundUp (lastEnd attrs 0 ms) _ ha.pos
  obtain ⟨h1, -⟩ := steps_max attrs (start attrs) ms
  unfold layoutStruct
  rw [if_neg hne]
  change (do match ← structLoop attrs ms.length 0 (start attrs) ms with
    | none => return none
    | some s => structFinish attrs ms.head? s) = _
  rw [structLoop_eq attrs _ _ _ _ hv.2 fun m hm => Nat.le_trans (Nat.add_le_add_right hle _) (hf m hm)]
  cases rejectsAny attrs ms.length 0 (start attrs) ms
  · simp only [Bool.false_eq_true, if_false, Option.bind_eq_bind, Option.bind_some]
    refine structFinish_eq attrs _ _ ha ?_ ?_
    · exact isMax_pow2 _ _ _ _ h1 pow2_one fun m hm => (hv.2 m hm).2.1
    · rw [steps_offset]
      change roundUp (lastEnd attrs 0 ms) _ + _ ≤ _
      rcases h1.1 with h | ⟨m, hm, h⟩
      · obtain ⟨m, hm⟩ := List.exists_mem_of_ne_nil ms hne
        have := hf m hm
        have := (hv.2 m hm).2.1.pos
        rw [h]
        change _ + 1 ≤ _
        omega
      · rw [h]
        exact hf m hm
  · simp

end C3.Layout
