import Verif.DynList.Spec
import Mathlib.Tactic.Linarith
import Mathlib.Data.List.Basic
import Mathlib.Data.List.Induction

/-! # Helper lemmas for `List`: representation, growth, simple operations -/

set_option autoImplicit false

namespace C3.DynList
open C3.Codec (store)

variable {α : Type}

/-- The list object holds `s` followed by the spare cells `rest`. -/
def Rep (l : DList α) (s : List α) (rest : List (Option α)) : Prop :=
  l = ⟨s.length, s.length + rest.length, s.map some ++ rest⟩

theorem holds_iff (l : DList α) (s : List α) : Holds l s ↔ ∃ rest, Rep l s rest := by
  constructor
  · rintro ⟨h1, h2, h3, h4⟩
    refine ⟨l.entries.drop l.size, ?_⟩
    obtain ⟨sz, c, e⟩ := l
    simp only at h1 h2 h3 h4 ⊢
    subst h1; subst h2
    simp only [Rep, DList.mk.injEq, true_and]
    refine ⟨by rw [List.length_drop]; omega, ?_⟩
    rw [← h3, List.take_append_drop]
  · rintro ⟨rest, rfl⟩
    refine ⟨rfl, by simp, ?_, by simp⟩
    simp [List.take_append, List.take_of_length_le]

theorem load_some {e : List (Option α)} {i : Nat} {v : α} (h : e[i]? = some (some v)) : load e i = some v := by
  simp [load, h]

theorem load_map (s : List α) (rest : List (Option α)) {i : Nat} {v : α} (h : s[i]? = some v) :
    load (s.map some ++ rest) i = some v := by
  apply load_some
  have : i < s.length := by
    by_contra hn
    rw [List.getElem?_eq_none (by omega)] at h; simp at h
  rw [List.getElem?_append_left (by simpa using this), List.getElem?_map, h, Option.map_some]

theorem load_at (a : List (Option α)) (v : α) (b : List (Option α)) {i : Nat} (h : i = a.length) :
    load (a ++ some v :: b) i = some v := by
  subst h
  apply load_some
  simp

theorem store_at (a : List (Option α)) (x v : Option α) (b : List (Option α)) {i : Nat} (h : i = a.length) :
    store (a ++ x :: b) i v = some (a ++ v :: b) := by
  subst h
  simp [store]

theorem store_map (s : List α) (rest : List (Option α)) {i : Nat} (v : α) (h : i < s.length) :
    store (s.map some ++ rest) i (some v) = some ((s.set i v).map some ++ rest) := by
  unfold store
  rw [if_pos (by simp; omega), List.set_append_left _ _ (by simpa using h), ← List.map_set]

theorem moveCells_some (a b c d : List (Option α)) {dst src n : Nat} (hd : dst = a.length)
    (hs : src = a.length + b.length) (hn : n = c.length) :
    moveCells (a ++ b ++ c ++ d) dst src n = some (a ++ c ++ (b ++ c ++ d).drop c.length) := by
  subst hd hs hn
  unfold moveCells
  rw [if_pos (by simp; omega)]
  congr 1
  simp only [List.append_assoc]
  rw [List.take_left, ← List.append_assoc a b, ← List.length_append (as := a) (bs := b),
    List.drop_left, List.take_left, List.append_assoc]
  simp [List.drop_append]

/-! ## Growth -/

theorem nextPow2_spec (x B : Nat) (hx : x ≤ 2 ^ 63) : ∀ (n y : Nat), x - y = n → 0 < y → y ≤ B → 2 * x ≤ B + 1 →
    ∃ m, nextPow2Loop x y = some m ∧ x ≤ m ∧ m ≤ B
  | n, y, hn, h0, hB, hxB => by
    rw [nextPow2Loop]
    by_cases h : y < x
    · rw [if_pos h, Nat.mod_eq_of_lt (by omega)]
      exact nextPow2_spec x B hx (x - (y + y)) (y + y) rfl (by omega) (by omega) hxB
    · rw [if_neg h]
      exact ⟨y, rfl, by omega, hB⟩
termination_by n => n

theorem growLoop_spec (N B : Nat) (hN : N ≤ 2 ^ 62) : ∀ (n c : Nat), N - c = n → 0 < c → c ≤ B → 2 * N ≤ B + 1 →
    ∃ m, growLoop N c = some m ∧ N ≤ m ∧ m ≤ B ∧ 0 < m
  | n, c, hn, h0, hB, hNB => by
    rw [growLoop]
    by_cases h : c < N
    · rw [if_pos h, Nat.mod_eq_of_lt (by omega)]
      exact growLoop_spec N B hN (N - c * 2) (c * 2) rfl (by omega) (by omega) hNB
    · rw [if_neg h]
      exact ⟨c, rfl, by omega, hB, h0⟩
termination_by n => n

/-- What fits in the address space. -/
def Fits (sz n : Nat) : Prop := 0 < sz ∧ sz * (64 + 4 * n) < 2 ^ 64

theorem reserve_spec {sz : Nat} {l : DList α} {s : List α} {rest : List (Option α)} {added : Nat}
    (hf : Fits sz (s.length + added)) (h : Rep l s rest) :
    ∃ rest', reserve sz l added = some ⟨s.length, s.length + rest'.length, s.map some ++ rest'⟩ ∧
      added ≤ rest'.length ∧ (rest.length < added ∨ rest' = rest) := by
  obtain ⟨hz, hb⟩ := hf
  have hb' : 64 + 4 * (s.length + added) < 2 ^ 64 := by
    have : 64 + 4 * (s.length + added) ≤ sz * (64 + 4 * (s.length + added)) := Nat.le_mul_of_pos_left _ hz
    omega
  subst h
  unfold reserve
  simp only
  rw [Nat.mod_eq_of_lt (by omega)]
  by_cases hc : s.length + rest.length ≥ s.length + added
  · rw [if_pos hc]
    exact ⟨rest, rfl, by omega, .inr rfl⟩
  rw [if_neg hc, if_neg (by omega)]
  have hlt : rest.length < added := by omega
  obtain ⟨c, e1, e2, e3, e4⟩ := growLoop_spec (s.length + added) (16 + 2 * (s.length + added)) (by omega)
    _ (if s.length + rest.length ≠ 0 then 2 * (s.length + rest.length) % 2 ^ 64 else 16) rfl
    (by split
        · rw [Nat.mod_eq_of_lt (by omega)]; omega
        · omega)
    (by split
        · rw [Nat.mod_eq_of_lt (by omega)]; omega
        · omega) (by omega)
  rw [e1, Option.bind_eq_bind, Option.bind_some]
  unfold ensureCapacity
  rw [if_neg (by omega), if_neg (by simp only; omega)]
  obtain ⟨m, g1, g2, g3⟩ := nextPow2_spec c (64 + 4 * (s.length + added)) (by omega) _ 1 rfl (by omega) (by omega)
    (by omega)
  rw [g1, Option.bind_eq_bind, Option.bind_some]
  have hmul : sz * m < 2 ^ 64 := Nat.lt_of_le_of_lt (Nat.mul_le_mul_left _ g3) hb
  rw [Nat.mod_eq_of_lt hmul, Nat.mul_div_cancel_left _ hz]
  refine ⟨rest ++ List.replicate (m - (s.length + rest.length)) none, ?_, ?_, .inl hlt⟩
  · simp only [realloc, Option.some.injEq, DList.mk.injEq, true_and]
    refine ⟨by simp; omega, ?_⟩
    rw [List.take_of_length_le (by simp; omega)]
    simp
  · simp; omega

theorem setSize_pos (n c k : Nat) (e : List (Option α)) (h : c ≠ 0) :
    setSize (⟨n, c, e⟩ : DList α) k = some ⟨k, c, e⟩ := by
  simp [setSize, h]

theorem setSize_zero (n c : Nat) (e : List (Option α)) :
    setSize (⟨n, c, e⟩ : DList α) 0 = some ⟨0, c, e⟩ := by
  simp [setSize]

theorem rep_intro {n c : Nat} {e : List (Option α)} {s : List α} (rest : List (Option α)) (h1 : n = s.length)
    (h2 : c = s.length + rest.length) (h3 : e = s.map some ++ rest) : Rep (⟨n, c, e⟩ : DList α) s rest := by
  subst h1 h2 h3; rfl

theorem holds_of_rep {l : DList α} {s : List α} (rest : List (Option α)) (h : Rep l s rest) : Holds l s :=
  (holds_iff l s).2 ⟨rest, h⟩

theorem push_spec {sz : Nat} {l : DList α} {s : List α} {rest : List (Option α)} (x : α)
    (hf : Fits sz (s.length + 1)) (h : Rep l s rest) : ∃ l', push sz l x = some l' ∧ Holds l' (s ++ [x]) := by
  obtain ⟨rest', e1, e2, _⟩ := reserve_spec (added := 1) hf h
  match rest', e2 with
  | y :: r, _ =>
    unfold push
    rw [e1, Option.bind_eq_bind, Option.bind_some]
    simp only [List.length_cons]
    rw [setSize_pos _ _ _ _ (by omega)]
    simp only [Option.bind_eq_bind, Option.bind_some]
    rw [store_at _ _ _ _ (by simp), Option.bind_some]
    refine ⟨_, rfl, holds_of_rep r (rep_intro r (by simp) (by simp; omega) (by simp))⟩

theorem snoc_of_ne {s : List α} (h : s ≠ []) : ∃ t x, s = t ++ [x] :=
  ⟨s.dropLast, s.getLast h, (List.dropLast_append_getLast h).symm⟩

theorem pop_spec {l : DList α} {s : List α} {rest : List (Option α)} (h : Rep l s rest) :
    ∃ l', pop l = some (l', s.getLast?) ∧ Holds l' s.dropLast := by
  subst h
  unfold pop
  by_cases hs : s = []
  · subst hs
    rw [if_pos (by simp)]
    exact ⟨_, rfl, holds_of_rep rest (rep_intro rest (by simp) (by simp) (by simp))⟩
  · obtain ⟨t, x, rfl⟩ := snoc_of_ne hs
    rw [if_neg (by simp)]
    simp only [List.map_append, List.map_cons, List.map_nil, List.append_assoc, List.singleton_append,
      List.length_append, List.length_cons, List.length_nil]
    rw [load_at _ _ _ (by simp), Option.bind_eq_bind, Option.bind_some, setSize_pos _ _ _ _ (by omega),
      Option.bind_eq_bind, Option.bind_some]
    refine ⟨_, by rw [List.getLast?_append_of_ne_nil _ (by simp)]; rfl, ?_⟩
    rw [List.dropLast_append_of_ne_nil (by simp)]
    exact holds_of_rep (some x :: rest) (rep_intro _ (by simp) (by simp; omega) (by simp))

theorem clear_spec {l : DList α} {s : List α} {rest : List (Option α)} (h : Rep l s rest) :
    ∃ l', clear l = some l' ∧ Holds l' ([] : List α) := by
  subst h
  unfold clear
  rw [setSize_zero]
  exact ⟨_, rfl, holds_of_rep (s.map some ++ rest) (rep_intro _ (by simp) (by simp) (by simp))⟩

theorem removeAt_spec {l : DList α} {s : List α} {rest : List (Option α)} {i : Nat} (h : Rep l s rest)
    (hi : i < s.length) : ∃ l', removeAt l i = some l' ∧ Holds l' (s.eraseIdx i) := by
  subst h
  obtain ⟨a, x, b, rfl, ha⟩ : ∃ a x b, s = a ++ x :: b ∧ a.length = i :=
    ⟨s.take i, s[i], s.drop (i + 1), by simp, by simp; omega⟩
  subst ha
  unfold removeAt
  rw [if_neg (by simp)]
  rw [setSize_pos _ _ _ _ (by simp), Option.bind_eq_bind, Option.bind_some]
  have her : (a ++ x :: b).eraseIdx a.length = a ++ b := by
    rw [List.eraseIdx_append_of_length_le (Nat.le_refl _)]; simp
  rw [her]
  simp only
  by_cases hb : b = []
  · subst hb
    rw [if_pos (by simp)]
    exact ⟨_, rfl, holds_of_rep (some x :: rest) (rep_intro _ (by simp) (by simp; omega) (by simp))⟩
  · have hbl : 0 < b.length := List.length_pos_iff.2 hb
    rw [if_neg (by simp only [List.length_append, List.length_cons]; omega)]
    have := moveCells_some (a.map some) [some x] (b.map some) rest (dst := a.length) (src := a.length + 1)
      (n := (a ++ x :: b).length - 1 - a.length) (by simp) (by simp) (by simp)
    simp only [List.append_assoc, List.singleton_append, List.cons_append, List.nil_append] at this
    simp only [List.map_append, List.map_cons, List.append_assoc, List.cons_append]
    simp only [this, Option.bind_eq_bind, Option.bind_some]
    refine ⟨_, rfl, holds_of_rep _ (rep_intro ((some x :: (b.map some ++ rest)).drop (b.map some).length) ?_ ?_ ?_)⟩
    · simp
    · simp; omega
    · simp

theorem head?_get (s : List α) : s.head? = s[0]? := by cases s <;> rfl

theorem popFirst_spec {l : DList α} {s : List α} {rest : List (Option α)} (h : Rep l s rest) :
    ∃ l', popFirst l = some (l', s.head?) ∧ Holds l' s.tail := by
  unfold popFirst
  match s, h with
  | [], h => exact ⟨_, by rw [h]; rfl, holds_of_rep rest h⟩
  | x :: s, h =>
    obtain ⟨l', e1, e2⟩ := removeAt_spec (i := 0) h (by simp)
    rw [if_neg (by rw [h]; simp), e1]
    have : load l.entries 0 = some x := by
      rw [h]; exact load_map _ _ (by simp)
    rw [this]
    exact ⟨l', rfl, by simpa using e2⟩

theorem removeFirst_spec {l : DList α} {s : List α} {rest : List (Option α)} (h : Rep l s rest) :
    ∃ l', removeFirst l = some (l', !s.isEmpty) ∧ Holds l' s.tail := by
  unfold removeFirst
  match s, h with
  | [], h => exact ⟨_, by rw [h]; rfl, holds_of_rep rest h⟩
  | x :: s, h =>
    obtain ⟨l', e1, e2⟩ := removeAt_spec (i := 0) h (by simp)
    rw [if_neg (by rw [h]; simp), e1]
    exact ⟨l', rfl, by simpa using e2⟩

theorem removeLast_spec {l : DList α} {s : List α} {rest : List (Option α)} (h : Rep l s rest) :
    ∃ l', removeLast l = some (l', !s.isEmpty) ∧ Holds l' s.dropLast := by
  obtain ⟨l', e1, e2⟩ := pop_spec h
  subst h
  unfold removeLast
  by_cases hs : s = []
  · subst hs
    rw [if_pos (by simp)]
    exact ⟨_, rfl, holds_of_rep rest (rep_intro rest (by simp) (by simp) (by simp))⟩
  · rw [if_neg (by simpa using hs)]
    unfold pop at e1
    rw [if_neg (by simpa using hs)] at e1
    cases hv : load (s.map some ++ rest) (s.length - 1) with
    | none => simp [hv] at e1
    | some v =>
      rw [hv, Option.bind_eq_bind, Option.bind_some] at e1
      cases hs' : setSize (⟨s.length, s.length + rest.length, s.map some ++ rest⟩ : DList α) (s.length - 1) with
      | none => simp [hs'] at e1
      | some l2 =>
        simp only [hs', Option.bind_eq_bind, Option.bind_some, Option.some.injEq, Prod.mk.injEq] at e1
        refine ⟨l', ?_, e2⟩
        simp [e1.1, hs]

theorem addAllLoop_spec (other : List α) (src : List (Option α)) (c : List (Option α)) : ∀ (n i : Nat)
    (a b : List (Option α)),
    other.length - i = n → src.take other.length = other.map some → other.length ≤ src.length → b.length = n →
    addAllLoop src other.length i (a ++ b ++ c) a.length = some (a ++ (other.drop i).map some ++ c)
  | n, i, a, b, hn, hsrc, hlen, hb => by
    rw [addAllLoop]
    by_cases h : i < other.length
    · rw [if_pos h]
      have hl : load src i = some other[i] := by
        apply load_some
        have : (src.take other.length)[i]? = (other.map some)[i]? := by rw [hsrc]
        rw [List.getElem?_take_of_lt h, List.getElem?_map, List.getElem?_eq_getElem h, Option.map_some] at this
        exact this
      rw [hl, Option.bind_eq_bind, Option.bind_some]
      match b, hb with
      | [], hb => simp at hb; omega
      | y :: b, hb =>
        rw [List.append_assoc, List.cons_append, store_at _ _ _ _ rfl, Option.bind_eq_bind, Option.bind_some]
        have := addAllLoop_spec other src c (n - 1) (i + 1) (a ++ [some other[i]]) b (by omega) hsrc hlen
          (by simp at hb; omega)
        simp only [List.append_assoc, List.singleton_append, List.cons_append, List.nil_append, List.length_append,
          List.length_cons, List.length_nil, Nat.zero_add] at this
        rw [this]
        rw [List.drop_eq_getElem_cons h, List.map_cons, List.append_assoc, List.cons_append]
    · rw [if_neg h, List.drop_eq_nil_of_le (by omega)]
      have : b = [] := List.length_eq_zero_iff.1 (by omega)
      subst this; simp
termination_by n => n

theorem mapM_map_some (t : List α) : (t.map some).mapM id = some t := by
  induction t with
  | nil => rfl
  | cons x t ih => rw [List.map_cons, List.mapM_cons, ih]; rfl

theorem toArray_spec {l : DList α} {s : List α} (h : Holds l s) : toArray l = some s := by
  unfold toArray
  rw [h.2.2.1]
  exact mapM_map_some s

theorem split_len {β : Type} (l : List β) (n : Nat) (h : n ≤ l.length) : ∃ a b, l = a ++ b ∧ a.length = n :=
  ⟨l.take n, l.drop n, by simp, by simp; omega⟩

theorem addAll_spec {sz : Nat} {l other : DList α} {s t : List α} {rest : List (Option α)}
    (ho : Holds other t) (hf : Fits sz (s.length + t.length)) (h : Rep l s rest) :
    ∃ l', addAll sz l other = some l' ∧ Holds l' (s ++ t) := by
  unfold addAll
  by_cases ht : other.size = 0
  · rw [if_pos ht]
    have : t = [] := List.length_eq_zero_iff.1 (by rw [← ho.1]; exact ht)
    subst this
    exact ⟨l, rfl, by simpa using holds_of_rep rest h⟩
  rw [if_neg ht]
  have hsz : other.size = t.length := ho.1
  obtain ⟨rest', e1, e2, _⟩ := reserve_spec hf h
  rw [hsz, e1, Option.bind_eq_bind, Option.bind_some]
  simp only
  rw [setSize_pos _ _ _ _ (by omega), Option.bind_eq_bind, Option.bind_some]
  obtain ⟨b, c, rfl, hb⟩ := split_len rest' t.length e2
  simp only
  have := addAllLoop_spec t other.entries c t.length 0 (s.map some) b (by omega) (by rw [← hsz]; exact ho.2.2.1)
    (by rw [← hsz, ← ho.2.1]; exact ho.2.2.2) hb
  simp only [List.length_map, List.append_assoc, List.drop_zero] at this
  rw [this, Option.bind_some]
  exact ⟨_, rfl, holds_of_rep c (rep_intro c (by simp) (by simp; omega) (by simp))⟩

theorem addArray_spec {sz : Nat} {l : DList α} {s : List α} {rest : List (Option α)} (t : List α)
    (hf : Fits sz (s.length + t.length)) (h : Rep l s rest) :
    ∃ l', addArray sz l t = some l' ∧ Holds l' (s ++ t) := by
  unfold addArray
  by_cases ht : t.length = 0
  · rw [if_pos ht]
    have : t = [] := List.length_eq_zero_iff.1 ht
    subst this
    exact ⟨l, rfl, by simpa using holds_of_rep rest h⟩
  rw [if_neg ht]
  obtain ⟨rest', e1, e2, _⟩ := reserve_spec hf h
  rw [e1, Option.bind_eq_bind, Option.bind_some]
  simp only
  rw [setSize_pos _ _ _ _ (by omega), Option.bind_eq_bind, Option.bind_some]
  obtain ⟨b, c, rfl, hb⟩ := split_len rest' t.length e2
  simp only
  unfold copyIn
  rw [if_pos (by simp; omega), Option.bind_some]
  refine ⟨_, rfl, holds_of_rep c (rep_intro c (by simp) (by simp; omega) ?_)⟩
  have h1 : List.take s.length (s.map some ++ (b ++ c)) = s.map some := by
    rw [List.take_append_of_le_length (by simp), List.take_of_length_le (by simp)]
  have h2 : List.drop (s.length + t.length) (s.map some ++ (b ++ c)) = c := by
    rw [← List.append_assoc, List.drop_append, List.drop_eq_nil_of_le (by simp; omega)]
    simp [hb]
  rw [h1, h2]; simp

theorem insertLoop_spec (a : List (Option α)) : ∀ (b : List α) (c : List (Option α)) (y : Option α),
    ∃ z, insertLoop a.length (a.length + b.length) (a ++ (b.map some) ++ y :: c) =
      some (a ++ z :: b.map some ++ c) := by
  intro b
  induction b using List.reverseRecOn with
  | nil =>
    intro c y
    refine ⟨y, ?_⟩
    match h : a.length with
    | 0 => simp [insertLoop]
    | n + 1 => simp [insertLoop]
  | append_singleton b x ih =>
    intro c y
    obtain ⟨z, hz⟩ := ih (some x :: c) (some x)
    refine ⟨z, ?_⟩
    simp only [List.length_append, List.length_cons, List.length_nil, ← Nat.add_assoc, Nat.zero_add]
    rw [insertLoop, if_pos (by omega)]
    have h1 : load (a ++ (b ++ [x]).map some ++ y :: c) (a.length + b.length) = some x := by
      have := load_at (a ++ b.map some) x (y :: c) (i := a.length + b.length) (by simp)
      simpa using this
    rw [h1, Option.bind_eq_bind, Option.bind_some]
    have h2 := store_at (a ++ b.map some ++ [some x]) y (some x) c (i := a.length + b.length + 1) (by simp; omega)
    simp only [List.map_append, List.map_cons, List.map_nil, List.append_assoc, List.singleton_append,
      List.cons_append, List.nil_append] at h2 hz ⊢
    rw [h2, Option.bind_eq_bind, Option.bind_some, hz]

theorem insertAt_spec {sz : Nat} {l : DList α} {s : List α} {rest : List (Option α)} {i : Nat} (x : α)
    (hf : Fits sz (s.length + 1)) (h : Rep l s rest) (hi : i ≤ s.length) :
    ∃ l', insertAt sz l i x = some l' ∧ Holds l' (s.take i ++ x :: s.drop i) := by
  unfold insertAt
  rw [if_neg (by rw [h]; simpa using hi)]
  obtain ⟨rest', e1, e2, _⟩ := reserve_spec (added := 1) hf h
  match rest', e2 with
  | y :: r, _ =>
    rw [e1, Option.bind_eq_bind, Option.bind_some]
    simp only [List.length_cons]
    rw [setSize_pos _ _ _ _ (by omega), Option.bind_eq_bind, Option.bind_some]
    obtain ⟨a, b, rfl, ha⟩ := split_len s i hi
    subst ha
    obtain ⟨z, hz⟩ := insertLoop_spec (a.map some) b r y
    simp only [Nat.add_sub_cancel, List.map_append, List.length_append] at hz ⊢
    rw [List.length_map] at hz
    rw [hz, Option.bind_some, List.append_assoc, List.cons_append, store_at _ _ _ _ (by simp),
      Option.bind_some]
    refine ⟨_, rfl, holds_of_rep r (rep_intro r (by simp; omega) (by simp; omega) ?_)⟩
    simp

theorem setAt_spec {l : DList α} {s : List α} {rest : List (Option α)} {i : Nat} (x : α)
    (h : Rep l s rest) (hi : i < s.length) : ∃ l', setAt l i x = some l' ∧ Holds l' (s.set i x) := by
  subst h
  unfold setAt
  rw [if_neg (by simpa using hi)]
  simp only
  rw [store_map _ _ _ hi, Option.bind_eq_bind, Option.bind_some]
  exact ⟨_, rfl, holds_of_rep rest (rep_intro rest (by simp) (by simp) (by simp))⟩

theorem first_spec {l : DList α} {s : List α} {rest : List (Option α)} (h : Rep l s rest) :
    first l = some s.head? := by
  subst h
  unfold first
  match s with
  | [] => simp
  | x :: s =>
    rw [if_neg (by simp)]
    rw [load_map (x :: s) rest (v := x) (by simp)]
    rfl

theorem last_spec {l : DList α} {s : List α} {rest : List (Option α)} (h : Rep l s rest) :
    last l = some s.getLast? := by
  subst h
  unfold last
  by_cases hs : s = []
  · subst hs; simp
  · rw [if_neg (by simpa using hs)]
    obtain ⟨t, x, rfl⟩ := snoc_of_ne hs
    rw [load_map (t ++ [x]) rest (v := x) (by simp)]
    simp

theorem get_spec {l : DList α} {s : List α} {rest : List (Option α)} {i : Nat} {v : α} (h : Rep l s rest)
    (hv : s[i]? = some v) : get l i = some v := by
  have hi : i < s.length := by
    by_contra hn
    rw [List.getElem?_eq_none (by omega)] at hv; simp at hv
  subst h
  unfold get
  rw [if_neg (by simpa using hi)]
  exact load_map _ _ hv

theorem swap_spec {l : DList α} {s : List α} {rest : List (Option α)} {i j : Nat} {a b : α} (h : Rep l s rest)
    (ha : s[i]? = some a) (hb : s[j]? = some b) :
    ∃ l', swap l i j = some l' ∧ Holds l' ((s.set i b).set j a) := by
  have hi : i < s.length := by
    by_contra hn
    rw [List.getElem?_eq_none (by omega)] at ha; simp at ha
  have hj : j < s.length := by
    by_contra hn
    rw [List.getElem?_eq_none (by omega)] at hb; simp at hb
  subst h
  unfold swap
  rw [if_neg (by simpa using ⟨hi, hj⟩)]
  simp only
  rw [load_map _ _ ha, load_map _ _ hb]
  simp only [Option.bind_eq_bind, Option.bind_some]
  rw [store_map _ _ _ hi, Option.bind_some, store_map _ _ _ (by simpa using hj), Option.bind_some]
  exact ⟨_, rfl, holds_of_rep rest (rep_intro rest (by simp) (by simp) (by simp))⟩

end C3.DynList
