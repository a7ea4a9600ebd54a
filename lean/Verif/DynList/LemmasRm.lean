import Verif.DynList.Lemmas

/-! # Helper lemmas for `List`: reversal, removal, searching -/

set_option autoImplicit false

namespace C3.DynList
open C3.Codec (store)

variable {α : Type}

/-! ## reverse -/

theorem reverseLoop_spec (c : List (Option α)) : ∀ (n : Nat) (a b : List (Option α)) (m : List α) (half last i : Nat),
    m.length = n → i = a.length → last = i + m.length + b.length - 1 → half = i + m.length / 2 → a.length = b.length →
    reverseLoop half last i (a ++ m.map some ++ b ++ c) = some (a ++ m.reverse.map some ++ b ++ c)
  | n, a, b, m, half, last, i, hn, hi, hl, hh, hab => by
    rw [reverseLoop]
    match m with
    | [] => simp at hh; rw [if_neg (by omega)]; simp
    | [x] => simp at hh; rw [if_neg (by omega)]; simp
    | x :: y :: m' =>
      obtain ⟨t, z, ht⟩ := snoc_of_ne (s := y :: m') (by simp)
      rw [ht] at hn hl hh ⊢
      simp only [List.length_cons, List.length_append, List.length_nil] at hn hl hh
      have hlast : last - i = (a ++ some x :: t.map some).length := by simp; omega
      rw [if_pos (by omega)]
      have e1 : a ++ (x :: (t ++ [z])).map some ++ b ++ c = a ++ some x :: (t.map some ++ some z :: (b ++ c)) := by simp
      have e1' : a ++ some x :: (t.map some ++ some z :: (b ++ c)) = (a ++ some x :: t.map some) ++ some z :: (b ++ c) := by
        simp
      rw [e1, load_at _ _ _ hi, Option.bind_eq_bind, Option.bind_some]
      have h2 : load (a ++ some x :: (t.map some ++ some z :: (b ++ c))) (last - i) = some z := by
        rw [e1']; exact load_at _ _ _ hlast
      rw [h2, Option.bind_eq_bind, Option.bind_some, store_at _ _ _ _ hi]
      simp only [Option.bind_eq_bind, Option.bind_some]
      have h3 := store_at (a ++ some z :: t.map some) (some z) (some x) (b ++ c) (i := last - i) (by
        rw [hlast]; simp)
      simp only [List.append_assoc, List.cons_append] at h3
      rw [h3, Option.bind_some]
      have hdec : n - 2 < n := by omega
      have := reverseLoop_spec c (n - 2) (a ++ [some z]) (some x :: b) t half last (i + 1) (by omega) (by simp; omega)
        (by simp; omega) (by omega) (by simp; omega)
      simp only [List.append_assoc, List.cons_append, List.nil_append] at this
      rw [this]
      simp
termination_by n => n

theorem reverse_spec {l : DList α} {s : List α} {rest : List (Option α)} (h : Rep l s rest) :
    ∃ l', reverse l = some l' ∧ Holds l' s.reverse := by
  subst h
  unfold reverse
  simp only
  by_cases hs : s.length < 2
  · rw [if_pos hs]
    refine ⟨_, rfl, holds_of_rep rest ?_⟩
    match s, hs with
    | [], _ => rfl
    | [x], _ => rfl
  · rw [if_neg hs]
    have := reverseLoop_spec rest s.length [] [] s (s.length / 2) (s.length - 1) 0 rfl rfl (by simp) (by simp) rfl
    simp only [List.nil_append, List.append_nil] at this
    rw [this, Option.bind_eq_bind, Option.bind_some]
    exact ⟨_, rfl, holds_of_rep rest (rep_intro rest (by simp) (by simp) rfl)⟩

/-! ## remove_if -/

/-- Scanning down from the end of `s` skips exactly its longest suffix satisfying `p`. -/
theorem scanDown_spec (p : α → Bool) (rest : List (Option α)) : ∀ (s : List α),
    ∃ a b, s = a ++ b ∧ (∀ x ∈ b, p x = true) ∧ (∀ x, a.getLast? = some x → p x = false) ∧
      scanDown p (s.map some ++ rest) s.length = some a.length := by
  intro s
  induction s using List.reverseRecOn generalizing rest with
  | nil => exact ⟨[], [], rfl, by simp, by simp, rfl⟩
  | append_singleton s x ih =>
    have e : load ((s ++ [x]).map some ++ rest) s.length = some x := load_map _ _ (by simp)
    simp only [List.length_append, List.length_cons, List.length_nil, Nat.zero_add]
    rw [scanDown, e, Option.bind_eq_bind, Option.bind_some]
    by_cases hx : p x = true
    · obtain ⟨a, b, h1, h2, h3, h4⟩ := ih (some x :: rest)
      refine ⟨a, b ++ [x], by rw [h1]; simp, ?_, h3, ?_⟩
      · intro y hy
        rcases List.mem_append.1 hy with hy | hy
        · exact h2 y hy
        · rw [List.mem_singleton.1 hy]; exact hx
      · rw [if_pos hx]
        simpa using h4
    · refine ⟨s ++ [x], [], by simp, by simp, ?_, ?_⟩
      · intro y hy
        simp at hy
        subst hy; simpa using hx
      · rw [if_neg hx]; simp

theorem scanDown_spec' (p : α → Bool) (s : List α) (e : List (Option α)) (n : Nat) (hn : n = s.length)
    (he : ∃ rest, e = s.map some ++ rest) :
    ∃ a b, s = a ++ b ∧ (∀ x ∈ b, p x = true) ∧ (∀ x, a.getLast? = some x → p x = false) ∧
      scanDown p e n = some a.length := by
  obtain ⟨rest, rfl⟩ := he
  subst hn
  exact scanDown_spec p rest s

theorem removeLoop_spec (del : α → Bool) : ∀ (n : Nat) (t kept : List α) (rest : List (Option α)), t.length = n →
    (∀ x, t.getLast? = some x → kept = [] ∨ del x = true) →
    ∃ rest', removeLoop del ⟨t.length + kept.length, t.length + kept.length + rest.length,
        t.map some ++ kept.map some ++ rest⟩ t.length t.length =
      some ⟨(t.filter (fun x => !del x)).length + kept.length, t.length + kept.length + rest.length,
        (t.filter (fun x => !del x)).map some ++ kept.map some ++ rest'⟩ ∧
      (t.filter (fun x => !del x)).length + rest'.length = t.length + rest.length
  | n, t, kept, rest, hn, hlast => by
    rw [removeLoop]
    by_cases ht : t = []
    · subst ht
      rw [if_neg (by simp)]
      exact ⟨rest, by simp, by simp⟩
    · have hpos : 0 < t.length := List.length_pos_iff.2 ht
      rw [if_pos hpos]
      obtain ⟨a, b, h1, h2, h3, h4⟩ := scanDown_spec' del t (t.map some ++ kept.map some ++ rest) t.length rfl
        ⟨_, by rw [List.append_assoc]⟩
      rw [h4, Option.bind_eq_bind, Option.bind_some]
      simp only
      subst h1
      have hm := moveCells_some (a.map some) (b.map some) (kept.map some) rest (dst := a.length)
        (src := (a ++ b).length) (n := (a ++ b).length + kept.length - (a ++ b).length) (by simp) (by simp) (by simp)
      have hmap : (a ++ b).map some = a.map some ++ b.map some := by simp
      rw [hmap, hm, Option.bind_eq_bind, Option.bind_some]
      generalize hD : List.drop (kept.map some).length (b.map some ++ kept.map some ++ rest) = D
      have hDl : D.length = b.length + rest.length := by rw [← hD]; simp; omega
      obtain ⟨a1, a2, g1, g2, g3, g4⟩ := scanDown_spec' (fun x => !del x) a (a.map some ++ kept.map some ++ D) a.length
        rfl ⟨_, by rw [List.append_assoc]⟩
      simp only [g4, Option.bind_some]
      have hlt : a1.length < n := by
        have hl : a1.length ≤ a.length := by rw [g1]; simp
        have hab : (a ++ b).length = n := hn
        rw [List.length_append] at hab
        by_contra hc
        have hb0 : b = [] := List.length_eq_zero_iff.1 (by omega)
        have ha2 : a2 = [] := by
          have : a.length = a1.length + a2.length := by rw [g1]; simp
          exact List.length_eq_zero_iff.1 (by omega)
        subst hb0; subst ha2
        rw [List.append_nil] at g1; subst g1
        have ha : a ≠ [] := by simpa using ht
        have hx := List.getLast?_eq_some_getLast ha
        have f1 := h3 _ hx
        have f2 := g3 _ hx
        simp [f1] at f2
      have hfb : b.filter (fun x => !del x) = [] := by
        rw [List.filter_eq_nil_iff]; intro x hx; simp [h2 x hx]
      have hfa2 : a2.filter (fun x => !del x) = a2 := List.filter_eq_self.2 g2
      obtain ⟨rest', r1, r2⟩ := removeLoop_spec del a1.length a1 (a2 ++ kept) D rfl (fun x hx => .inr (by
        have := g3 x hx; simpa using this))
      refine ⟨rest', ?_, ?_⟩
      · rw [List.filter_append, hfb, List.append_nil, g1, List.filter_append, hfa2]
        simp only [List.length_append, List.map_append, List.append_assoc] at r1 hDl ⊢
        have z1 : a1.length + (a2.length + b.length) + kept.length -
            (a1.length + (a2.length + b.length) - (a1.length + a2.length)) = a1.length + (a2.length + kept.length) := by
          omega
        have z3 : a1.length + (a2.length + b.length) + kept.length + rest.length =
            a1.length + (a2.length + kept.length) + D.length := by omega
        rw [z1, z3, r1]
        simp only [Nat.add_assoc]
      · rw [List.filter_append, hfb, List.append_nil, g1, List.filter_append, hfa2]
        simp only [List.length_append] at r2 hDl ⊢
        omega
termination_by n => n

theorem length_filter_not (p : α → Bool) (s : List α) : s.length - (s.filter (fun x => !p x)).length = s.countP p := by
  induction s with
  | nil => rfl
  | cons x s ih =>
    have := List.length_filter_le (fun x => !p x) s
    by_cases h : p x = true
    · simp [h]; omega
    · simp only [Bool.not_eq_true] at h; simp [h]; omega

theorem removeIf_spec {l : DList α} {s : List α} {rest : List (Option α)} (f : α → Bool) (invert : Bool)
    (h : Rep l s rest) :
    ∃ l', removeIf l f invert = some (l', s.countP (fun x => if invert then !f x else f x)) ∧
      Holds l' (s.filter (fun x => !(if invert then !f x else f x))) := by
  subst h
  unfold removeIf
  obtain ⟨rest', r1, r2⟩ := removeLoop_spec (fun x => if invert then !f x else f x) s.length s [] rest rfl
    (fun _ _ => .inl rfl)
  simp only [List.length_nil, Nat.add_zero, List.map_nil, List.append_nil] at r1
  rw [r1, Option.bind_eq_bind, Option.bind_some]
  refine ⟨_, ?_, holds_of_rep rest' (rep_intro rest' rfl r2.symm rfl)⟩
  rw [← length_filter_not _ s]

/-! ## remove_item and compact -/

theorem shiftLoop_spec (c : List (Option α)) : ∀ (b : List α) (a : List (Option α)) (x : α) (size j : Nat),
    j = a.length + 1 → size = j + b.length →
    ∃ y, shiftLoop size j (a ++ some x :: b.map some ++ c) = some (a ++ b.map some ++ some y :: c)
  | [], a, x, size, j, hj, hs => by
    rw [shiftLoop, if_neg (by simp at hs; omega)]
    exact ⟨x, by simp⟩
  | z :: b, a, x, size, j, hj, hs => by
    simp only [List.length_cons] at hs
    rw [shiftLoop, if_pos (by omega)]
    have h1 : load (a ++ some x :: (z :: b).map some ++ c) j = some z := by
      have := load_at (a ++ [some x]) z (b.map some ++ c) (i := j) (by simp; omega)
      simpa using this
    rw [h1, Option.bind_eq_bind, Option.bind_some]
    have h2 := store_at a (some x) (some z) ((z :: b).map some ++ c) (i := j - 1) (by omega)
    rw [List.append_assoc, List.cons_append, h2, Option.bind_eq_bind, Option.bind_some]
    obtain ⟨y, hy⟩ := shiftLoop_spec c b (a ++ [some z]) z size (j + 1) (by simp; omega) (by omega)
    refine ⟨y, ?_⟩
    simp only [List.append_assoc, List.cons_append, List.nil_append, List.map_cons] at hy ⊢
    rw [hy]

theorem removeItemLoop_spec (eq : α → α → Bool) (value : α) : ∀ (t kept : List α) (rest : List (Option α)),
    ∃ rest', removeItemLoop eq value t.length ⟨t.length + kept.length, t.length + kept.length + rest.length,
        t.map some ++ kept.map some ++ rest⟩ =
      some ⟨(t.filter (fun x => !eq x value)).length + kept.length, t.length + kept.length + rest.length,
        (t.filter (fun x => !eq x value)).map some ++ kept.map some ++ rest'⟩ ∧
      (t.filter (fun x => !eq x value)).length + rest'.length = t.length + rest.length := by
  intro t
  induction t using List.reverseRecOn with
  | nil => intro kept rest; exact ⟨rest, by simp [removeItemLoop], by simp⟩
  | append_singleton t x ih =>
    intro kept rest
    simp only [List.length_append, List.length_cons, List.length_nil, Nat.zero_add]
    rw [removeItemLoop]
    have h1 : load ((t ++ [x]).map some ++ kept.map some ++ rest) t.length = some x := by
      rw [List.append_assoc]; exact load_map _ _ (by simp)
    simp only
    rw [h1, Option.bind_eq_bind, Option.bind_some]
    by_cases hx : eq x value = true
    · rw [if_neg (by simp [hx])]
      obtain ⟨y, hy⟩ := shiftLoop_spec rest kept (t.map some) x (t.length + 1 + kept.length) (t.length + 1)
        (by simp) (by omega)
      simp only [List.map_append, List.map_cons, List.map_nil, List.append_assoc, List.cons_append,
        List.nil_append] at hy ⊢
      rw [hy, Option.bind_eq_bind, Option.bind_some]
      obtain ⟨rest', r1, r2⟩ := ih kept (some y :: rest)
      refine ⟨rest', ?_, ?_⟩
      · simp only [List.length_cons, List.append_assoc] at r1
        have z1 : t.length + 1 + kept.length - 1 = t.length + kept.length := by omega
        have z2 : t.length + 1 + kept.length + rest.length = t.length + kept.length + (rest.length + 1) := by omega
        rw [z1, z2, r1]
        simp [hx]
      · simp only [List.length_cons] at r2
        simp [hx]; omega
    · simp only [Bool.not_eq_true] at hx
      rw [if_pos (by simp [hx])]
      obtain ⟨rest', r1, r2⟩ := ih (x :: kept) rest
      refine ⟨rest', ?_, ?_⟩
      · simp only [List.length_cons, List.append_assoc, List.map_cons, List.map_append, List.map_nil,
          List.cons_append, List.nil_append] at r1 ⊢
        have z1 : t.length + 1 + kept.length = t.length + (kept.length + 1) := by omega
        rw [z1, r1]
        simp [hx]; omega
      · simp [hx]; omega

theorem removeItem_spec {l : DList α} {s : List α} {rest : List (Option α)} (eq : α → α → Bool) (value : α)
    (h : Rep l s rest) :
    ∃ l', removeItem eq l value = some (l', s.countP (eq · value)) ∧
      Holds l' (s.filter (fun x => !eq x value)) := by
  subst h
  unfold removeItem
  obtain ⟨rest', r1, r2⟩ := removeItemLoop_spec eq value s [] rest
  simp only [List.length_nil, Nat.add_zero, List.map_nil, List.append_nil] at r1
  rw [r1, Option.bind_eq_bind, Option.bind_some]
  refine ⟨_, ?_, holds_of_rep rest' (rep_intro rest' rfl r2.symm rfl)⟩
  rw [← length_filter_not (eq · value) s]

theorem compactLoop_spec (isNull : α → Bool) (size : Nat) : ∀ (t kept stale : List α) (rest : List (Option α)),
    size = t.length + kept.length + stale.length →
    ∃ rest', compactLoop isNull size t.length ⟨t.length + kept.length, size + rest.length,
        t.map some ++ (kept ++ stale).map some ++ rest⟩ =
      some ⟨(t.filter (fun x => !isNull x)).length + kept.length, size + rest.length,
        (t.filter (fun x => !isNull x)).map some ++ kept.map some ++ rest'⟩ ∧
      (t.filter (fun x => !isNull x)).length + kept.length + rest'.length = size + rest.length := by
  intro t
  induction t using List.reverseRecOn with
  | nil =>
    intro kept stale rest hs
    exact ⟨stale.map some ++ rest, by simp [compactLoop], by simp at hs ⊢; omega⟩
  | append_singleton t x ih =>
    intro kept stale rest hs
    simp only [List.length_append, List.length_cons, List.length_nil, Nat.zero_add] at hs ⊢
    rw [compactLoop]
    have h1 : load ((t ++ [x]).map some ++ (kept ++ stale).map some ++ rest) t.length = some x := by
      rw [List.append_assoc]; exact load_map _ _ (by simp)
    simp only
    rw [h1, Option.bind_eq_bind, Option.bind_some]
    by_cases hx : isNull x = true
    · rw [if_neg (by simp [hx])]
      obtain ⟨y, hy⟩ := shiftLoop_spec rest (kept ++ stale) (t.map some) x size (t.length + 1)
        (by simp) (by simp; omega)
      obtain ⟨rest', r1, r2⟩ := ih kept (stale ++ [y]) rest (by simp; omega)
      simp only [List.map_append, List.map_cons, List.map_nil, List.append_assoc, List.cons_append,
        List.nil_append] at hy r1 ⊢
      rw [hy, Option.bind_eq_bind, Option.bind_some]
      refine ⟨rest', ?_, ?_⟩
      · have z1 : t.length + 1 + kept.length - 1 = t.length + kept.length := by omega
        rw [z1, r1]
        simp [hx]
      · simp [hx]; omega
    · simp only [Bool.not_eq_true] at hx
      rw [if_pos (by simp [hx])]
      obtain ⟨rest', r1, r2⟩ := ih (x :: kept) stale rest (by simp; omega)
      refine ⟨rest', ?_, ?_⟩
      · simp only [List.length_cons, List.append_assoc, List.map_cons, List.map_append, List.map_nil,
          List.cons_append, List.nil_append] at r1 ⊢
        have z1 : t.length + 1 + kept.length = t.length + (kept.length + 1) := by omega
        rw [z1, r1]
        simp [hx]; omega
      · simp only [List.length_cons] at r2
        simp [hx]; omega

theorem compact_spec {l : DList α} {s : List α} {rest : List (Option α)} (isNull : α → Bool)
    (h : Rep l s rest) :
    ∃ l', compact isNull l = some (l', s.countP isNull) ∧ Holds l' (s.filter (fun x => !isNull x)) := by
  subst h
  unfold compact
  obtain ⟨rest', r1, r2⟩ := compactLoop_spec isNull s.length s [] [] rest (by simp)
  simp only [List.length_nil, Nat.add_zero, List.map_nil, List.append_nil] at r1 r2
  rw [r1, Option.bind_eq_bind, Option.bind_some]
  refine ⟨_, ?_, holds_of_rep rest' (rep_intro rest' rfl r2.symm rfl)⟩
  rw [← length_filter_not isNull s]

/-! ## Searching -/

theorem indexOfLoop_spec {l : DList α} {s : List α} {rest : List (Option α)} (eq : α → α → Bool) (value : α)
    (h : Rep l s rest) : ∀ (n i : Nat), s.length - i = n →
    indexOfLoop eq value l i = some (((s.drop i).findIdx? (eq · value)).map (i + ·))
  | n, i, hn => by
    rw [indexOfLoop]
    have hsz : l.size = s.length := by rw [h]
    by_cases hi : i < s.length
    · rw [if_pos (by omega), get_spec h (List.getElem?_eq_getElem hi), Option.bind_eq_bind, Option.bind_some,
        List.drop_eq_getElem_cons hi, List.findIdx?_cons]
      by_cases he : eq s[i] value = true
      · simp [he]
      · rw [if_neg he, indexOfLoop_spec eq value h (n - 1) (i + 1) (by omega)]
        simp only [he, Option.map_map]
        congr 1
        simp only [Bool.false_eq_true, if_false, Option.map_map]
        congr 1
        funext k
        simp; omega
    · rw [if_neg (by omega), List.drop_eq_nil_of_le (by omega)]
      simp
termination_by n => n

theorem indexOf_spec {l : DList α} {s : List α} {rest : List (Option α)} (eq : α → α → Bool) (value : α)
    (h : Rep l s rest) : indexOf eq l value = some (s.findIdx? (eq · value)) := by
  rw [indexOf, indexOfLoop_spec eq value h _ 0 rfl]
  simp

theorem lastIdx?_snoc (p : α → Bool) (s : List α) (x : α) :
    lastIdx? p (s ++ [x]) = if p x then some s.length else lastIdx? p s := by
  unfold lastIdx?
  rw [List.reverse_append, List.reverse_singleton, List.singleton_append, List.findIdx?_cons]
  by_cases h : p x = true
  · simp [h]
  · simp only [h]
    simp only [Bool.false_eq_true, if_false, Option.map_map]
    congr 1
    funext k
    simp; omega

theorem rindexOfLoop_spec {l : DList α} {s : List α} {rest : List (Option α)} (eq : α → α → Bool) (value : α)
    (h : Rep l s rest) : ∀ (i : Nat), i ≤ s.length →
    rindexOfLoop eq value l i = some (lastIdx? (eq · value) (s.take i))
  | 0, _ => by simp [rindexOfLoop, lastIdx?]
  | i + 1, hi => by
    rw [rindexOfLoop, get_spec h (List.getElem?_eq_getElem (by omega : i < s.length)), Option.bind_eq_bind,
      Option.bind_some, List.take_succ_eq_append_getElem (by omega), lastIdx?_snoc]
    by_cases he : eq s[i] value = true
    · rw [if_pos he, if_pos he, List.length_take, Nat.min_eq_left (by omega)]
    · rw [if_neg he, if_neg he, rindexOfLoop_spec eq value h i (by omega)]

theorem rindexOf_spec {l : DList α} {s : List α} {rest : List (Option α)} (eq : α → α → Bool) (value : α)
    (h : Rep l s rest) : rindexOf eq l value = some (lastIdx? (eq · value) s) := by
  rw [rindexOf, rindexOfLoop_spec eq value h _ (by rw [h])]
  rw [List.take_of_length_le (by rw [h])]

theorem findIdx?_any (p : α → Bool) (s : List α) : (s.findIdx? p).isSome = s.any p := by
  induction s with
  | nil => rfl
  | cons x s ih =>
    rw [List.findIdx?_cons, List.any_cons]
    by_cases h : p x = true
    · simp [h]
    · simp [h]

theorem contains_spec {l : DList α} {s : List α} {rest : List (Option α)} (eq : α → α → Bool) (value : α)
    (h : Rep l s rest) : contains eq l value = some (s.any (eq · value)) := by
  have := indexOf_spec eq value h
  unfold indexOf at this
  rw [contains, this, Option.bind_eq_bind, Option.bind_some, findIdx?_any]

theorem eraseP_of_findIdx (p : α → Bool) : ∀ (s : List α) (i : Nat), s.findIdx? p = some i →
    i < s.length ∧ s.eraseIdx i = s.eraseP p ∧ s.any p = true
  | [], i, h => by simp at h
  | x :: s, i, h => by
    rw [List.findIdx?_cons] at h
    by_cases hx : p x = true
    · simp [hx] at h
      subst h
      simp [hx]
    · simp only [hx] at h
      simp only [Bool.false_eq_true, if_false, Option.map_eq_some_iff] at h
      obtain ⟨k, hk, rfl⟩ := h
      obtain ⟨h1, h2, h3⟩ := eraseP_of_findIdx p s k hk
      refine ⟨by simp; omega, ?_, by simp [hx, h3]⟩
      rw [List.eraseIdx_cons_succ, List.eraseP_cons_of_neg (by simpa using hx), h2]

theorem eraseP_of_none (p : α → Bool) (s : List α) (h : s.findIdx? p = none) :
    s.eraseP p = s ∧ s.any p = false := by
  have h1 : s.any p = false := by rw [← findIdx?_any, h]; rfl
  refine ⟨List.eraseP_of_forall_not (fun a ha hp => ?_), h1⟩
  rw [List.any_eq_false] at h1
  exact h1 a ha hp

theorem removeFirstItem_spec {l : DList α} {s : List α} {rest : List (Option α)} (eq : α → α → Bool) (value : α)
    (h : Rep l s rest) :
    ∃ l', removeFirstItem eq l value = some (l', s.any (eq · value)) ∧ Holds l' (s.eraseP (eq · value)) := by
  unfold removeFirstItem
  rw [indexOf_spec eq value h, Option.bind_eq_bind, Option.bind_some]
  cases hf : s.findIdx? (eq · value) with
  | none =>
    obtain ⟨h1, h2⟩ := eraseP_of_none _ s hf
    exact ⟨l, by rw [h2], by rw [h1]; exact holds_of_rep rest h⟩
  | some i =>
    obtain ⟨h1, h2, h3⟩ := eraseP_of_findIdx _ s i hf
    obtain ⟨l', e1, e2⟩ := removeAt_spec h h1
    refine ⟨l', ?_, by rw [← h2]; exact e2⟩
    simp only [e1, h3, Option.bind_eq_bind, Option.bind_some]

theorem eraseIdx_reverse' (s : List α) (k : Nat) (hk : k < s.length) :
    s.eraseIdx (s.length - 1 - k) = (s.reverse.eraseIdx k).reverse := by
  obtain ⟨a, x, b, rfl, hb⟩ : ∃ a x b, s = a ++ x :: b ∧ b.length = k :=
    ⟨s.take (s.length - 1 - k), s[s.length - 1 - k], s.drop (s.length - 1 - k + 1), by simp, by simp; omega⟩
  subst hb
  have e : (a ++ x :: b).length - 1 - b.length = a.length := by simp
  rw [e, List.eraseIdx_append_of_length_le (Nat.le_refl _)]
  simp only [List.reverse_append, List.reverse_cons, List.append_assoc]
  rw [List.eraseIdx_append_of_length_le (by simp)]
  simp

theorem removeLastItem_spec {l : DList α} {s : List α} {rest : List (Option α)} (eq : α → α → Bool) (value : α)
    (h : Rep l s rest) :
    ∃ l', removeLastItem eq l value = some (l', s.any (eq · value)) ∧
      Holds l' (s.reverse.eraseP (eq · value)).reverse := by
  unfold removeLastItem
  rw [rindexOf_spec eq value h, Option.bind_eq_bind, Option.bind_some]
  have hany : s.reverse.any (eq · value) = s.any (eq · value) := by rw [List.any_reverse]
  unfold lastIdx?
  cases hf : s.reverse.findIdx? (eq · value) with
  | none =>
    obtain ⟨h1, h2⟩ := eraseP_of_none _ _ hf
    rw [hany] at h2
    refine ⟨l, ?_, by rw [h1, List.reverse_reverse]; exact holds_of_rep rest h⟩
    simp [h2]
  | some k =>
    obtain ⟨h1, h2, h3⟩ := eraseP_of_findIdx _ _ k hf
    rw [hany] at h3
    rw [List.length_reverse] at h1
    obtain ⟨l', e1, e2⟩ := removeAt_spec (i := s.length - 1 - k) h (by omega)
    refine ⟨l', ?_, ?_⟩
    · simp only [Option.map_some, e1, h3, Option.bind_eq_bind, Option.bind_some]
    · rw [← h2, ← eraseIdx_reverse' s k h1]; exact e2

end C3.DynList
