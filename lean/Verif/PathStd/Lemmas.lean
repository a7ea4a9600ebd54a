import Verif.PathStd.Spec

set_option autoImplicit false

namespace C3.PathStd

/-! ## Names -/

theorem split_ne (s : List Nat) : split s ≠ [] := by
  cases s with
  | nil => simp [split]
  | cons c s =>
    rw [split]; split
    · simp
    · split <;> simp

theorem split_cons_ne (c : Nat) (s : List Nat) (h : c ≠ 47) :
    split (c :: s) = (c :: (split s).head (split_ne s)) :: (split s).tail := by
  rw [split, if_neg h]
  split
  · next h0 => exact absurd h0 (split_ne s)
  · next x xs h0 => simp [h0]

theorem split_append (cur s : List Nat) (h : 47 ∉ cur) :
    split (cur ++ s) = (cur ++ (split s).head (split_ne s)) :: (split s).tail := by
  induction cur with
  | nil => simp
  | cons c cur ih =>
    simp only [List.mem_cons, not_or] at h
    rw [List.cons_append, split_cons_ne _ _ (fun e => h.1 e.symm)]
    simp [ih h.2]

theorem split_cur (cur : List Nat) (h : 47 ∉ cur) : split cur = [cur] := by
  have := split_append cur [] h
  simpa [split] using this

theorem split_sep (cur s : List Nat) (h : 47 ∉ cur) : split (cur ++ 47 :: s) = cur :: split s := by
  rw [split_append _ _ h]
  simp [split]

/-- Names, each with a separator behind it. -/
def flat (st : List (List Nat)) : List Nat := st.flatMap (· ++ [47])

theorem flat_nil : flat [] = [] := rfl

theorem flat_append (a : List (List Nat)) (x : List Nat) : flat (a ++ [x]) = flat a ++ (x ++ [47]) := by
  simp [flat]

theorem join_append (a : List (List Nat)) (x : List Nat) : join (a ++ [x]) = flat a ++ x := by
  induction a with
  | nil => rfl
  | cons y a ih =>
    cases a with
    | nil => simp [join, flat]
    | cons z a =>
      rw [List.cons_append, List.cons_append, join, ← List.cons_append, ih]
      simp [flat]

/-- A name that can be in a normal path. -/
def Name (x : List Nat) : Prop := x ≠ [] ∧ 47 ∉ x ∧ 0 ∉ x

theorem split_join (st : List (List Nat)) (h : ∀ x ∈ st, 47 ∉ x) (hne : st ≠ []) :
    split (join st) = st := by
  induction st with
  | nil => exact absurd rfl hne
  | cons x st ih =>
    cases st with
    | nil => rw [join]; exact split_cur x (h x (by simp))
    | cons y st =>
      rw [join, split_sep x _ (h x (by simp)), ih (fun z hz => h z (by simp [hz])) (by simp)]

/-! ## Bytes -/

theorem rd_take (s out : List Nat) (len j : Nat) (ht : s.take len = out) (hj : j < out.length) :
    rd s j = .ok out[j] := by
  subst ht
  have h1 : j < s.length := by simp at hj; omega
  have h2 : s[j]? = some s[j] := List.getElem?_eq_getElem h1
  rw [rd, h2]; simp

theorem rd_drop (s rest : List Nat) (i j c : Nat) (ht : s.drop i = rest) (hj : rest[j]? = some c) :
    rd s (i + j) = .ok c := by
  subst ht
  rw [List.getElem?_drop] at hj
  rw [rd, hj]

theorem wr_ok (s : List Nat) (i c : Nat) (h : i < s.length) : wr s i c = .ok (s.set i c) := by
  rw [wr, if_pos h]

theorem take_set_succ (s : List Nat) (i c : Nat) (h : i < s.length) :
    (s.set i c).take (i + 1) = s.take i ++ [c] := by
  rw [List.take_add_one, List.take_set_of_le (Nat.le_refl i)]
  simp [h]

theorem drop_set (s : List Nat) (i j c : Nat) (h : j < i) : (s.set j c).drop i = s.drop i := by
  rw [List.drop_set_of_lt h]

/-- The state of the loop: what is written is `out`, what is to be read is `rest`. -/
structure St (n : Nat) (s : List Nat) (i len : Nat) (out rest : List Nat) : Prop where
  length : s.length = n
  le : len ≤ i
  out_length : out.length = len
  out_eq : s.take len = out
  rest_eq : s.drop i = rest

theorem St.lt {n : Nat} {s : List Nat} {i len c : Nat} {out rest : List Nat}
    (h : St n s i len out (c :: rest)) : i + rest.length + 1 = n := by
  have h1 := congrArg List.length h.rest_eq
  have h2 := h.length
  simp at h1; omega

theorem St.done {n : Nat} {s : List Nat} {i len : Nat} {out : List Nat}
    (h : St n s i len out []) : n ≤ i := by
  have h1 := congrArg List.length h.rest_eq
  have h2 := h.length
  simp at h1; omega

theorem St.skip {n : Nat} {s : List Nat} {i len : Nat} {out rest : List Nat} (k : Nat)
    (h : St n s i len out rest) : St n s (i + k) len out (rest.drop k) :=
  ⟨h.length, by have := h.le; omega, h.out_length, h.out_eq, by rw [← h.rest_eq, List.drop_drop]⟩

theorem St.put {n : Nat} {s : List Nat} {i len c : Nat} {out rest : List Nat} (x : Nat)
    (h : St n s i len out (c :: rest)) :
    wr s len x = .ok (s.set len x) ∧ St n (s.set len x) (i + 1) (len + 1) (out ++ [x]) rest := by
  have h1 := h.lt
  have h2 := h.length
  have h3 := h.le
  refine ⟨wr_ok _ _ _ (by omega), by simp [h2], by omega, by simp [h.out_length], ?_, ?_⟩
  · rw [take_set_succ _ _ _ (by omega), h.out_eq]
  · rw [drop_set _ _ _ _ (by omega)]
    have := (h.skip 1).rest_eq
    simpa using this

theorem St.same {n : Nat} {s : List Nat} {len c : Nat} {out rest : List Nat}
    (h : St n s len len out (c :: rest)) : St n s (len + 1) (len + 1) (out ++ [c]) rest := by
  have h1 := h.lt
  have h2 := h.length
  have hc : s[len]? = some c := by
    have := congrArg (fun l => l[0]?) h.rest_eq
    simpa using this
  refine ⟨h2, by omega, by simp [h.out_length], ?_, by simpa using (h.skip 1).rest_eq⟩
  rw [List.take_add_one, h.out_eq, hc]; rfl

theorem St.plain {n : Nat} {s : List Nat} {i len c : Nat} {out rest : List Nat}
    (h : St n s i len out (c :: rest)) :
    ∃ s', plain s i len c = .ok ⟨s', len + 1, false, 0⟩ ∧ St n s' (i + 1) (len + 1) (out ++ [c]) rest := by
  by_cases he : i = len
  · subst he
    exact ⟨s, by simp [PathStd.plain, bind, Except.bind], h.same⟩
  · obtain ⟨h1, h2⟩ := h.put c
    exact ⟨s.set len c, by simp [PathStd.plain, he, h1, bind, Except.bind], h2⟩

theorem St.rd0 {n : Nat} {s : List Nat} {i len c : Nat} {out rest : List Nat}
    (h : St n s i len out (c :: rest)) : rd s i = .ok c := by
  have := rd_drop s _ i 0 c h.rest_eq (by simp)
  simpa using this

/-! ## `..` -/

theorem getLast_of (st : List (List Nat)) (x : List Nat) : (st ++ [x]).getLast? = some x := by simp

theorem ends_sep (base : List Nat) (st : List (List Nat)) (hb : base = [] ∨ base = [47])
    (hne : base ++ flat st ≠ []) : ∃ p, base ++ flat st = p ++ [47] := by
  rcases List.eq_nil_or_concat st with rfl | ⟨st0, x, rfl⟩
  · rcases hb with rfl | rfl
    · simp [flat] at hne
    · exact ⟨[], by simp [flat]⟩
  · rw [List.concat_eq_append, flat_append]
    exact ⟨base ++ (flat st0 ++ x), by simp⟩

theorem rd_at (s : List Nat) (a b : List Nat) (c len : Nat) (ht : s.take len = a ++ c :: b) :
    rd s a.length = .ok c := by
  rw [rd_take s _ len _ ht (by simp)]
  simp

theorem afterDotDot_eq (s base : List Nat) (st0 : List (List Nat)) (x : List Nat) (len : Nat)
    (hb : base = [] ∨ base = [47]) (hx : Name x)
    (hlen : (base ++ flat (st0 ++ [x])).length = len)
    (ht : s.take len = base ++ flat (st0 ++ [x])) :
    afterDotDot s base.length len = .ok (dotLike x) := by
  rw [flat_append] at ht hlen
  obtain ⟨hx1, hx2, hx3⟩ := hx
  have hl : len = base.length + (flat st0).length + x.length + 1 := by
    rw [← hlen]; simp; omega
  have hbl : base.length ≤ 1 := by rcases hb with rfl | rfl <;> simp
  have hlast : rd s (len - 1) = .ok 47 := by
    have h := rd_at s (base ++ (flat st0 ++ x)) [] 47 len (by rw [ht]; simp)
    rw [show len - 1 = (base ++ (flat st0 ++ x)).length by simp; omega]
    exact h
  match x, hx1 with
  | [a], _ =>
    have hd : dotLike [a] = false := rfl
    rw [hd, afterDotDot]
    by_cases h3 : len - base.length ≥ 3
    · rw [if_neg (by simpa using h3)]
      simp only [List.length_cons, List.length_nil] at hl
      obtain ⟨p, hp⟩ := ends_sep base st0 hb (by
        intro e
        have := congrArg List.length e
        simp only [List.length_append, List.length_nil] at this
        omega)
      have h := rd_at s p [a, 47] 47 len (by
        rw [ht, ← List.append_assoc, hp]; simp)
      have hpl := congrArg List.length hp
      simp at hpl
      rw [show p.length = len - 3 by omega] at h
      simp [hlast, h, bind, Except.bind]
    · rw [if_pos (by simpa using h3)]
  | [a, b], _ =>
    simp only [List.length_cons, List.length_nil] at hl
    have h3 : len - base.length ≥ 3 := by omega
    rw [afterDotDot, if_neg (by simpa using h3)]
    have h := rd_at s (base ++ flat st0) [b, 47] a len (by rw [ht]; simp)
    have hpl : (base ++ flat st0).length = len - 3 := by simp; omega
    rw [hpl] at h
    by_cases ha : a = 46
    · subst ha
      have hd : dotLike [46, b] = true := rfl
      by_cases h0 : len - 3 = 0
      · rw [h0] at h
        simp [hlast, h, bind, Except.bind, h0, hd]
      · obtain ⟨p, hp⟩ := ends_sep base st0 hb (by
          intro e
          rw [e] at hpl
          simp at hpl; omega)
        have h4 := rd_at s p [46, b, 47] 47 len (by
          rw [ht, ← List.append_assoc, hp]; simp)
        have hp2 := congrArg List.length hp
        rw [hpl] at hp2
        simp at hp2
        rw [show p.length = len - 4 by omega] at h4
        simp [hlast, h, h4, bind, Except.bind, h0, hd]
    · have hd : dotLike [a, b] = false := by simp [dotLike, ha]
      simp [hlast, h, bind, Except.bind, ha, hd]
  | a :: b :: c :: x, _ =>
    have hd : dotLike (a :: b :: c :: x) = false := by simp [dotLike]
    rw [hd]
    have hsplit : ∃ y p q r, a :: b :: c :: x = y ++ [p, q, r] := by
      refine ⟨(a :: b :: c :: x).take x.length, ?_⟩
      have h1 : ((a :: b :: c :: x).drop x.length).length = 3 := by simp; omega
      match hm : (a :: b :: c :: x).drop x.length, h1 with
      | [p, q, r], _ =>
        exact ⟨p, q, r, by rw [← hm, List.take_append_drop]⟩
    obtain ⟨y, p, q, r, he⟩ := hsplit
    rw [he] at ht hl hx2
    simp only [List.length_append, List.length_cons, List.length_nil] at hl
    have h3 : len - base.length ≥ 3 := by omega
    rw [afterDotDot, if_neg (by simpa using h3)]
    have h := rd_at s (base ++ (flat st0 ++ (y ++ [p]))) [r, 47] q len (by rw [ht]; simp)
    rw [show (base ++ (flat st0 ++ (y ++ [p]))).length = len - 3 by simp; omega] at h
    have h4 := rd_at s (base ++ (flat st0 ++ y)) [q, r, 47] p len (by rw [ht]; simp)
    rw [show (base ++ (flat st0 ++ y)).length = len - 4 by simp; omega] at h4
    have hp : p ≠ 47 := by
      rintro rfl
      exact hx2 (by simp)
    have h0 : len - 3 ≠ 0 := by omega
    by_cases hq : q = 46
    · simp [hlast, h, h4, bind, Except.bind, hq, h0, hp]
    · simp [hlast, h, bind, Except.bind, hq]

theorem back_eq (s pre : List Nat) (start : Nat) (hs : start ≤ pre.length)
    (hp : pre.length = start ∨ ∃ p, pre = p ++ [47]) (len k : Nat) :
    ∀ (x y : List Nat), x.length = k → 47 ∉ x → s.take len = pre ++ x ++ y →
      back s start (pre.length + x.length) = .ok pre.length := by
  induction k with
  | zero =>
    intro x y hk hx ht
    have hx0 : x = [] := List.length_eq_zero_iff.1 hk
    subst hx0
    simp only [List.length_nil, Nat.add_zero]
    cases hpl : pre.length with
    | zero => rfl
    | succ m =>
      rw [back]
      split
      · next hgt =>
        rcases hp with h | ⟨p, rfl⟩
        · omega
        · have h := rd_at s p y 47 len (by rw [ht]; simp)
          simp at hpl
          rw [← hpl, h]
          simp [bind, Except.bind, isSep]
      · rfl
  | succ k ih =>
    intro x y hk hx ht
    rcases List.eq_nil_or_concat x with rfl | ⟨x, a, rfl⟩
    · simp at hk
    rw [List.concat_eq_append] at hk hx ht ⊢
    have ha : a ≠ 47 := by rintro rfl; exact hx (by simp)
    have h := rd_at s (pre ++ x) y a len (by rw [ht]; simp)
    simp only [List.length_append, List.length_cons, List.length_nil] at h ⊢
    rw [show pre.length + (x.length + (0 + 1)) = (pre.length + x.length) + 1 by omega, back,
      if_pos (by omega), h]
    have ih' := ih x (a :: y) (by simpa using hk) (fun hm => hx (by simp [hm])) (by rw [ht]; simp)
    simp [bind, Except.bind, isSep, ha, ih']

end C3.PathStd
