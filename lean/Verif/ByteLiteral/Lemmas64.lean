import Verif.ByteLiteral.Lemmas

/-! # Helper lemmas for byte literals: base64 -/

set_option autoImplicit false

namespace C3.ByteLiteral
open C3.Codec (Decodes store bytesVal symsVal)

/-- The bytes of the whole groups. -/
def groups : List Nat → List Byte
  | a :: b :: c :: d :: l => triplet a b c d ++ groups l
  | _ => []

/-- The sextets behind the last whole group. -/
def left : List Nat → List Nat
  | _ :: _ :: _ :: _ :: l => left l
  | l => l

def sx (cs : List Byte) : List Nat := cs.filterMap base64_to_sextet

theorem sx_none {c : Byte} (h : base64_to_sextet c = none) (cs : List Byte) : sx (c :: cs) = sx cs :=
  List.filterMap_cons_none h

theorem sx_some {c : Byte} {v : Nat} (h : base64_to_sextet c = some v) (cs : List Byte) :
    sx (c :: cs) = v :: sx cs := List.filterMap_cons_some h

@[simp] theorem sx_nil : sx [] = [] := rfl

theorem left_length : ∀ (l : List Nat), (left l).length = l.length % 4
  | [] | [_] | [_, _] | [_, _, _] => by simp [left]
  | a :: b :: c :: d :: l => by
    rw [left, left_length l]; simp only [List.length_cons]; omega

theorem put_append (e : Nat) : ∀ (x y : List Byte) (buf : Cells) (i : Nat),
    put buf i e (x ++ y) = (put buf i e x).bind fun p => put p.1 p.2 e y
  | [], y, buf, i => by simp [put]
  | b :: x, y, buf, i => by
    rw [List.cons_append, put, put]
    split
    · simp only [Option.bind_eq_bind, Option.bind_assoc]
      congr 1; funext buf'; exact put_append e x y buf' (i + 1)
    · exact put_append e x y buf i

theorem left_short (l : List Nat) (h : l.length < 4) : left l = l ∧ groups l = [] := by
  match l, h with
  | [], _ | [_], _ | [_, _], _ | [_, _, _], _ => simp [left, groups]
  | _ :: _ :: _ :: _ :: _, h => simp only [List.length_cons] at h; omega

/-- The group loop over the characters of the literal. -/
theorem run (rest : List Byte) (e : Nat) : ∀ (cs : List Byte) (k' : Nat) (vals : List Nat) (buf : Cells) (i : Nat),
    vals.length < 4 →
    parse_base64 (cs ++ rest) (cs.length + k') vals buf i e =
      (put buf i e (groups (vals ++ sx cs))).bind fun p =>
        parse_base64 rest k' (left (vals ++ sx cs)) p.1 p.2 e
  | [], k', vals, buf, i, hv => by
    simp [left_short vals hv, put]
  | c :: cs, k', vals, buf, i, hv => by
    rw [List.cons_append, parse_base64, if_neg (by simp)]
    have hk : (c :: cs).length + k' - 1 = cs.length + k' := by simp only [List.length_cons]; omega
    rw [hk]
    cases hs : base64_to_sextet c with
    | none =>
      simp only []
      rw [run rest e cs k' vals buf i hv, sx_none hs]
    | some v =>
      rw [sx_some hs]
      have hc : ∀ vals : List Nat, vals.length < 3 → parse_base64 (cs ++ rest) (cs.length + k') (vals ++ [v]) buf i e =
          (put buf i e (groups (vals ++ v :: sx cs))).bind fun p =>
            parse_base64 rest k' (left (vals ++ v :: sx cs)) p.1 p.2 e := by
        intro vals h
        rw [run rest e cs k' (vals ++ [v]) buf i (by simp; omega)]
        simp
      match vals, hv with
      | [], _ => exact hc [] (by simp)
      | [v1], _ => exact hc [v1] (by simp)
      | [v1, v2], _ => exact hc [v1, v2] (by simp)
      | [v1, v2, v3], _ =>
        simp only [List.cons_append, List.nil_append, groups, left, put_append, Option.bind_eq_bind,
          Option.bind_assoc]
        congr 1; funext p
        rw [run rest e cs k' [] p.1 p.2 (by simp)]
        simp
      | _ :: _ :: _ :: _ :: _, h => simp only [List.length_cons] at h; omega

/-- The characters behind the literal that complete the last group. -/
theorem run_over (rest : List Byte) (e : Nat) (c : Byte) (v : Nat) (hc : base64_to_sextet c = some v) :
    ∀ (x : List Byte) (vals : List Nat) (buf : Cells) (i : Nat), vals ≠ [] →
    vals.length + (sx x).length = 3 →
    parse_base64 (x ++ c :: rest) 0 vals buf i e = (put buf i e (groups (vals ++ sx x ++ [v]))).map (·.1)
  | [], vals, buf, i, hv, hl => by
    rw [List.nil_append, parse_base64, if_neg (by simp [hv]), hc]
    match vals, hl with
    | [v1, v2, v3], _ =>
      simp only [groups, sx_nil, List.append_nil, List.cons_append, List.nil_append]
      rw [Option.bind_eq_bind, Option.map_eq_bind]
      congr 1; funext p
      cases rest <;> simp [parse_base64]
  | y :: x, vals, buf, i, hv, hl => by
    rw [List.cons_append, parse_base64, if_neg (by simp [hv])]
    cases hs : base64_to_sextet y with
    | none =>
      rw [sx_none hs] at hl ⊢
      exact run_over rest e c v hc x vals buf i hv hl
    | some w =>
      rw [sx_some hs] at hl ⊢
      rw [List.length_cons] at hl
      have : parse_base64 (x ++ c :: rest) 0 (vals ++ [w]) buf i e =
          (put buf i e (groups (vals ++ w :: sx x ++ [v]))).map (·.1) := by
        rw [run_over rest e c v hc x (vals ++ [w]) buf i (by simp) (by simp; omega)]
        simp
      match vals, hv, hl with
      | [v1], _, _ => exact this
      | [v1, v2], _, _ => exact this
      | [v1, v2, v3], _, hl => simp only [List.length_cons] at hl; omega
      | _ :: _ :: _ :: _ :: _, _, hl => simp only [List.length_cons] at hl; omega

/-- Too few characters behind the literal: the read leaves the text. -/
theorem run_short (e : Nat) : ∀ (x : List Byte) (vals : List Nat) (buf : Cells) (i : Nat), vals ≠ [] →
    vals.length + (sx x).length ≤ 3 → parse_base64 x 0 vals buf i e = none
  | [], vals, buf, i, hv, hl => by rw [parse_base64, if_neg (by simp [hv])]
  | y :: x, vals, buf, i, hv, hl => by
    rw [parse_base64, if_neg (by simp [hv])]
    cases hs : base64_to_sextet y with
    | none =>
      rw [sx_none hs] at hl
      exact run_short e x vals buf i hv hl
    | some w =>
      rw [sx_some hs, List.length_cons] at hl
      have : parse_base64 x 0 (vals ++ [w]) buf i e = none :=
        run_short e x (vals ++ [w]) buf i (by simp) (by simp; omega)
      match vals, hv, hl with
      | [v1], _, _ => exact this
      | [v1, v2], _, _ => exact this
      | [v1, v2, v3], _, hl => simp only [List.length_cons] at hl; omega
      | _ :: _ :: _ :: _ :: _, _, hl => simp only [List.length_cons] at hl; omega

/-- The position of the `n`-th sextet character. -/
theorem nth_sextet : ∀ (l : List Byte) (n : Nat), n < (sx l).length →
    ∃ x c v rest, l = x ++ c :: rest ∧ (sx x).length = n ∧ base64_to_sextet c = some v
  | [], n, h => by simp at h
  | c :: l, n, h => by
    cases hs : base64_to_sextet c with
    | none =>
      rw [sx_none hs] at h
      obtain ⟨x, d, v, rest, e1, e2, e3⟩ := nth_sextet l n h
      exact ⟨c :: x, d, v, rest, by rw [e1]; rfl, by rw [sx_none hs]; exact e2, e3⟩
    | some w =>
      rw [sx_some hs, List.length_cons] at h
      cases n with
      | zero => exact ⟨[], c, w, l, rfl, rfl, hs⟩
      | succ n =>
        obtain ⟨x, d, v, rest, e1, e2, e3⟩ := nth_sextet l n (by omega)
        exact ⟨c :: x, d, v, rest, by rw [e1]; rfl,
          by rw [sx_some hs, List.length_cons, e2], e3⟩

/-! ## The value of the groups -/

theorem triplet_decodes (a b c d : Nat) (ha : a < 64) (hb : b < 64) (hc : c < 64) (hd : d < 64) :
    Decodes 6 [a, b, c, d] (triplet a b c d) := by
  refine ⟨by simp [triplet], ?_⟩
  simp only [triplet, symsVal, bytesVal, C3.Bigint.positional, List.map, List.foldl, List.length,
    BitVec.toNat_ofNat]
  omega

theorem groups_decodes : ∀ (l : List Nat), (∀ v ∈ l, v < 64) → l.length % 4 = 0 → Decodes 6 l (groups l)
  | [], _, _ => by simp [Decodes, bytesVal, symsVal, groups]
  | [_], _, h | [_, _], _, h | [_, _, _], _, h => by simp at h
  | a :: b :: c :: d :: l, hl, h => by
    rw [groups]
    refine Decodes.append (s1 := [a, b, c, d]) (triplet_decodes a b c d (hl a (by simp)) (hl b (by simp))
      (hl c (by simp)) (hl d (by simp))) (by simp [triplet]) (groups_decodes l (fun v hv => hl v (by simp [hv])) ?_)
    simp only [List.length_cons] at h; omega

theorem groups_split : ∀ (l t : List Nat), groups (l ++ t) = groups l ++ groups (left l ++ t)
  | [], t | [_], t | [_, _], t | [_, _, _], t => by simp [left, groups]
  | a :: b :: c :: d :: l, t => by
    simp only [List.cons_append, groups, left, List.append_assoc, groups_split l t]

theorem left_split : ∀ (l t : List Nat), left (l ++ t) = left (left l ++ t)
  | [], t | [_], t | [_, _], t | [_, _, _], t => by simp [left]
  | a :: b :: c :: d :: l, t => by
    simp only [List.cons_append, left, left_split l t]

/-- Symbols appended to fill up the last group do not reach the bytes that are kept. -/
theorem groups_take : ∀ (l js : List Nat), (∀ v ∈ l, v < 64) → (∀ v ∈ js, v < 64) → l.length % 4 ≠ 1 →
    js.length < 4 → (l ++ js).length % 4 = 0 → Decodes 6 l ((groups (l ++ js)).take (l.length * 6 / 8))
  | [], js, _, _, _, h4, h => by
    simp at h
    have : js = [] := List.eq_nil_of_length_eq_zero (by omega)
    subst this
    simp [Decodes, bytesVal, symsVal, groups]
  | [_], _, _, _, h, _, _ => by simp at h
  | [a, b], [c, d], hl, hj, _, _, _ => by
    have ha := hl a (by simp); have hb := hl b (by simp); have hc := hj c (by simp); have hd := hj d (by simp)
    refine ⟨by simp [groups, triplet], ?_⟩
    simp only [groups, triplet, symsVal, bytesVal, C3.Bigint.positional, List.map, List.foldl, List.length,
      BitVec.toNat_ofNat, List.cons_append, List.nil_append, List.append_nil, List.take]
    simp
    omega
  | [_, _], [], _, _, _, _, h | [_, _], [_], _, _, _, _, h | [_, _], [_, _, _], _, _, _, _, h => by simp at h
  | [_, _], _ :: _ :: _ :: _ :: _, _, _, _, h, _ => by
    simp only [List.length_cons] at h; omega
  | [a, b, c], [d], hl, hj, _, _, _ => by
    have ha := hl a (by simp); have hb := hl b (by simp); have hc := hl c (by simp); have hd := hj d (by simp)
    refine ⟨by simp [groups, triplet], ?_⟩
    simp only [groups, triplet, symsVal, bytesVal, C3.Bigint.positional, List.map, List.foldl, List.length,
      BitVec.toNat_ofNat, List.cons_append, List.nil_append, List.append_nil, List.take]
    simp
    omega
  | [_, _, _], [], _, _, _, _, h | [_, _, _], [_, _], _, _, _, _, h | [_, _, _], [_, _, _], _, _, _, _, h => by
    simp at h
  | [_, _, _], _ :: _ :: _ :: _ :: _, _, _, _, h, _ => by
    simp only [List.length_cons] at h; omega
  | a :: b :: c :: d :: l, js, hl, hj, h1, h4, h => by
    simp only [List.cons_append, groups]
    have hn : (a :: b :: c :: d :: l).length * 6 / 8 = 3 + l.length * 6 / 8 := by
      simp only [List.length_cons]; omega
    have ht : (triplet a b c d).length = 3 := by simp [triplet]
    rw [hn, List.take_append, List.take_of_length_le (by omega), ht, Nat.add_sub_cancel_left]
    refine Decodes.append (s1 := [a, b, c, d]) (triplet_decodes a b c d (hl a (by simp)) (hl b (by simp))
      (hl c (by simp)) (hl d (by simp))) (by simp [triplet])
      (groups_take l js (fun v hv => hl v (by simp [hv])) hj ?_ h4 ?_)
    · simp only [List.length_cons] at h1; omega
    · simp only [List.length_cons, List.cons_append] at h; omega

theorem groups_length : ∀ (l : List Nat), (groups l).length = l.length / 4 * 3
  | [] | [_] | [_, _] | [_, _, _] => by simp [groups]
  | a :: b :: c :: d :: l => by
    rw [groups, List.length_append, groups_length l]
    simp only [triplet, List.length_cons, List.length_nil]; omega

/-! ## `put` -/

theorem put_fill (e : Nat) : ∀ (B : List Byte) (a t : Cells) (i : Nat), a.length = i → i ≤ e →
    e ≤ i + t.length →
    ∃ i', put (a ++ t) i e B = some (a ++ (B.take (e - i)).map some ++ t.drop (B.take (e - i)).length, i')
  | [], a, t, i, _, _, _ => ⟨i, by simp [put]⟩
  | b :: B, a, t, i, ha, hi, ht => by
    rw [put]
    by_cases h : i < e
    · rw [if_pos h]
      match t, ht with
      | [], ht => simp at ht; omega
      | x :: t, ht =>
        rw [store_mid a x _ t i ha, Option.bind_eq_bind, Option.bind_some]
        obtain ⟨i', h'⟩ := put_fill e B (a ++ [some b]) t (i + 1) (by simp [ha]) (by omega)
          (by simp at ht; omega)
        have hs : e - i = (e - (i + 1)) + 1 := by omega
        refine ⟨i', ?_⟩
        rw [show a ++ some b :: t = (a ++ [some b]) ++ t by simp, h', hs]
        simp
    · rw [if_neg h]
      have hs : e - i = 0 := by omega
      obtain ⟨i', h'⟩ := put_fill e B a t i ha hi ht
      refine ⟨i', ?_⟩
      rw [h', hs]
      simp

/-- `put` changes neither the cells in front of `i` nor those at or behind `e`. -/
theorem put_outside (e j : Nat) : ∀ (B : List Byte) (buf : Cells) (i : Nat) (p : Cells × Nat),
    j < i ∨ e ≤ j → put buf i e B = some p → p.1[j]? = buf[j]? ∧ p.1.length = buf.length ∧ i ≤ p.2
  | [], buf, i, p, _, h => by
    rw [put, Option.some.injEq] at h; rw [← h]; exact ⟨rfl, rfl, Nat.le_refl _⟩
  | b :: B, buf, i, p, hj, h => by
    rw [put] at h
    split at h
    · next hi =>
      rw [Option.bind_eq_bind] at h
      unfold store at h
      split at h
      · rw [Option.bind_some] at h
        have := put_outside e j B _ (i + 1) p (by omega) h
        rw [List.getElem?_set_ne (by omega), List.length_set] at this
        exact ⟨this.1, this.2.1, by omega⟩
      · simp at h
    · exact put_outside e j B buf i p hj h

theorem parse_base64_outside (e j : Nat) : ∀ (data : List Byte) (k : Nat) (vals : List Nat) (buf out : Cells) (i : Nat),
    j < i ∨ e ≤ j → parse_base64 data k vals buf i e = some out → out[j]? = buf[j]? ∧ out.length = buf.length
  | [], k, vals, buf, out, i, hj, h => by
    rw [parse_base64] at h
    split at h
    · rw [Option.some.injEq] at h; rw [h]; exact ⟨rfl, rfl⟩
    · simp at h
  | c :: data, k, vals, buf, out, i, hj, h => by
    rw [parse_base64] at h
    split at h
    · rw [Option.some.injEq] at h; rw [h]; exact ⟨rfl, rfl⟩
    · split at h
      · exact parse_base64_outside e j data _ vals buf out i hj h
      · split at h
        · rw [Option.bind_eq_bind, Option.bind_eq_some_iff] at h
          obtain ⟨p, h1, h2⟩ := h
          have hp := put_outside e j _ buf i p hj h1
          have := parse_base64_outside e j data _ [] p.1 out p.2 (by omega) h2
          rw [hp.1, hp.2.1] at this
          exact this
        · exact parse_base64_outside e j data _ _ buf out i hj h

/-- With no sextet missing in the last group, or with enough of them behind the literal, a base64
piece at the start of the memory is read in full. -/
theorem parse_base64_spec (cs rest : List Byte) (n : Nat) (l : List Nat) (z : Nat)
    (hl : sx cs = l ++ List.replicate z 0) (hlt : ∀ v ∈ l, v < 64) (h1 : l.length % 4 ≠ 1) (hz : z ≤ 2)
    (hn : n = l.length * 6 / 8)
    (hpad : (z ≠ 0 → (l.length + z) % 4 = 0))
    (henough : z = 0 → (4 - l.length % 4) % 4 ≤ (sx rest).length) :
    ∃ bs, Decodes 6 l bs ∧ parse_base64 (cs ++ rest) cs.length [] (List.replicate (n + 1) none) 0 n =
      some (bs.map some ++ [none]) := by
  have fill : ∀ B : List Byte, n ≤ B.length →
      ∃ i', put (List.replicate (n + 1) none) 0 n B = some ((B.take n).map some ++ [none], i') := by
    intro B hB
    obtain ⟨i', h⟩ := put_fill n B [] (List.replicate (n + 1) none) 0 rfl (by omega) (by simp)
    refine ⟨i', ?_⟩
    rw [List.nil_append] at h
    rw [h]
    simp [Nat.min_eq_left hB]
  have hrun := run rest n cs 0 [] (List.replicate (n + 1) none) 0 (by simp)
  rw [Nat.add_zero, List.nil_append] at hrun
  by_cases hw : (sx cs).length % 4 = 0
  · have hll : left (sx cs) = [] := List.eq_nil_of_length_eq_zero (by rw [left_length, hw])
    obtain ⟨i', hf⟩ := fill (groups (sx cs)) (by
      rw [groups_length]; rw [hl, List.length_append, List.length_replicate] at hw ⊢; omega)
    rw [hll, hf, Option.bind_some] at hrun
    refine ⟨(groups (sx cs)).take n, ?_, ?_⟩
    · rw [hl, hn]
      refine groups_take l _ hlt (fun v hv => ?_) h1 (by simp; omega) (by rw [← hl]; exact hw)
      rw [List.eq_of_mem_replicate hv]; omega
    · rw [hrun]; cases rest <;> simp [parse_base64]
  · have hz0 : z = 0 := by
      by_contra hz0
      have := hpad hz0
      rw [hl, List.length_append, List.length_replicate] at hw
      exact hw this
    subst hz0
    rw [List.replicate_zero, List.append_nil] at hl
    rw [hl] at hw hrun
    have he := henough rfl
    obtain ⟨x, c, v, rest', e1, e2, e3⟩ := nth_sextet rest (4 - l.length % 4 - 1) (by omega)
    have hleft := left_length l
    have hov := fun buf i => run_over rest' n c v e3 x (left l) buf i
      (by intro h; rw [h] at hleft; simp at hleft; omega) (by rw [hleft, e2]; omega)
    rw [e1] at hrun
    simp only [hov] at hrun
    have hB : groups l ++ groups (left l ++ sx x ++ [v]) = groups (l ++ (sx x ++ [v])) := by
      rw [groups_split l, List.append_assoc]
    have hlen : (l ++ (sx x ++ [v])).length % 4 = 0 := by
      simp only [List.length_append, e2, List.length_cons, List.length_nil]; omega
    obtain ⟨i', hf⟩ := fill (groups (l ++ (sx x ++ [v]))) (by
      rw [groups_length]; simp only [List.length_append, e2, List.length_cons, List.length_nil] at hlen ⊢; omega)
    rw [← hB, put_append] at hf
    refine ⟨(groups (l ++ (sx x ++ [v]))).take n, ?_, ?_⟩
    · rw [hn]
      refine groups_take l _ hlt (fun w hw => ?_) h1 (by simp only [List.length_append, e2, List.length_cons, List.length_nil]; omega) hlen
      rcases List.mem_append.1 hw with hw | hw
      · obtain ⟨d, _, hd⟩ := List.mem_filterMap.1 hw
        exact sextet_lt hd
      · rw [List.mem_singleton.1 hw]; exact sextet_lt e3
    · rw [e1, hrun, ← hB]
      have := congrArg (Option.map (·.1)) hf
      rw [Option.map_bind] at this
      exact this

end C3.ByteLiteral
