import Verif.ByteLiteral.Lemmas64

/-! # Helper lemmas for byte literals: tokens -/

set_option autoImplicit false

namespace C3.ByteLiteral
open C3.Codec (Decodes store bytesVal symsVal)

theorem b64Count_eq (cs : List Byte) : b64Count cs = (sx cs).length := by
  induction cs with
  | nil => rfl
  | cons c cs ih =>
    unfold b64Count at ih ⊢
    by_cases h : c = 61
    · subst h
      rw [List.countP_cons_of_pos (by simp), sx_some (v := 0) (by decide), List.length_cons, ih]
    · cases hb : b64Val c with
      | none =>
        rw [List.countP_cons_of_neg (by rw [hb]; simpa using h), sx_none (by rw [sextet_eq, if_neg h, hb]), ih]
      | some v =>
        rw [List.countP_cons_of_pos (by simp [hb]), sx_some (v := v) (by rw [sextet_eq, if_neg h, hb]),
          List.length_cons, ih]

theorem hex_token {text : List Byte} {t : Token} (h : scan_hex_array text = some (some t)) :
    ∃ q cs rest, text = q :: (cs ++ q :: rest) ∧ q ∉ cs ∧ (∀ c ∈ cs, (∃ v, hexVal c = some v) ∨ isSpace c) ∧
      (cs.filterMap hexVal).length % 2 = 0 ∧
      t = ⟨false, (cs.filterMap hexVal).length / 2, cs ++ q :: rest, cs.length⟩ := by
  cases text with
  | nil => simp [scan_hex_array] at h
  | cons q text =>
    rw [scan_hex_array, Option.bind_eq_bind, Option.bind_eq_some_iff] at h
    obtain ⟨r, h1, h2⟩ := h
    cases r with
    | none => simp at h2
    | some r =>
      obtain ⟨len, k, rest⟩ := r
      obtain ⟨cs, e1, e2, e3, e4, e5⟩ := scanHexLoop_inv q text 0 0 len k rest h1
      simp only [] at h2
      split at h2
      · simp at h2
      · next h3 =>
        simp only [Option.some.injEq] at h2
        rw [Nat.zero_add] at e4 e5
        refine ⟨q, cs, rest, by rw [e1], e2, e3, by omega, ?_⟩
        rw [← h2, e4, e5, e1]

theorem hex_of (q : Byte) (hq : q ≠ 0) (cs rest : List Byte) (h1 : q ∉ cs)
    (h2 : ∀ c ∈ cs, (∃ v, hexVal c = some v) ∨ isSpace c) (h3 : (cs.filterMap hexVal).length % 2 = 0) :
    scan_hex_array (q :: (cs ++ q :: rest)) =
      some (some ⟨false, (cs.filterMap hexVal).length / 2, cs ++ q :: rest, cs.length⟩) := by
  rw [scan_hex_array, scanHexLoop_of q hq rest cs 0 0 h1 h2]
  simp [h3]

theorem tail_b64 {tail : List Byte} (h : ∀ c ∈ tail, c = 61 ∨ isSpace c) : tail.filterMap b64Val = [] := by
  rw [List.filterMap_eq_nil_iff]
  intro c hc
  rcases h c hc with rfl | hs
  · exact b64Val_eq61
  · exact b64Val_space hs

theorem sx_tail : ∀ {tail : List Byte}, (∀ c ∈ tail, c = 61 ∨ isSpace c) → sx tail = List.replicate (tail.count 61) 0
  | [], _ => rfl
  | c :: tail, h => by
    have ih := sx_tail (tail := tail) (fun x hx => h x (by simp [hx]))
    rcases h c (by simp) with rfl | hs
    · rw [sx_some (v := 0) (by decide), ih, List.count_cons_self, List.replicate_succ]
    · rw [sx_none (sextet_space hs), ih, List.count_cons_of_ne]
      rintro rfl
      exact absurd (space_toNat hs) (by simp)

theorem sx_body : ∀ {body : List Byte}, (∀ c ∈ body, (∃ v, b64Val c = some v) ∨ isSpace c) →
    sx body = body.filterMap b64Val
  | [], _ => rfl
  | c :: body, h => by
    have ih := sx_body (body := body) (fun x hx => h x (by simp [hx]))
    rcases h c (by simp) with ⟨v, hv⟩ | hs
    · have h61 : c ≠ 61 := by rintro rfl; rw [b64Val_eq61] at hv; simp at hv
      rw [sx_some (v := v) (by rw [sextet_eq, if_neg h61, hv]), ih, List.filterMap_cons_some hv]
    · rw [sx_none (sextet_space hs), ih, List.filterMap_cons_none (b64Val_space hs)]

theorem b64Val_lt {c : Byte} {v : Nat} (h : b64Val c = some v) : v < 64 := by
  unfold b64Val at h
  repeat' split at h
  all_goals first | (simp at h; omega) | simp at h

theorem b64_lt {cs : List Byte} : ∀ v ∈ cs.filterMap b64Val, v < 64 := by
  intro v hv
  obtain ⟨c, _, hc⟩ := List.mem_filterMap.1 hv
  exact b64Val_lt hc

theorem b64_token {text : List Byte} {t : Token} (h : scan_base64 text = some (some t)) :
    ∃ q body tail rest, text = q :: ((body ++ tail) ++ q :: rest) ∧ q ∉ body ++ tail ∧
      (∀ c ∈ body, (∃ v, b64Val c = some v) ∨ isSpace c) ∧ (∀ c ∈ tail, c = 61 ∨ isSpace c) ∧
      (tail.count 61 = 0 ∨ ((body.filterMap b64Val).length + tail.count 61) % 4 = 0) ∧ tail.count 61 ≤ 2 ∧
      (body.filterMap b64Val).length % 4 ≠ 1 ∧
      t = ⟨true, (body.filterMap b64Val).length * 6 / 8, (body ++ tail) ++ q :: rest, (body ++ tail).length⟩ := by
  cases text with
  | nil => simp [scan_base64] at h
  | cons q text =>
    rw [scan_base64, Option.bind_eq_bind, Option.bind_eq_some_iff] at h
    obtain ⟨r, h1, h2⟩ := h
    cases r with
    | none => simp at h2
    | some r =>
      obtain ⟨len, e, k⟩ := r
      obtain ⟨body, tail, rest, e1, e2, e3, e4, e5, e6, e7, e8⟩ := scan64Loop_inv q text 0 0 len e k h1
      rw [Nat.zero_add] at e5 e8
      refine ⟨q, body, tail, rest, by rw [e1], e2, e3, e4, ?_⟩
      rw [← e5, ← e6, ← e8, ← e1]
      clear h1 e1 e2 e3 e4 e5 e6 e8
      simp only [] at h2
      by_cases hc : e = 0 ∧ len % 4 ≠ 0
      · simp only [if_pos hc] at h2
        by_cases m2 : len % 4 = 2
        · simp only [if_pos m2] at h2
          rw [if_neg (by omega)] at h2
          simp only [Option.some.injEq] at h2
          refine ⟨Or.inl hc.1, e7, by omega, ?_⟩
          rw [← h2]; congr 1; omega
        · by_cases m3 : len % 4 = 3
          · simp only [if_neg m2, if_pos m3] at h2
            rw [if_neg (by omega)] at h2
            simp only [Option.some.injEq] at h2
            refine ⟨Or.inl hc.1, e7, by omega, ?_⟩
            rw [← h2]; congr 1; omega
          · simp only [if_neg m2, if_neg m3] at h2
            rw [if_pos (by omega)] at h2
            simp at h2
      · simp only [if_neg hc] at h2
        by_cases h4 : (len + e) % 4 ≠ 0
        · rw [if_pos h4] at h2; simp at h2
        · rw [if_neg h4] at h2
          simp only [Option.some.injEq] at h2
          refine ⟨Or.inr (by omega), e7, by omega, ?_⟩
          rw [← h2]; congr 1; omega

theorem b64_of (q : Byte) (hq : q ≠ 0) (body tail rest : List Byte) (h1 : q ∉ body ++ tail)
    (h2 : ∀ c ∈ body, (∃ v, b64Val c = some v) ∨ isSpace c) (h3 : ∀ c ∈ tail, c = 61 ∨ isSpace c)
    (h4 : tail.count 61 = 0 ∨ ((body.filterMap b64Val).length + tail.count 61) % 4 = 0) (h5 : tail.count 61 ≤ 2)
    (h6 : (body.filterMap b64Val).length % 4 ≠ 1) :
    ∃ t, scan_base64 (q :: ((body ++ tail) ++ q :: rest)) = some (some t) := by
  rw [List.mem_append, not_or] at h1
  rw [scan_base64, List.append_assoc, scan64Loop_of q hq rest tail h3 h5 h1.2 body 0 0 h1.1 h2, Option.bind_eq_bind,
    Option.bind_some]
  simp only [Nat.zero_add]
  rw [if_neg]
  · exact ⟨_, rfl⟩
  · intro h
    apply h
    split
    · split
      · omega
      · split <;> omega
    · omega

theorem decodes_exists (l : List Nat) (h : ∀ v ∈ l, v < 64) (h1 : l.length % 4 ≠ 1) : ∃ bs, Decodes 6 l bs :=
  ⟨_, groups_take l (List.replicate ((4 - l.length % 4) % 4) 0) h
    (fun v hv => by rw [List.eq_of_mem_replicate hv]; omega) h1 (by simp; omega) (by simp; omega)⟩

/-- Storing the terminating zero and cutting the memory back to `new_len`. -/
theorem finish (a : Cells) (x : Option Byte) (n : Nat) (h : a.length = n) :
    (store (a ++ [x]) n (some 0)).bind (fun d => some (d.take n)) = some a := by
  rw [store_mid a x _ [] n h, Option.bind_some, List.take_left' h]

theorem piece_hex (data : Cells) (cs rest : List Byte) (bytes : List Byte)
    (h2 : ∀ c ∈ cs, (∃ v, hexVal c = some v) ∨ isSpace c) (h3 : (cs.filterMap hexVal).length % 2 = 0)
    (hd : Decodes 4 (cs.filterMap hexVal) bytes) :
    parsePiece data ⟨false, (cs.filterMap hexVal).length / 2, cs ++ rest, cs.length⟩ =
      some (data ++ bytes.map some) := by
  have hlen : bytes.length = (cs.filterMap hexVal).length / 2 := by rw [hd.1]; omega
  rw [← hlen]
  unfold parsePiece
  simp only []
  by_cases h0 : bytes.length = 0
  · rw [if_pos h0, List.eq_nil_of_length_eq_zero h0]; simp
  rw [if_neg h0, if_neg (by simp)]
  obtain ⟨bs, e1, e2⟩ := parse_hex_spec rest cs none data (List.replicate (bytes.length + 1) none) data.length h2
    (by simp) (by simpa using h3) (by simp; omega) rfl
  rw [e2]
  have : bs = bytes := Decodes.unique (by simpa using e1) hd
  subst this
  rw [Option.bind_eq_bind, Option.bind_some]
  have : List.drop bs.length (List.replicate (bs.length + 1) (none : Option Byte)) = [none] := by simp
  rw [this]
  exact finish _ _ _ (by simp)

theorem piece_b64 (cs rest : List Byte) (bytes : List Byte) (l : List Nat) (z : Nat)
    (hl : sx cs = l ++ List.replicate z 0) (hlt : ∀ v ∈ l, v < 64) (h1 : l.length % 4 ≠ 1) (hz : z ≤ 2)
    (hpad : (z ≠ 0 → (l.length + z) % 4 = 0))
    (henough : z = 0 → (4 - l.length % 4) % 4 ≤ (sx rest).length) (hd : Decodes 6 l bytes) :
    parsePiece [] ⟨true, l.length * 6 / 8, cs ++ rest, cs.length⟩ = some (bytes.map some) := by
  have hlen : bytes.length = l.length * 6 / 8 := by rw [hd.1]; omega
  unfold parsePiece
  simp only []
  by_cases h0 : l.length * 6 / 8 = 0
  · rw [if_pos h0, List.eq_nil_of_length_eq_zero (hlen.trans h0)]; simp
  rw [if_neg h0, if_pos trivial]
  obtain ⟨bs, e1, e2⟩ := parse_base64_spec cs rest (l.length * 6 / 8) l z hl hlt h1 hz rfl hpad henough
  simp only [List.length_nil, List.nil_append, Nat.zero_add]
  rw [e2, Decodes.unique e1 hd, Option.bind_eq_bind, Option.bind_some]
  exact finish _ _ _ (by simp [hlen])

/-- An unpadded literal whose last group is not filled by what follows is read past the end. -/
theorem piece_b64_short (cs rest : List Byte) (data : Cells) (n : Nat) (hn : 0 < n)
    (h1 : (sx cs).length % 4 ≠ 0) (h2 : (sx cs).length % 4 + (sx rest).length < 4) :
    parsePiece data ⟨true, n, cs ++ rest, cs.length⟩ = none := by
  unfold parsePiece
  simp only []
  rw [if_neg (by omega), if_pos trivial]
  have hrun := run rest n cs 0 [] (data ++ List.replicate (n + 1) none) data.length (by simp)
  rw [Nat.add_zero, List.nil_append] at hrun
  have hleft := left_length (sx cs)
  rw [hrun]
  simp only [run_short n rest (left (sx cs)) _ _ (by intro h; rw [h] at hleft; simp at hleft; omega)
    (by rw [hleft]; omega)]
  cases put (data ++ List.replicate (n + 1) none) data.length n (groups (sx cs)) <;> rfl

theorem piece_inv {data out : Cells} {t : Token} (h : parsePiece data t = some out) :
    (t.bytes_len = 0 ∧ out = data) ∨
    (t.bytes_len ≠ 0 ∧ ∃ d,
      (if t.is_base64 then
        parse_base64 t.data t.k [] (data ++ List.replicate (t.bytes_len + 1) none) data.length t.bytes_len = some d
      else parse_hex t.data t.k none (data ++ List.replicate (t.bytes_len + 1) none) data.length = some d) ∧
      data.length + t.bytes_len < d.length ∧
      out = (d.set (data.length + t.bytes_len) (some 0)).take (data.length + t.bytes_len)) := by
  unfold parsePiece at h
  simp only [] at h
  split at h
  · next h0 => rw [Option.some.injEq] at h; exact Or.inl ⟨h0, h.symm⟩
  · next h0 =>
    refine Or.inr ⟨h0, ?_⟩
    have fin : ∀ d : Cells, (store d (data.length + t.bytes_len) (some 0)).bind
          (fun d => some (d.take (data.length + t.bytes_len))) = some out →
        data.length + t.bytes_len < d.length ∧
        out = (d.set (data.length + t.bytes_len) (some 0)).take (data.length + t.bytes_len) := by
      intro d hd
      unfold store at hd
      split at hd
      · next hl => rw [Option.bind_some, Option.some.injEq] at hd; exact ⟨hl, hd.symm⟩
      · simp at hd
    split at h
    · next hb =>
      rw [Option.bind_eq_bind, Option.bind_eq_some_iff] at h
      obtain ⟨d, h1, h2⟩ := h
      exact ⟨d, by rw [if_pos hb]; exact h1, fin d h2⟩
    · next hb =>
      rw [Option.bind_eq_bind, Option.bind_eq_some_iff] at h
      obtain ⟨d, h1, h2⟩ := h
      exact ⟨d, by rw [if_neg hb]; exact h1, fin d h2⟩

theorem piece_front {data out : Cells} {t : Token} (h : parsePiece data t = some out) (j : Nat)
    (hj : j < data.length) : out[j]? = data[j]? := by
  rcases piece_inv h with ⟨_, h⟩ | ⟨h0, d, h1, hl, h2⟩
  · rw [h]
  · have hd : d[j]? = data[j]? := by
      have : (data ++ List.replicate (t.bytes_len + 1) none)[j]? = data[j]? := List.getElem?_append_left hj
      rw [← this]
      split at h1
      · exact (parse_base64_outside _ j _ _ _ _ _ _ (Or.inl hj) h1).1
      · exact (parse_hex_front j _ _ _ _ _ _ hj h1).1
    rw [h2, List.getElem?_take_of_lt (by omega), List.getElem?_set_ne (by omega), hd]

theorem piece_length {data out : Cells} {t : Token} (h : parsePiece data t = some out) :
    out.length = data.length + t.bytes_len := by
  rcases piece_inv h with ⟨h0, h⟩ | ⟨h0, d, h1, hl, h2⟩
  · rw [h, h0]; rfl
  · rw [h2, List.length_take, List.length_set]; omega

/-- The last cell of a base64 piece that is not the first is not written. -/
theorem piece_uninit {data out : Cells} {t : Token} (h : parsePiece data t = some out) (hb : t.is_base64 = true)
    (hn : t.bytes_len ≠ 0) (hd : data.length ≠ 0) : out[data.length + t.bytes_len - 1]? = some none := by
  rcases piece_inv h with ⟨h0, h⟩ | ⟨h0, d, h1, hl, h2⟩
  · exact absurd h0 hn
  · rw [if_pos hb] at h1
    have := parse_base64_outside _ (data.length + t.bytes_len - 1) _ _ _ _ _ _ (Or.inr (by omega)) h1
    rw [List.getElem?_append_right (by omega), List.getElem?_replicate_of_lt (by omega)] at this
    rw [h2, List.getElem?_take_of_lt (by omega), List.getElem?_set_ne (by omega), this.1]

theorem fold_front (ts : List Token) : ∀ (data out : Cells), ts.foldlM parsePiece data = some out →
    ∀ j, j < data.length → out[j]? = data[j]? := by
  induction ts with
  | nil => intro data out h j hj; simp at h; rw [h]
  | cons t ts ih =>
    intro data out h j hj
    rw [List.foldlM_cons, Option.bind_eq_bind, Option.bind_eq_some_iff] at h
    obtain ⟨d, h1, h2⟩ := h
    rw [ih d out h2 j (by rw [piece_length h1]; omega), piece_front h1 j hj]

theorem fold_length (ts : List Token) : ∀ (data out : Cells), ts.foldlM parsePiece data = some out →
    out.length = data.length + (ts.map (·.bytes_len)).sum := by
  induction ts with
  | nil => intro data out h; simp at h; simp [h]
  | cons t ts ih =>
    intro data out h
    rw [List.foldlM_cons, Option.bind_eq_bind, Option.bind_eq_some_iff] at h
    obtain ⟨d, h1, h2⟩ := h
    rw [ih d out h2, piece_length h1, List.map_cons, List.sum_cons]; omega

theorem le_sum : ∀ (ts : List Token) (p : Token), p ∈ ts → p.bytes_len ≤ (ts.map (·.bytes_len)).sum
  | t :: ts, p, h => by
    rw [List.map_cons, List.sum_cons]
    rcases List.mem_cons.1 h with rfl | h
    · omega
    · have := le_sum ts p h; omega

end C3.ByteLiteral
