import Verif.Url.Spec
import Verif.Hex.Props

/-! # Helper lemmas for percent encoding -/

set_option autoImplicit false

namespace C3.Url
open C3.Codec Spec

/-- Lift a check of all bytes. -/
theorem byte_all {p : Byte → Prop} (h : ∀ n < 256, p (BitVec.ofNat 8 n)) (b : Byte) : p b := by
  have := h b.toNat b.isLt
  rwa [BitVec.ofNat_toNat, BitVec.setWidth_eq] at this

theorem should_encode_nat (mode : Mode) :
    ∀ n < 256, should_encode (BitVec.ofNat 8 n) mode = !decide (Legal mode (BitVec.ofNat 8 n)) := by
  cases mode <;> decide +kernel

theorem should_encode_eq (mode : Mode) (b : Byte) : should_encode b mode = !decide (Legal mode b) :=
  byte_all (p := fun b => should_encode b mode = !decide (Legal mode b)) (should_encode_nat mode) b

theorem is_xdigit_nat : ∀ n < 256, is_xdigit (BitVec.ofNat 8 n) = (Hex.digitVal (BitVec.ofNat 8 n)).isSome := by
  decide +kernel

theorem is_xdigit_eq (b : Byte) : is_xdigit b = (Hex.digitVal b).isSome :=
  byte_all (p := fun b => is_xdigit b = (Hex.digitVal b).isSome) is_xdigit_nat b

theorem space_illegal_query : ¬ Legal .QUERY 32#8 := by decide

theorem legal_percent (mode : Mode) : ¬ Legal mode 37#8 := by cases mode <;> decide

theorem legal_plus_query : ¬ Legal .QUERY 43#8 := by decide

theorem upper_lower_nat : ∀ v < 16, convert_to_upper [Hex.lower v] = [upper v] := by decide +kernel

theorem digitVal_upper_nat : ∀ v < 16, Hex.digitVal (upper v) = some v := by decide +kernel

theorem digit_ne_percent_nat : ∀ n < 256, BitVec.ofNat 8 n = 37#8 → Hex.digitVal (BitVec.ofNat 8 n) = none := by
  decide +kernel

theorem digit_ne_percent {b : Byte} (h : (Hex.digitVal b).isSome) : b ≠ 37#8 := by
  intro hb
  have := byte_all (p := fun b => b = 37#8 → Hex.digitVal b = none) digit_ne_percent_nat b hb
  simp [this] at h

/-- One byte in hexadecimal. -/
theorem hex_encode_one (c : Byte) (fresh : Nat → List Byte) (hf : ∀ n, (fresh n).length = n) :
    Hex.encode [c] (fresh (Hex.encode_len 1)) = some [Hex.lower (c.toNat / 16), Hex.lower (c.toNat % 16)] := by
  obtain ⟨t, ht, -⟩ := Hex.C33_api [c] (fresh (Hex.encode_len 1)) [] (hf _)
  unfold Hex.encode
  rw [if_neg (by rw [hf]; simp), Hex.encode_spec [c] _ (by rw [hf]; simp)]
  simp [Hex.syms, Hex.encode_len]

theorem upper_pair (c : Byte) :
    convert_to_upper [Hex.lower (c.toNat / 16), Hex.lower (c.toNat % 16)] = [upper (c.toNat / 16), upper (c.toNat % 16)] := by
  have h1 := upper_lower_nat (c.toNat / 16) (by have := c.isLt; omega)
  have h2 := upper_lower_nat (c.toNat % 16) (by omega)
  simp only [convert_to_upper, List.map_cons, List.map_nil] at h1 h2 ⊢
  rw [List.cons.injEq] at h1 h2
  rw [h1.1, h2.1]

theorem encodeLoop_eq (fresh : Nat → List Byte) (hf : ∀ n, (fresh n).length = n) (mode : Mode) (s : List Byte) :
    ∀ b, encodeLoop fresh mode s b = some (b ++ s.flatMap (text mode)) := by
  induction s with
  | nil => intro b; simp [encodeLoop]
  | cons c s ih =>
    intro b
    rw [encodeLoop]
    by_cases h1 : c = 32#8 ∧ mode = .QUERY
    · obtain ⟨rfl, rfl⟩ := h1
      simp only [decide_true, Bool.and_self, if_true]
      rw [ih]
      have : text .QUERY 32#8 = [43#8] := by decide
      simp [this]
    · have hc : ¬ (c.toNat = 32 ∧ mode = .QUERY) := by
        rintro ⟨h, hm⟩
        exact h1 ⟨BitVec.eq_of_toNat_eq h, hm⟩
      rw [if_neg (by simpa using h1), should_encode_eq]
      by_cases hl : Legal mode c
      · simp only [hl, decide_true, Bool.not_true, Bool.false_eq_true, if_false]
        rw [ih]
        simp [text, hl]
      · simp only [hl, decide_false, Bool.not_false, if_true]
        rw [hex_encode_one c fresh hf]
        simp only
        rw [ih, upper_pair]
        simp [text, hl, hc, ascii]

theorem encodeCount_eq (mode : Mode) (s : List Byte) : ∀ n,
    s.length + 2 * encodeCount mode s n = (s.flatMap (text mode)).length + 2 * n := by
  induction s with
  | nil => intro n; simp [encodeCount]
  | cons c s ih =>
    intro n
    rw [encodeCount, should_encode_eq]
    by_cases hl : Legal mode c
    · have ht : (text mode c).length = 1 := by simp [text, hl]
      simp only [hl, decide_true, Bool.not_true, Bool.not_false, if_true, List.flatMap_cons, List.length_append, List.length_cons, ht]
      have := ih n
      omega
    · simp only [hl, decide_false, Bool.not_false, Bool.not_true, Bool.false_eq_true, if_false, List.flatMap_cons,
        List.length_append, List.length_cons]
      by_cases hc : c.toNat = 32 ∧ mode = .QUERY
      · have : c = 32#8 := BitVec.eq_of_toNat_eq hc.1
        have ht : (text mode c).length = 1 := by
          rw [text, if_neg hl, if_pos hc]; rfl
        rw [if_neg (by simp [this, hc.2]), ht]
        have := ih n
        omega
      · have : ¬ (c = 32#8 ∧ mode = .QUERY) := by rintro ⟨rfl, h⟩; exact hc ⟨rfl, h⟩
        have ht : (text mode c).length = 3 := by simp [text, hl, hc, ascii]
        rw [if_pos (by simp only [Bool.or_eq_true, decide_eq_true_eq]; by_cases h : c = 32#8 <;> simp_all), ht]
        have := ih (n + 1)
        omega

/-! ## Decoding -/

/-- No bad `%`. -/
def Good : List Byte → Prop
  | [] => True
  | c :: s => (c = 37#8 → ∃ x y u, s = x :: y :: u ∧ (Hex.digitVal x).isSome ∧ (Hex.digitVal y).isSome) ∧ Good s

theorem good_iff (s : List Byte) : Good s ↔ ¬ BadPercent s := by
  induction s with
  | nil => simp [Good, BadPercent]
  | cons c s ih =>
    rw [Good, ih]
    constructor
    · rintro ⟨h1, h2⟩ ⟨a, t, e, hb⟩
      cases a with
      | nil =>
        simp only [List.nil_append, List.cons.injEq] at e
        obtain ⟨rfl, rfl⟩ := e
        exact hb (h1 rfl)
      | cons x a =>
        simp only [List.cons_append, List.cons.injEq] at e
        exact h2 ⟨a, t, e.2, hb⟩
    · intro h
      constructor
      · rintro rfl
        exact Classical.byContradiction fun hn => h ⟨[], s, rfl, hn⟩
      · rintro ⟨a, t, rfl, hb⟩
        exact h ⟨c :: a, t, rfl, hb⟩

/-- `%`s in a text. -/
def percents (s : List Byte) : Nat := s.count 37#8

theorem decodeCount_eq (s : List Byte) : ∀ (t a : List Byte) (n : Nat), s = a ++ t →
    (Good t → decodeCount s a.length n = some (.ok (n + percents t))) ∧
    (¬ Good t → decodeCount s a.length n = some (.error .INVALID_HEX)) := by
  intro t
  induction t with
  | nil =>
    intro a n e
    rw [decodeCount, if_neg (by simp [e])]
    simp [Good, percents]
  | cons c t ih =>
    intro a n e
    have hi := fun n => ih (a ++ [c]) n (by simp [e])
    simp only [List.length_append, List.length_cons, List.length_nil, Nat.zero_add] at hi
    rw [decodeCount, if_pos (by simp [e])]
    have h0 : s[a.length]? = some c := by simp [e]
    rw [h0]
    simp only
    by_cases hc : c = 37#8
    · subst hc
      rw [if_neg (by simp)]
      match t, e, hi with
      | [], e, hi =>
        rw [if_pos (by simp [e])]
        simp [Good]
      | [x], e, hi =>
        rw [if_pos (by simp [e])]
        simp [Good]
      | x :: y :: u, e, hi =>
        have h1 : s[a.length + 1]? = some x := by
          rw [e, List.getElem?_append_right (by omega)]; simp
        have h2 : s[a.length + 2]? = some y := by
          rw [e, List.getElem?_append_right (by omega)]; simp
        rw [if_neg (by rw [e]; simp), h1, h2]
        simp only
        rw [is_xdigit_eq, is_xdigit_eq]
        by_cases hx : (Hex.digitVal x).isSome ∧ (Hex.digitVal y).isSome
        · rw [if_neg (by simp [hx])]
          have hg : Good (37#8 :: x :: y :: u) ↔ Good (x :: y :: u) := by
            constructor
            · exact fun h => h.2
            · exact fun h => ⟨fun _ => ⟨x, y, u, rfl, hx⟩, h⟩
          rw [hg]
          refine ⟨fun h => ?_, (hi (n + 1)).2⟩
          rw [(hi (n + 1)).1 h]
          simp [percents]; omega
        · have hg : ¬ Good (37#8 :: x :: y :: u) := by
            rintro ⟨h, -⟩
            obtain ⟨x', y', u', e', hx'⟩ := h rfl
            simp only [List.cons.injEq] at e'
            obtain ⟨rfl, rfl, -⟩ := e'
            exact hx hx'
          refine ⟨fun h => absurd h hg, fun _ => ?_⟩
          rw [if_pos (by
            simp only [Bool.or_eq_true, Bool.not_eq_true', Bool.eq_false_iff]
            by_cases h : (Hex.digitVal x).isSome = true
            · exact .inr fun h' => hx ⟨h, h'⟩
            · exact .inl h)]
    · rw [if_pos hc]
      have hg : Good (c :: t) ↔ Good t := by simp [Good, hc]
      rw [hg]
      refine ⟨fun h => ?_, (hi n).2⟩
      rw [(hi n).1 h]
      simp [percents, hc]

theorem decode_pair {x y : Byte} {h l : Nat} (hx : Hex.digitVal x = some h) (hy : Hex.digitVal y = some l)
    (fresh : Nat → List Byte) (hf : ∀ n, (fresh n).length = n) :
    Hex.decode [x, y] (fresh (Hex.decode_len 2)) = some (.ok [BitVec.ofNat 8 (h * 16 + l)]) := by
  have hh := Hex.digitVal_lt hx
  have hl := Hex.digitVal_lt hy
  unfold Hex.decode
  rw [if_neg (by rw [hf]; simp)]
  rcases Hex.C33_decode [x, y] (fresh (Hex.decode_len 2)) (by simp) (by rw [hf]; simp) with ⟨ss, bs, e1, e2, e3⟩ | ⟨⟨c, hc, e⟩, -⟩
  · have : ss = [h, l] := by
      match ss with
      | [] => simp at e1
      | [_] => simp at e1
      | [a, b] => simp [hx, hy] at e1; simp [e1]
      | _ :: _ :: _ :: _ => simp at e1
    subst this
    have hb : bs.length = 1 := by simpa using e2.1
    match bs, hb with
    | [b], _ =>
      have h2 := e2.2
      simp only [symsVal, bytesVal, C3.Bigint.positional, List.map, List.foldl, List.length] at h2
      have hb : b = BitVec.ofNat 8 (h * 16 + l) := by
        apply BitVec.eq_of_toNat_eq
        rw [BitVec.toNat_ofNat]
        omega
      rw [e3, hb]
      simp [Except.map]
  · simp at hc
    rcases hc with rfl | rfl
    · rw [hx] at e; simp at e
    · rw [hy] at e; simp at e

theorem decodeLoop_eq (fresh : Nat → List Byte) (hf : ∀ n, (fresh n).length = n) (mode : Mode) (s : List Byte) :
    ∀ (k : Nat) (t a b : List Byte), t.length ≤ k → s = a ++ t → Good t →
    ∃ out, Denotes mode t out ∧ out.length + 2 * percents t = t.length ∧
      decodeLoop fresh mode s a.length b = some (.ok (b ++ out)) := by
  intro k
  induction k with
  | zero =>
    intro t a b hk e _
    have : t = [] := List.eq_nil_of_length_eq_zero (by omega)
    subst this
    refine ⟨[], .nil, rfl, ?_⟩
    rw [decodeLoop, if_neg (by simp [e])]
    simp
  | succ k ih =>
    intro t a b hk e hg
    match t, hk, e, hg with
    | [], hk, e, hg =>
      refine ⟨[], .nil, rfl, ?_⟩
      rw [decodeLoop, if_neg (by simp [e])]
      simp
    | c :: t, hk, e, hg =>
      have h0 : s[a.length]? = some c := by simp [e]
      rw [decodeLoop, if_pos (by simp [e]), h0]
      simp only
      by_cases hc : c = 37#8
      · subst hc
        obtain ⟨x, y, u, rfl, hx, hy⟩ := hg.1 rfl
        obtain ⟨h, hx'⟩ := Option.isSome_iff_exists.1 hx
        obtain ⟨l, hy'⟩ := Option.isSome_iff_exists.1 hy
        have hd : (s.drop (a.length + 1)).take 2 = [x, y] := by
          rw [e, ← List.drop_drop, List.drop_left]; simp
        rw [if_pos rfl, if_neg (by rw [e]; simp), hd, decode_pair hx' hy' fresh hf]
        simp only
        obtain ⟨out, h1, h2, h3⟩ := ih u (a ++ [37#8, x, y]) (b ++ [BitVec.ofNat 8 (h * 16 + l)]) (by simp at hk; omega)
          (by simp [e]) hg.2.2.2
        refine ⟨_ :: out, .hex x y h l u out hx' hy' h1, ?_, ?_⟩
        · have n1 := digit_ne_percent hx
          have n2 := digit_ne_percent hy
          simp only [percents, List.count_cons, List.length_cons] at h2 ⊢
          simp [n1, n2]; omega
        · simp only [List.length_append, List.length_cons, List.length_nil] at h3
          rw [h3]; simp
      · rw [if_neg hc]
        have hi := fun b => ih t (a ++ [c]) b (by simp at hk; omega) (by simp [e]) hg.2
        simp only [List.length_append, List.length_cons, List.length_nil, Nat.zero_add] at hi
        have hp : percents (c :: t) = percents t := by simp [percents, hc]
        by_cases hc2 : c = 43#8
        · subst hc2
          rw [if_pos rfl]
          by_cases hm : mode = .QUERY
          · obtain ⟨out, h1, h2, h3⟩ := hi (b ++ [32#8])
            refine ⟨32#8 :: out, .plus t out hm h1, by rw [hp]; simp; omega, ?_⟩
            rw [if_pos hm, h3]; simp
          · obtain ⟨out, h1, h2, h3⟩ := hi (b ++ [43#8])
            refine ⟨43#8 :: out, .byte 43#8 t out (by decide) (fun h => hm h.2) h1, by rw [hp]; simp; omega, ?_⟩
            rw [if_neg hm, h3]; simp
        · rw [if_neg hc2]
          obtain ⟨out, h1, h2, h3⟩ := hi (b ++ [c])
          refine ⟨c :: out, .byte c t out hc (fun h => hc2 h.1) h1, by rw [hp]; simp; omega, ?_⟩
          rw [h3]; simp

theorem denotes_unique {mode : Mode} {s t u : List Byte} (h : Denotes mode s t) (h' : Denotes mode s u) : t = u := by
  induction h generalizing u with
  | nil => cases h'; rfl
  | byte c s t hc hp _ ih =>
    cases h' with
    | byte _ _ _ _ _ h => rw [ih h]
    | plus _ _ hm h => exact absurd ⟨rfl, hm⟩ hp
    | hex => exact absurd rfl hc
  | plus s t hm _ ih =>
    cases h' with
    | byte _ _ _ _ hp h => exact absurd ⟨rfl, hm⟩ hp
    | plus _ _ _ h => rw [ih h]
  | hex x y h l s t hx hy _ ih =>
    cases h' with
    | byte _ _ _ hc => exact absurd rfl hc
    | hex _ _ h' l' _ _ hx' hy' hd =>
      rw [hx] at hx'; rw [hy] at hy'
      cases hx'; cases hy'
      rw [ih hd]

theorem denotes_good {mode : Mode} {s t : List Byte} (h : Denotes mode s t) : Good s := by
  induction h with
  | nil => trivial
  | byte c s t hc _ _ ih => exact ⟨fun h => absurd h hc, ih⟩
  | plus s t _ _ ih => exact ⟨fun h => absurd h (by decide), ih⟩
  | hex x y h l s t hx hy _ ih =>
    have hx : (Hex.digitVal x).isSome := by simp [hx]
    have hy : (Hex.digitVal y).isSome := by simp [hy]
    exact ⟨fun _ => ⟨x, y, s, rfl, hx, hy⟩, fun h => absurd h (digit_ne_percent hx),
      fun h => absurd h (digit_ne_percent hy), ih⟩

theorem denotes_text (mode : Mode) (s : List Byte) : Denotes mode (s.flatMap (text mode)) s := by
  induction s with
  | nil => exact .nil
  | cons c s ih =>
    rw [List.flatMap_cons]
    by_cases hl : Legal mode c
    · simp only [text, hl, if_true]
      refine .byte c _ s ?_ ?_ ih
      · rintro rfl; exact legal_percent mode hl
      · rintro ⟨rfl, rfl⟩; exact legal_plus_query hl
    · by_cases hc : c.toNat = 32 ∧ mode = .QUERY
      · have h32 : c = 32#8 := BitVec.eq_of_toNat_eq hc.1
        rw [text, if_neg hl, if_pos hc, h32]
        exact .plus _ s hc.2 ih
      · simp only [text, hl, hc, if_false]
        have h1 := digitVal_upper_nat (c.toNat / 16) (by have := c.isLt; omega)
        have h2 := digitVal_upper_nat (c.toNat % 16) (by omega)
        have := Denotes.hex (mode := mode) _ _ _ _ _ s h1 h2 ih
        have e : BitVec.ofNat 8 (c.toNat / 16 * 16 + c.toNat % 16) = c := by
          apply BitVec.eq_of_toNat_eq
          rw [BitVec.toNat_ofNat]
          have := c.isLt
          omega
        rw [e] at this
        exact this

end C3.Url
