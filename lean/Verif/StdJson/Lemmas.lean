import Verif.StdJson.Spec
import Verif.Utf.Lemmas

/-! Lemmas on tokens: strings, numbers, white space. -/

set_option autoImplicit false

namespace C3.StdJson
open C3.Utf (Byte Char32 nums utf8 enc enc_unsafe enc_utf8 at_)

theorem append_char32_enc (c : Char32) : append_char32 c = enc c := by
  have hl : (enc c).length ≤ 4 := by
    rw [Utf.enc_length]; split <;> [skip; split <;> [skip; split]] <;> decide
  have h := enc_unsafe c [] (4 - (enc c).length)
  rw [Nat.add_sub_cancel' hl] at h
  unfold append_char32
  have e : (at_ [] 4 : Utf.Out Byte) = ⟨List.replicate 4 none, 0⟩ := rfl
  rw [← e, h]
  simp [at_, List.filterMap_map]

theorem nums_inj {a b : List Byte} (h : nums a = nums b) : a = b := by
  induction a generalizing b with
  | nil => cases b <;> simp_all [nums]
  | cons x xs ih =>
    cases b with
    | nil => simp [nums] at h
    | cons y ys =>
      simp only [nums, List.map_cons, List.cons.injEq] at h
      rw [BitVec.eq_of_toNat_eq h.1, ih (by simpa [nums] using h.2)]

def hexDigit (c : Byte) : Char32 := if c.toNat > 57 then (c.setWidth 32 ||| 32) - 97 + 10 else c.setWidth 32 - 48

theorem hexDigit_all : ∀ c : Byte, (hexVal c).all (fun v =>
    decide ((hexDigit c).toNat = v ∧ isXDigit c = true ∧ c ≠ 0 ∧ v < 16)) = true := by decide +kernel

theorem hexDigit_val {c : Byte} {v : Nat} (h : hexVal c = some v) :
    (hexDigit c).toNat = v ∧ isXDigit c = true ∧ c ≠ 0 ∧ v < 16 := by
  have := hexDigit_all c
  rw [h] at this; simpa only [Option.all_some, decide_eq_true_eq] using this

theorem addDigit_val {val : Char32} {c : Byte} {v : Nat} (h : hexVal c = some v) (hv : val.toNat < 2 ^ 27) :
    (addDigit val c).toNat = val.toNat * 16 + v := by
  obtain ⟨h1, -, -, h4⟩ := hexDigit_val h
  show (val <<< 4 + hexDigit c).toNat = _
  rw [BitVec.toNat_add, h1, BitVec.toNat_shiftLeft, Nat.shiftLeft_eq]
  omega

theorem read_cons {c : Byte} (l : List Byte) (h : c ≠ 0) : read_next (c :: l) = (c, l) := by
  unfold read_next; exact if_neg h

theorem lexHex_step {c : Byte} {v : Nat} (i : Nat) (val : Char32) (l : List Byte) (h : hexVal c = some v) :
    lexHex (i + 1) val (c :: l) = lexHex i (addDigit val c) l := by
  obtain ⟨-, h2, h3, -⟩ := hexDigit_val h
  simp [lexHex, read_cons l h3, h2]

theorem lexHex_four {h1 h2 h3 h4 : Byte} {v1 v2 v3 v4 : Nat} (l : List Byte)
    (e1 : hexVal h1 = some v1) (e2 : hexVal h2 = some v2) (e3 : hexVal h3 = some v3) (e4 : hexVal h4 = some v4) :
    ∃ val : Char32, lexHex 4 0 (h1 :: h2 :: h3 :: h4 :: l) = .ok (val, l) ∧
      val.toNat = v1 * 4096 + v2 * 256 + v3 * 16 + v4 := by
  refine ⟨addDigit (addDigit (addDigit (addDigit 0 h1) h2) h3) h4, ?_, ?_⟩
  · rw [lexHex_step 3 _ _ e1, lexHex_step 2 _ _ e2, lexHex_step 1 _ _ e3, lexHex_step 0 _ _ e4]; rfl
  · have b1 := (hexDigit_val e1).2.2.2
    have b2 := (hexDigit_val e2).2.2.2
    have b3 := (hexDigit_val e3).2.2.2
    have a1 := addDigit_val (val := 0) e1 (by decide)
    have a1 : (addDigit 0 h1).toNat = v1 := by rw [a1]; simp
    have a2 := addDigit_val (val := addDigit 0 h1) e2 (by omega)
    have a3 := addDigit_val (val := addDigit (addDigit 0 h1) h2) e3 (by omega)
    have a4 := addDigit_val (val := addDigit (addDigit (addDigit 0 h1) h2) h3) e4 (by omega)
    omega

theorem byte_ne_zero {c : Byte} (h : 32 ≤ c.toNat) : c ≠ 0 := by
  intro e; subst e; simp at h

theorem escapes_ok {e c : Byte} (h : (e, c) ∈ escapes) :
    escaped e = some c ∧ e ≠ 0 ∧ ¬ e.toNat ≤ 31 ∧ e ≠ 0x75 := by
  simp only [escapes, List.mem_cons, Prod.mk.injEq, List.not_mem_nil, or_false] at h
  rcases h with h | h | h | h | h | h | h | h <;> obtain ⟨rfl, rfl⟩ := h <;> decide

theorem lexString_text {t s : List Byte} (h : StrText t s) : ∀ (n : Nat) (acc rest : List Byte), t.length + 1 ≤ n →
    lexStringLoop n (t ++ 0x22 :: rest) acc = .ok (acc ++ s, rest) := by
  induction h with
  | nil =>
    intro n acc rest hn
    obtain ⟨m, rfl⟩ : ∃ m, n = m + 1 := ⟨n - 1, by omega⟩
    simp [lexStringLoop, read_next]
  | raw c t s h1 h2 h3 _ ih =>
    intro n acc rest hn
    obtain ⟨m, rfl⟩ : ∃ m, n = m + 1 := ⟨n - 1, by omega⟩
    have h0 := byte_ne_zero h1
    have h31 : ¬ c.toNat ≤ 31 := by omega
    simp only [List.length_cons] at hn
    simp only [lexStringLoop, List.cons_append, read_cons _ h0, h0, h31, h2, h3, if_false, ne_eq, not_false_eq_true, if_true]
    rw [ih m _ rest (by omega)]; simp
  | esc e c t s h1 _ ih =>
    intro n acc rest hn
    obtain ⟨m, rfl⟩ : ∃ m, n = m + 1 := ⟨n - 1, by omega⟩
    obtain ⟨a1, a2, a3, a4⟩ := escapes_ok h1
    simp only [List.length_cons] at hn
    simp only [lexStringLoop, List.cons_append, read_cons _ (show (0x5c : Byte) ≠ 0 by decide),
      show ¬ (0x5c : Byte) = 0 by decide, show ¬ (0x5c : Byte).toNat ≤ 31 by decide, show ¬ (0x5c : Byte) = 0x22 by decide,
      read_cons _ a2, a2, a3, a4, a1, if_false, ne_eq, not_true_eq_false]
    rw [ih m _ rest (by omega)]; simp
  | uni h1 h2 h3 h4 v1 v2 v3 v4 u t s e1 e2 e3 e4 hs hu _ ih =>
    intro n acc rest hn
    obtain ⟨m, rfl⟩ : ∃ m, n = m + 1 := ⟨n - 1, by omega⟩
    simp only [List.length_cons] at hn
    obtain ⟨val, hv, hval⟩ := lexHex_four (t ++ 0x22 :: rest) e1 e2 e3 e4
    simp only [lexStringLoop, List.cons_append, read_cons _ (show (0x5c : Byte) ≠ 0 by decide),
      show ¬ (0x5c : Byte) = 0 by decide, show ¬ (0x5c : Byte).toNat ≤ 31 by decide, show ¬ (0x5c : Byte) = 0x22 by decide,
      read_cons _ (show (0x75 : Byte) ≠ 0 by decide), show ¬ (0x75 : Byte) = 0 by decide, show ¬ (0x75 : Byte).toNat ≤ 31 by decide,
      if_false, if_true, ne_eq, not_true_eq_false, hv]
    rw [ih m _ rest (by omega), append_char32_enc]
    have : enc val = u := by
      apply nums_inj
      rw [enc_utf8 val (by rcases hs with h | h <;> omega), hval, hu]
    rw [this]; simp

theorem lex_string_text {t s : List Byte} (h : StrText t s) (rest : List Byte) :
    lex_string (t ++ 0x22 :: rest) = .ok (s, rest) := by
  unfold lex_string
  rw [lexString_text h _ _ _ (by simp)]; simp

/-! ## Numbers -/

theorem isDigit_iff (c : Byte) : isDigit c = true ↔ Dig c := by simp [isDigit, Dig]

/-- Bytes that can follow a number. -/
def Delim (l : List Byte) : Prop := ∀ c, l.head? = some c →
  c = 0x20 ∨ c = 9 ∨ c = 10 ∨ c = 13 ∨ c = 0x2c ∨ c = 0x5d ∨ c = 0x7d

/-- The list does not begin with a digit. -/
def NoDig (l : List Byte) : Prop := ∀ c, l.head? = some c → isDigit c = false

theorem take_digits {ds r : List Byte} (h : ∀ c ∈ ds, Dig c) (hr : NoDig r) :
    (ds ++ r).takeWhile isDigit = ds ∧ (ds ++ r).dropWhile isDigit = r := by
  induction ds with
  | nil =>
    cases r with
    | nil => simp
    | cons c r => have := hr c rfl; simp [this]
  | cons d ds ih =>
    have hd : isDigit d = true := (isDigit_iff d).2 (h d (by simp))
    have := ih (fun c hc => h c (by simp [hc]))
    simp [hd, this.1, this.2]

theorem Delim.facts {l : List Byte} (h : Delim l) : NoDig l ∧ l.head? ≠ some 0x2e ∧ cut l = l ∧ numExp l = .ok ([], l) := by
  cases l with
  | nil => refine ⟨?_, by simp, rfl, rfl⟩; intro c hc; simp at hc
  | cons c r =>
    have := h c rfl
    rcases this with h | h | h | h | h | h | h <;> subst h <;>
      refine ⟨?_, by simp, by simp [cut], by simp [numExp]⟩ <;> intro c hc <;>
      simp only [List.head?_cons, Option.some.injEq] at hc <;> subst hc <;> decide

theorem numSign_of {sg l : List Byte} (h : sg = [] ∨ sg = [0x2d]) (hl : l.head? ≠ some 0x2d) :
    numSign (sg ++ l) = (sg, l) := by
  rcases h with rfl | rfl
  · rw [List.nil_append]; exact if_neg hl
  · simp [numSign]

theorem numFrac_of {fr l : List Byte} (h : fr = [] ∨ ∃ ds, Digits ds ∧ fr = 0x2e :: ds) (hl : l.head? ≠ some 0x2e)
    (hn : NoDig l) : numFrac (fr ++ l) = (fr, l) := by
  rcases h with rfl | ⟨ds, hd, rfl⟩
  · rw [List.nil_append]; exact if_neg hl
  · have := take_digits hd.2 hn
    simp [numFrac, this.1, this.2]

theorem numExp_of {ex l : List Byte} (h : ex = [] ∨ ∃ e s ds, (e = 0x65 ∨ e = 0x45) ∧
    (s = [] ∨ s = [0x2b] ∨ s = [0x2d]) ∧ Digits ds ∧ ex = e :: (s ++ ds)) (hl : Delim l) :
    numExp (ex ++ l) = .ok (ex, l) := by
  obtain ⟨f1, f2, f3, f4⟩ := hl.facts
  rcases h with rfl | ⟨e, s, ds, he, hs, hd, rfl⟩
  · simpa using f4
  · have ht := take_digits hd.2 f1
    have e32 : e ||| 32 = 0x65 := by rcases he with rfl | rfl <;> decide
    have hne : ds.isEmpty = false := by simpa using hd.1
    have hhd : (ds ++ l).head? ≠ some 0x2d ∧ (ds ++ l).head? ≠ some 0x2b := by
      obtain ⟨h0, hall⟩ := hd
      cases ds with
      | nil => exact absurd rfl h0
      | cons d ds =>
        have := hall d (by simp)
        constructor <;> intro h <;> simp only [List.cons_append, List.head?_cons, Option.some.injEq] at h <;> subst h <;>
          simp [Dig] at this
    rcases hs with rfl | rfl | rfl
    · simp only [numExp, List.cons_append, List.nil_append, e32, hhd.1, hhd.2, or_self, if_true, if_false, ht.1, ht.2, hne,
        Bool.false_eq_true]
    · simp only [numExp, List.cons_append, List.nil_append, e32, List.head?_cons, or_true, if_true, List.tail_cons,
        List.take_succ_cons, List.take_zero, ht.1, ht.2, hne, Bool.false_eq_true, if_false]
    · simp only [numExp, List.cons_append, List.nil_append, e32, List.head?_cons, true_or, if_true, List.tail_cons,
        List.take_succ_cons, List.take_zero, ht.1, ht.2, hne, Bool.false_eq_true, if_false]

theorem head_append {l m : List Byte} {c : Byte} (h : l.head? ≠ some c) (hm : m.head? ≠ some c) : (l ++ m).head? ≠ some c := by
  cases l <;> simp_all

theorem noDig_append {l m : List Byte} (h : NoDig l) (hm : NoDig m) : NoDig (l ++ m) := by
  cases l with
  | nil => exact hm
  | cons c l => intro d hd; exact h d (by simpa using hd)

theorem ex_facts {ex : List Byte} (h : ex = [] ∨ ∃ e s ds, (e = 0x65 ∨ e = 0x45) ∧
    (s = [] ∨ s = [0x2b] ∨ s = [0x2d]) ∧ Digits ds ∧ ex = e :: (s ++ ds)) : NoDig ex ∧ ex.head? ≠ some 0x2e := by
  rcases h with rfl | ⟨e, s, ds, he, -, -, rfl⟩
  · exact ⟨by intro c hc; simp at hc, by simp⟩
  · rcases he with rfl | rfl <;> refine ⟨?_, by simp⟩ <;> intro c hc <;>
      simp only [List.head?_cons, Option.some.injEq] at hc <;> subst hc <;> decide

theorem lex_number_text {D : Type} {to_double : List Byte → Option D} {t l : List Byte} {d : D} (h : NumText t)
    (hd : to_double t = some d) (hl : Delim l) : lex_number to_double (t ++ l) = .ok (d, l) := by
  obtain ⟨sg, ip, fr, ex, h1, h2, -, h4, h5⟩ := h
  obtain ⟨f1, f2, f3, -⟩ := hl.facts
  obtain ⟨x1, x2⟩ := ex_facts h5
  have n1 : NoDig (ex ++ l) := noDig_append x1 f1
  have n2 : (ex ++ l).head? ≠ some 0x2e := head_append x2 f2
  have n3 : NoDig (fr ++ (ex ++ l)) := by
    refine noDig_append ?_ n1
    rcases h4 with rfl | ⟨ds, -, rfl⟩
    · intro c hc; simp at hc
    · intro c hc; simp only [List.head?_cons, Option.some.injEq] at hc; subst hc; decide
  have n4 : (ip ++ (fr ++ (ex ++ l))).head? ≠ some 0x2d := by
    obtain ⟨h0, hall⟩ := h2
    cases ip with
    | nil => exact absurd rfl h0
    | cons c ip =>
      have := hall c (by simp)
      intro h; simp only [List.cons_append, List.head?_cons, Option.some.injEq] at h; subst h; simp [Dig] at this
  have e : sg ++ ip ++ fr ++ ex ++ l = sg ++ (ip ++ (fr ++ (ex ++ l))) := by simp
  rw [e]
  unfold lex_number
  rw [numSign_of h1 n4]
  have t1 := take_digits h2.2 n3
  simp only [t1.1, t1.2, numFrac_of h4 n2 n1, numExp_of h5 hl, hd, f3]

/-- A number begins with a sign or a digit. -/
theorem NumText.first {t : List Byte} (h : NumText t) : ∃ c r, t = c :: r ∧ (c = 0x2d ∨ isDigit c = true) := by
  obtain ⟨sg, ip, fr, ex, h1, ⟨h0, hall⟩, -, -, -⟩ := h
  rcases h1 with rfl | rfl
  · cases ip with
    | nil => exact absurd rfl h0
    | cons c ip => exact ⟨c, ip ++ fr ++ ex, by simp, .inr ((isDigit_iff c).2 (hall c (by simp)))⟩
  · exact ⟨0x2d, ip ++ fr ++ ex, by simp, .inl rfl⟩

/-! ## White space -/

theorem skip_ws {w : List Byte} (h : Ws w) (l : List Byte) : skip (w ++ l) = skip l := by
  induction w with
  | nil => rfl
  | cons c w ih =>
    have hc := h c (by simp)
    have : skipped c = true := by rcases hc with rfl | rfl | rfl | rfl <;> decide
    simp [skip, this, ih (fun d hd => h d (by simp [hd]))]

theorem skip_stop {c : Byte} (l : List Byte) (h : skipped c = false) : skip (c :: l) = c :: l := by simp [skip, h]

theorem Ws.delim {w l : List Byte} (h : Ws w) (hl : Delim l) : Delim (w ++ l) := by
  cases w with
  | nil => exact hl
  | cons c w =>
    intro d hd
    simp only [List.cons_append, List.head?_cons, Option.some.injEq] at hd
    subst hd
    have := h c (by simp)
    grind

section
variable {D : Type} (td : List Byte → Option D)

theorem advance_ws {w : List Byte} (h : Ws w) (l : List Byte) : advance td (w ++ l) = advance td l := by
  unfold advance; rw [skip_ws h]

theorem advance_lbrace (l : List Byte) : advance td (0x7b :: l) = .ok (.lbrace, l) := by simp [advance, skip, skipped]
theorem advance_rbrace (l : List Byte) : advance td (0x7d :: l) = .ok (.rbrace, l) := by simp [advance, skip, skipped]
theorem advance_lbracket (l : List Byte) : advance td (0x5b :: l) = .ok (.lbracket, l) := by simp [advance, skip, skipped]
theorem advance_rbracket (l : List Byte) : advance td (0x5d :: l) = .ok (.rbracket, l) := by simp [advance, skip, skipped]
theorem advance_colon (l : List Byte) : advance td (0x3a :: l) = .ok (.colon, l) := by simp [advance, skip, skipped]
theorem advance_comma (l : List Byte) : advance td (0x2c :: l) = .ok (.comma, l) := by simp [advance, skip, skipped]

theorem advance_string {t s : List Byte} (h : StrText t s) (l : List Byte) :
    advance td (0x22 :: (t ++ 0x22 :: l)) = .ok (.string s, l) := by
  have e : lex_string (t ++ 34#8 :: l) = .ok (s, l) := lex_string_text h l
  simp [advance, skip, skipped, e]

theorem advance_number {t l : List Byte} {d : D} (h : NumText t) (hd : td t = some d) (hl : Delim l) :
    advance td (t ++ l) = .ok (.number d, l) := by
  have hn := lex_number_text h hd hl
  obtain ⟨c, r, rfl, hc⟩ := h.first
  have key : skipped c = false ∧ c ≠ 0 ∧ c ≠ 0x7b ∧ c ≠ 0x7d ∧ c ≠ 0x5b ∧ c ≠ 0x5d ∧ c ≠ 0x3a ∧ c ≠ 0x2c ∧ c ≠ 0x22 := by
    have : ∀ c : Byte, (c = 0x2d ∨ isDigit c = true) →
      skipped c = false ∧ c ≠ 0 ∧ c ≠ 0x7b ∧ c ≠ 0x7d ∧ c ≠ 0x5b ∧ c ≠ 0x5d ∧ c ≠ 0x3a ∧ c ≠ 0x2c ∧ c ≠ 0x22 := by
      decide +kernel
    exact this c hc
  obtain ⟨k0, k1, k2, k3, k4, k5, k6, k7, k8⟩ := key
  rw [List.cons_append] at hn ⊢
  simp only [advance, skip_stop _ k0, k1, k2, k3, k4, k5, k6, k7, k8, hc, hn, if_false, if_true]

theorem advance_null (l : List Byte) : advance td (0x6e :: 0x75 :: 0x6c :: 0x6c :: l) = .ok (.null, l) := by
  simp [advance, skip, skipped, isDigit, matchText, read_next]
theorem advance_true (l : List Byte) : advance td (0x74 :: 0x72 :: 0x75 :: 0x65 :: l) = .ok (.true, l) := by
  simp [advance, skip, skipped, isDigit, matchText, read_next]
theorem advance_false (l : List Byte) : advance td (0x66 :: 0x61 :: 0x6c :: 0x73 :: 0x65 :: l) = .ok (.false, l) := by
  simp [advance, skip, skipped, isDigit, matchText, read_next]

end

end C3.StdJson
