import Verif.StdJson.LemmasLax

/-! All texts of the wider grammar are accepted; the proofs follow those of `Lemmas` and `LemmasParse`. -/

set_option autoImplicit false

namespace C3.StdJson.Accept
open C3.Utf (Byte Char32 nums utf8 enc enc_utf8)
open C3.StdJson

theorem lexString_text {t s : List Byte} (h : LaxStr t s) : ∀ (n : Nat) (acc rest : List Byte), t.length + 1 ≤ n →
    lexStringLoop n (t ++ 0x22 :: rest) acc = .ok (acc ++ s, rest) := by
  induction h with
  | nil =>
    intro n acc rest hn
    obtain ⟨m, rfl⟩ : ∃ m, n = m + 1 := ⟨n - 1, by omega⟩
    simp [lexStringLoop, read_next]
  | raw c t s h1 h2 h3 _ ih =>
    intro n acc rest hn
    obtain ⟨m, rfl⟩ : ∃ m, n = m + 1 := ⟨n - 1, by omega⟩
    have h0 := byte_ne_zero h1
    have h31 : ¬ c.toNat ≤ 31 := by omega
    simp only [List.length_cons] at hn
    simp only [lexStringLoop, List.cons_append, read_cons _ h0, h0, h31, h2, h3, if_false, ne_eq, not_false_eq_true, if_true]
    rw [ih m _ rest (by omega)]; simp
  | esc e c t s h1 _ ih =>
    intro n acc rest hn
    obtain ⟨m, rfl⟩ : ∃ m, n = m + 1 := ⟨n - 1, by omega⟩
    obtain ⟨a1, a2, a3, a4⟩ := escapes_ok h1
    simp only [List.length_cons] at hn
    simp only [lexStringLoop, List.cons_append, read_cons _ (show (0x5c : Byte) ≠ 0 by decide),
      show ¬ (0x5c : Byte) = 0 by decide, show ¬ (0x5c : Byte).toNat ≤ 31 by decide, show ¬ (0x5c : Byte) = 0x22 by decide,
      read_cons _ a2, a2, a3, a4, a1, if_false, ne_eq, not_true_eq_false]
    rw [ih m _ rest (by omega)]; simp
  | uni h1 h2 h3 h4 v1 v2 v3 v4 u t s e1 e2 e3 e4 hu _ ih =>
    intro n acc rest hn
    obtain ⟨m, rfl⟩ : ∃ m, n = m + 1 := ⟨n - 1, by omega⟩
    simp only [List.length_cons] at hn
    obtain ⟨val, hv, hval⟩ := lexHex_four (t ++ 0x22 :: rest) e1 e2 e3 e4
    simp only [lexStringLoop, List.cons_append, read_cons _ (show (0x5c : Byte) ≠ 0 by decide),
      show ¬ (0x5c : Byte) = 0 by decide, show ¬ (0x5c : Byte).toNat ≤ 31 by decide, show ¬ (0x5c : Byte) = 0x22 by decide,
      read_cons _ (show (0x75 : Byte) ≠ 0 by decide), show ¬ (0x75 : Byte) = 0 by decide, show ¬ (0x75 : Byte).toNat ≤ 31 by decide,
      if_false, if_true, ne_eq, not_true_eq_false, hv]
    rw [ih m _ rest (by omega), append_char32_enc]
    have : enc val = u := by
      apply nums_inj
      have b1 := (hexDigit_val e1).2.2.2
      have b2 := (hexDigit_val e2).2.2.2
      have b3 := (hexDigit_val e3).2.2.2
      have b4 := (hexDigit_val e4).2.2.2
      rw [enc_utf8 val (by omega), hval, hu]
    rw [this]; simp

theorem lex_string_text {t s : List Byte} (h : LaxStr t s) (rest : List Byte) :
    lex_string (t ++ 0x22 :: rest) = .ok (s, rest) := by
  unfold lex_string
  rw [lexString_text h _ _ _ (by simp)]; simp

/-- Bytes that can follow a number. -/
def Delim (l : List Byte) : Prop := ∀ c, l.head? = some c →
  c = 0x20 ∨ c = 9 ∨ c = 10 ∨ c = 13 ∨ c = 11 ∨ c = 0x2f ∨ c = 0x2c ∨ c = 0x5d ∨ c = 0x7d

theorem Delim.facts {l : List Byte} (h : Delim l) : NoDig l ∧ l.head? ≠ some 0x2e ∧ cut l = l ∧ numExp l = .ok ([], l) := by
  cases l with
  | nil => refine ⟨?_, by simp, rfl, rfl⟩; intro c hc; simp at hc
  | cons c r =>
    have := h c rfl
    rcases this with h | h | h | h | h | h | h | h | h <;> subst h <;>
      refine ⟨?_, by simp, by simp [cut], by simp [numExp]⟩ <;> intro c hc <;>
      simp only [List.head?_cons, Option.some.injEq] at hc <;> subst hc <;> decide

theorem numFrac_of {fr l : List Byte} (h : fr = [] ∨ ∃ ds, (∀ c ∈ ds, Dig c) ∧ fr = 0x2e :: ds) (hl : l.head? ≠ some 0x2e)
    (hn : NoDig l) : numFrac (fr ++ l) = (fr, l) := by
  rcases h with rfl | ⟨ds, hd, rfl⟩
  · rw [List.nil_append]; exact if_neg hl
  · have := take_digits hd hn
    simp [numFrac, this.1, this.2]

theorem numExp_of {ex l : List Byte} (h : ex = [] ∨ ∃ e s ds, (e = 0x65 ∨ e = 0x45) ∧
    (s = [] ∨ s = [0x2b] ∨ s = [0x2d]) ∧ Digits ds ∧ ex = e :: (s ++ ds)) (hl : Delim l) :
    numExp (ex ++ l) = .ok (ex, l) := by
  obtain ⟨f1, f2, f3, f4⟩ := hl.facts
  rcases h with rfl | ⟨e, s, ds, he, hs, hd, rfl⟩
  · simpa using f4
  · have ht := take_digits hd.2 f1
    have e32 : e ||| 32 = 0x65 := by rcases he with rfl | rfl <;> decide
    have hne : ds.isEmpty = false := by simpa using hd.1
    have hhd : (ds ++ l).head? ≠ some 0x2d ∧ (ds ++ l).head? ≠ some 0x2b := by
      obtain ⟨h0, hall⟩ := hd
      cases ds with
      | nil => exact absurd rfl h0
      | cons d ds =>
        have := hall d (by simp)
        constructor <;> intro h <;> simp only [List.cons_append, List.head?_cons, Option.some.injEq] at h <;> subst h <;>
          simp [Dig] at this
    rcases hs with rfl | rfl | rfl
    · simp only [numExp, List.cons_append, List.nil_append, e32, hhd.1, hhd.2, or_self, if_true, if_false, ht.1, ht.2, hne,
        Bool.false_eq_true]
    · simp only [numExp, List.cons_append, List.nil_append, e32, List.head?_cons, or_true, if_true, List.tail_cons,
        List.take_succ_cons, List.take_zero, ht.1, ht.2, hne, Bool.false_eq_true, if_false]
    · simp only [numExp, List.cons_append, List.nil_append, e32, List.head?_cons, true_or, if_true, List.tail_cons,
        List.take_succ_cons, List.take_zero, ht.1, ht.2, hne, Bool.false_eq_true, if_false]

theorem lex_number_text {D : Type} {to_double : List Byte → Option D} {t l : List Byte} {d : D} (h : LaxNum t)
    (hd : to_double t = some d) (hl : Delim l) : lex_number to_double (t ++ l) = .ok (d, l) := by
  obtain ⟨sg, ip, fr, ex, h1, h2, h3, h4, h5⟩ := h
  obtain ⟨f1, f2, f3, -⟩ := hl.facts
  obtain ⟨x1, x2⟩ := ex_facts h5
  have n1 : NoDig (ex ++ l) := noDig_append x1 f1
  have n2 : (ex ++ l).head? ≠ some 0x2e := head_append x2 f2
  have n3 : NoDig (fr ++ (ex ++ l)) := by
    refine noDig_append ?_ n1
    rcases h4 with rfl | ⟨ds, -, rfl⟩
    · intro c hc; simp at hc
    · intro c hc; simp only [List.head?_cons, Option.some.injEq] at hc; subst hc; decide
  have n4 : numSign (sg ++ (ip ++ (fr ++ (ex ++ l)))) = (sg, ip ++ (fr ++ (ex ++ l))) := by
    rcases h1 with h1 | h1
    · refine numSign_of (.inl h1) ?_
      cases ip with
      | nil => exact absurd rfl (h3 h1)
      | cons c ip =>
        have := h2 c (by simp)
        intro h; simp only [List.cons_append, List.head?_cons, Option.some.injEq] at h; subst h; simp [Dig] at this
    · subst h1; simp [numSign]
  have e : sg ++ ip ++ fr ++ ex ++ l = sg ++ (ip ++ (fr ++ (ex ++ l))) := by simp
  rw [e]
  unfold lex_number
  rw [n4]
  have t1 := take_digits h2 n3
  simp only [t1.1, t1.2, numFrac_of h4 n2 n1, numExp_of h5 hl, hd, f3]

/-- A number begins with a sign or a digit. -/
theorem lax_first {t : List Byte} (h : LaxNum t) : ∃ c r, t = c :: r ∧ (c = 0x2d ∨ isDigit c = true) := by
  obtain ⟨sg, ip, fr, ex, h1, hall, h0, -, -⟩ := h
  rcases h1 with rfl | rfl
  · cases ip with
    | nil => exact absurd rfl (h0 rfl)
    | cons c ip => exact ⟨c, ip ++ fr ++ ex, by simp, .inr ((isDigit_iff c).2 (hall c (by simp)))⟩
  · exact ⟨0x2d, ip ++ fr ++ ex, by simp, .inl rfl⟩

theorem skip_ws {w : List Byte} (h : LaxWs w) (l : List Byte) : skip (w ++ l) = skip l := by
  induction w with
  | nil => rfl
  | cons c w ih =>
    have hc := h c (by simp)
    have : skipped c = true := by rcases hc with rfl | rfl | rfl | rfl | rfl | rfl <;> decide
    simp [skip, this, ih (fun d hd => h d (by simp [hd]))]

theorem ws_delim {w l : List Byte} (h : LaxWs w) (hl : Delim l) : Delim (w ++ l) := by
  cases w with
  | nil => exact hl
  | cons c w =>
    intro d hd
    simp only [List.cons_append, List.head?_cons, Option.some.injEq] at hd
    subst hd
    have := h c (by simp)
    grind

section
variable {D : Type} (td : List Byte → Option D)

theorem advance_ws {w : List Byte} (h : LaxWs w) (l : List Byte) : advance td (w ++ l) = advance td l := by
  unfold advance; rw [skip_ws h]

theorem advance_string {t s : List Byte} (h : LaxStr t s) (l : List Byte) :
    advance td (0x22 :: (t ++ 0x22 :: l)) = .ok (.string s, l) := by
  have e : lex_string (t ++ 34#8 :: l) = .ok (s, l) := lex_string_text h l
  simp [advance, skip, skipped, e]

theorem advance_number {t l : List Byte} {d : D} (h : LaxNum t) (hd : td t = some d) (hl : Delim l) :
    advance td (t ++ l) = .ok (.number d, l) := by
  have hn := lex_number_text h hd hl
  obtain ⟨c, r, rfl, hc⟩ := lax_first h
  have key : skipped c = false ∧ c ≠ 0 ∧ c ≠ 0x7b ∧ c ≠ 0x7d ∧ c ≠ 0x5b ∧ c ≠ 0x5d ∧ c ≠ 0x3a ∧ c ≠ 0x2c ∧ c ≠ 0x22 := by
    have : ∀ c : Byte, (c = 0x2d ∨ isDigit c = true) →
      skipped c = false ∧ c ≠ 0 ∧ c ≠ 0x7b ∧ c ≠ 0x7d ∧ c ≠ 0x5b ∧ c ≠ 0x5d ∧ c ≠ 0x3a ∧ c ≠ 0x2c ∧ c ≠ 0x22 := by
      decide +kernel
    exact this c hc
  obtain ⟨k0, k1, k2, k3, k4, k5, k6, k7, k8⟩ := key
  rw [List.cons_append] at hn ⊢
  simp only [advance, skip_stop _ k0, k1, k2, k3, k4, k5, k6, k7, k8, hc, hn, if_false, if_true]

end

variable {D : Type} {td : List Byte → Option D}

/-- What is shown of each item. -/
def Goal (td : List Byte → Option D) (it : Item D) (t : List Byte) : Prop :=
  match it with
  | .val v => ∀ (w rest : List Byte), LaxWs w → Delim rest → Reads td t.length (w ++ (t ++ rest)) v rest
  | .elems vs => ∀ (rest : List Byte) (acc : List (Val D)) (n : Nat), t.length + 1 ≤ n →
      go td n (.array acc) (t ++ 0x5d :: rest) = .ok (mkArr (acc ++ vs), rest)
  | .members ms => ∀ (rest : List Byte) (acc : List (List Byte × Val D)) (n : Nat),
      t.length + 1 ≤ n → ((acc ++ ms).map (·.1)).Nodup →
      go td n (.map acc) (t ++ 0x7d :: rest) = .ok (mkObj (acc ++ ms), rest)

theorem delim_comma (l : List Byte) : Delim (0x2c :: l) := by
  intro c hc; simp only [List.head?_cons, Option.some.injEq] at hc; subst hc; decide
theorem delim_rbracket (l : List Byte) : Delim (0x5d :: l) := by
  intro c hc; simp only [List.head?_cons, Option.some.injEq] at hc; subst hc; decide
theorem delim_rbrace (l : List Byte) : Delim (0x7d :: l) := by
  intro c hc; simp only [List.head?_cons, Option.some.injEq] at hc; subst hc; decide

theorem parse_text {it : Item D} {t : List Byte} (h : LaxText td it t) : Goal td it t := by
  induction h with
  | null =>
    intro w rest hw hr
    refine reads_tok (by rw [advance_ws td hw]; exact advance_null td rest) (by simp) (fun n => rfl) (by simp)
  | true =>
    intro w rest hw hr
    refine reads_tok (by rw [advance_ws td hw]; exact advance_true td rest) (by simp) (fun n => rfl) (by simp)
  | false =>
    intro w rest hw hr
    refine reads_tok (by rw [advance_ws td hw]; exact advance_false td rest) (by simp) (fun n => rfl) (by simp)
  | num t d ht hd =>
    intro w rest hw hr
    obtain ⟨c, r, e, -⟩ := lax_first ht
    refine reads_tok (by rw [advance_ws td hw]; exact advance_number td ht hd hr) (by simp) (fun n => rfl) (by simp [e])
  | str t s ht =>
    intro w rest hw hr
    refine reads_tok (tok := .string s) ?_ (by simp) (fun n => rfl) (by simp)
    rw [advance_ws td hw]
    have := advance_string td ht rest
    simpa using this
  | emptyArr t _ ih =>
    intro w rest hw hr
    refine ⟨.lbracket, t ++ 0x5d :: rest, ?_, by simp, fun n hn => ?_⟩
    · rw [advance_ws td hw]; simpa using advance_lbracket td (t ++ 0x5d :: rest)
    · simp only [List.cons_append, List.length_cons, List.length_append, List.length_nil] at hn
      obtain ⟨m, rfl⟩ : ∃ m, n = m + 1 := ⟨n - 1, by omega⟩
      simp only [go]
      rw [ih rest [] m (by omega)]
      rfl
  | emptyObj t _ ih =>
    intro w rest hw hr
    refine ⟨.lbrace, t ++ 0x7d :: rest, ?_, by simp, fun n hn => ?_⟩
    · rw [advance_ws td hw]; simpa using advance_lbrace td (t ++ 0x7d :: rest)
    · simp only [List.cons_append, List.length_cons, List.length_append, List.length_nil] at hn
      obtain ⟨m, rfl⟩ : ∃ m, n = m + 1 := ⟨n - 1, by omega⟩
      simp only [go]
      rw [ih rest [] m (by omega) (by simp)]
      rfl
  | arr vs t hne _ ih =>
    intro w rest hw hr
    refine ⟨.lbracket, t ++ 0x5d :: rest, ?_, by simp, fun n hn => ?_⟩
    · rw [advance_ws td hw]; simpa using advance_lbracket td (t ++ 0x5d :: rest)
    · simp only [List.cons_append, List.length_cons, List.length_append, List.length_nil] at hn
      obtain ⟨m, rfl⟩ : ∃ m, n = m + 1 := ⟨n - 1, by omega⟩
      simp only [go]
      rw [ih rest [] m (by omega)]
      simp [mkArr, hne]
  | obj ms t hne _ hnd ih =>
    intro w rest hw hr
    refine ⟨.lbrace, t ++ 0x7d :: rest, ?_, by simp, fun n hn => ?_⟩
    · rw [advance_ws td hw]; simpa using advance_lbrace td (t ++ 0x7d :: rest)
    · simp only [List.cons_append, List.length_cons, List.length_append, List.length_nil] at hn
      obtain ⟨m, rfl⟩ : ∃ m, n = m + 1 := ⟨n - 1, by omega⟩
      simp only [go]
      rw [ih rest [] m (by omega) (by simpa using hnd)]
      simp [mkObj, hne]
  | noElem w hw =>
    intro rest acc n hn
    obtain ⟨m, rfl⟩ : ∃ m, n = m + 1 := ⟨n - 1, by omega⟩
    simp only [go]
    rw [advance_ws td hw, advance_rbracket]; simp
  | noMember w hw =>
    intro rest acc n hn _
    obtain ⟨m, rfl⟩ : ∃ m, n = m + 1 := ⟨n - 1, by omega⟩
    simp only [go]
    rw [advance_ws td hw, advance_rbrace]; simp
  | elem v t w1 w2 hw1 hw2 _ ih =>
    intro rest acc n hn
    simp only [List.length_append] at hn
    have hr := ih w1 (w2 ++ 0x5d :: rest) hw1 (ws_delim hw2 (delim_rbracket rest))
    obtain ⟨m, rfl⟩ : ∃ m, n = m + 1 := ⟨n - 1, by omega⟩
    have e : w1 ++ t ++ w2 ++ 0x5d :: rest = w1 ++ (t ++ (w2 ++ 0x5d :: rest)) := by simp
    rw [e, array_step (hr.mono (k' := m) (by omega)), advance_ws td hw2, advance_rbracket]
  | elemsCons v vs t t' w1 w2 hw1 hw2 _ _ ih ih' =>
    intro rest acc n hn
    simp only [List.length_append, List.length_cons] at hn
    have hr := ih w1 (w2 ++ (0x2c :: (t' ++ 0x5d :: rest))) hw1 (ws_delim hw2 (delim_comma _))
    obtain ⟨m, rfl⟩ : ∃ m, n = m + 1 := ⟨n - 1, by omega⟩
    have e : w1 ++ t ++ w2 ++ 0x2c :: t' ++ 0x5d :: rest =
      w1 ++ (t ++ (w2 ++ (0x2c :: (t' ++ 0x5d :: rest)))) := by simp
    rw [e, array_step (hr.mono (k' := m) (by omega)), advance_ws td hw2, advance_comma]
    have := ih' rest (acc ++ [v]) m (by omega)
    simpa using this
  | member k v kt t w1 w2 w3 w4 hw1 hw2 hw3 hw4 hk _ ih =>
    intro rest acc n hn hnd
    simp only [List.length_append, List.length_cons] at hn
    have hr := ih w3 (w4 ++ 0x7d :: rest) hw3 (ws_delim hw4 (delim_rbrace rest))
    obtain ⟨m, rfl⟩ : ∃ m, n = m + 1 := ⟨n - 1, by omega⟩
    have e : w1 ++ 0x22 :: kt ++ 0x22 :: w2 ++ 0x3a :: w3 ++ t ++ w4 ++ 0x7d :: rest =
      w1 ++ (0x22 :: (kt ++ 0x22 :: (w2 ++ (0x3a :: (w3 ++ (t ++ (w4 ++ 0x7d :: rest))))))) := by simp
    have h1 := (advance_ws td hw1 _).trans (advance_string td hk (w2 ++ (0x3a :: (w3 ++ (t ++ (w4 ++ 0x7d :: rest))))))
    have h2 := (advance_ws td hw2 _).trans (advance_colon td (w3 ++ (t ++ (w4 ++ 0x7d :: rest))))
    have hf : acc.any (fun m => m.1 == k) = false := any_false (l := []) (by simpa using hnd)
    rw [e, map_step h1 hf h2 (hr.mono (k' := m) (by omega)), advance_ws td hw4, advance_rbrace]
  | membersCons k v ms kt t t' w1 w2 w3 w4 hw1 hw2 hw3 hw4 hk _ _ ih ih' =>
    intro rest acc n hn hnd
    simp only [List.length_append, List.length_cons] at hn
    have hr := ih w3 (w4 ++ (0x2c :: (t' ++ 0x7d :: rest))) hw3 (ws_delim hw4 (delim_comma _))
    obtain ⟨m, rfl⟩ : ∃ m, n = m + 1 := ⟨n - 1, by omega⟩
    have e : w1 ++ 0x22 :: kt ++ 0x22 :: w2 ++ 0x3a :: w3 ++ t ++ w4 ++ 0x2c :: t' ++ 0x7d :: rest =
      w1 ++ (0x22 :: (kt ++ 0x22 :: (w2 ++ (0x3a :: (w3 ++ (t ++ (w4 ++ (0x2c :: (t' ++ 0x7d :: rest))))))))) := by
      simp
    have h1 := (advance_ws td hw1 _).trans
      (advance_string td hk (w2 ++ (0x3a :: (w3 ++ (t ++ (w4 ++ (0x2c :: (t' ++ 0x7d :: rest))))))))
    have h2 := (advance_ws td hw2 _).trans (advance_colon td (w3 ++ (t ++ (w4 ++ (0x2c :: (t' ++ 0x7d :: rest))))))
    have hf : acc.any (fun m => m.1 == k) = false := any_false (l := ms.map (·.1)) (by simpa using hnd)
    rw [e, map_step h1 hf h2 (hr.mono (k' := m) (by omega)), advance_ws td hw4, advance_comma]
    have := ih' rest (acc ++ [(k, v)]) m (by omega) (by simpa using hnd)
    simpa using this

end C3.StdJson.Accept
