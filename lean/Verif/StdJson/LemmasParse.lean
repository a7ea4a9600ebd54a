import Verif.StdJson.Lemmas

/-! What the parser does with texts, by induction on them; that the bound of `go` is never reached. -/

set_option autoImplicit false

namespace C3.StdJson
open C3.Utf (Byte)

variable {D : Type} {td : List Byte → Option D}

/-- The parser reads the value `v` from `l` and leaves `rest`; `k` is the depth it needs. -/
def Reads (td : List Byte → Option D) (k : Nat) (l : List Byte) (v : Val D) (rest : List Byte) : Prop :=
  ∃ tok l1, advance td l = .ok (tok, l1) ∧ tok ≠ .rbracket ∧ ∀ n, k ≤ n → go td n (.from_token tok) l1 = .ok (v, rest)

theorem Reads.mono {k k' : Nat} {l rest : List Byte} {v : Val D} (h : Reads td k l v rest) (hk : k ≤ k') :
    Reads td k' l v rest := by
  obtain ⟨tok, l1, h1, h2, h3⟩ := h
  exact ⟨tok, l1, h1, h2, fun n hn => h3 n (by omega)⟩

theorem Reads.any {k : Nat} {l rest : List Byte} {v : Val D} (h : Reads td k l v rest) {n : Nat} (hn : k ≤ n) :
    parse_any td n l = .ok (v, rest) := by
  obtain ⟨tok, l1, h1, -, h3⟩ := h
  unfold parse_any; rw [h1]; exact h3 n hn

theorem array_step {n : Nat} {vs : List (Val D)} {l l2 : List Byte} {v : Val D} (h : Reads td n l v l2) :
    go td (n + 1) (.array vs) l = match advance td l2 with
        | .error e => .error e
        | .ok (.comma, l) => go td n (.array (vs ++ [v])) l
        | .ok (.rbracket, l) => .ok (mkArr (vs ++ [v]), l)
        | .ok _ => .error .UNEXPECTED_CHARACTER := by
  obtain ⟨tok, l1, h1, h2, h3⟩ := h
  have h3 := h3 n (Nat.le_refl n)
  cases tok with
  | rbracket => exact absurd rfl h2
  | _ => simp only [go, h1, h3]; rcases advance td l2 with e | ⟨t, l⟩ <;> [rfl; (cases t <;> rfl)]

theorem map_step {n : Nat} {ms : List (List Byte × Val D)} {l l1 l2 l3 k : List Byte} {v : Val D}
    (h1 : advance td l = .ok (.string k, l1)) (hk : ms.any (fun m => m.1 == k) = false)
    (h2 : advance td l1 = .ok (.colon, l2)) (h : Reads td n l2 v l3) :
    go td (n + 1) (.map ms) l = match advance td l3 with
        | .error e => .error e
        | .ok (.comma, l) => go td n (.map (ms ++ [(k, v)])) l
        | .ok (.rbrace, l) => .ok (mkObj (ms ++ [(k, v)]), l)
        | .ok _ => .error .UNEXPECTED_CHARACTER := by
  obtain ⟨tok, l4, h4, -, h3⟩ := h
  have h3 := h3 n (Nat.le_refl n)
  simp only [go, h1, hk, h2, h4, h3, Bool.false_eq_true, if_false]
  rcases advance td l3 with e | ⟨t, l⟩ <;> [rfl; (cases t <;> rfl)]

theorem mkArr_append (vs : List (Val D)) (v : Val D) : mkArr (vs ++ [v]) = .arr (vs ++ [v]) := by simp [mkArr]
theorem mkObj_append (ms : List (List Byte × Val D)) (m : List Byte × Val D) : mkObj (ms ++ [m]) = .obj (ms ++ [m]) := by
  simp [mkObj]

/-- Nothing, or a comma and white space: what may be after the last element. -/
def Trail (tr : List Byte) : Prop := tr = [] ∨ ∃ w, Ws w ∧ tr = 0x2c :: w

/-- What is shown of each item. -/
def Goal (td : List Byte → Option D) (it : Item D) (t : List Byte) : Prop :=
  match it with
  | .val v => ∀ (w rest : List Byte), Ws w → Delim rest → Reads td t.length (w ++ (t ++ rest)) v rest
  | .elems vs => ∀ (tr rest : List Byte) (acc : List (Val D)) (n : Nat), Trail tr → t.length + tr.length + 1 ≤ n →
      go td n (.array acc) (t ++ (tr ++ 0x5d :: rest)) = .ok (.arr (acc ++ vs), rest)
  | .members ms => ∀ (tr rest : List Byte) (acc : List (List Byte × Val D)) (n : Nat), Trail tr →
      t.length + tr.length + 1 ≤ n → ((acc ++ ms).map (·.1)).Nodup →
      go td n (.map acc) (t ++ (tr ++ 0x7d :: rest)) = .ok (.obj (acc ++ ms), rest)

theorem delim_comma (l : List Byte) : Delim (0x2c :: l) := by
  intro c hc; simp only [List.head?_cons, Option.some.injEq] at hc; subst hc; decide
theorem delim_rbracket (l : List Byte) : Delim (0x5d :: l) := by
  intro c hc; simp only [List.head?_cons, Option.some.injEq] at hc; subst hc; decide
theorem delim_rbrace (l : List Byte) : Delim (0x7d :: l) := by
  intro c hc; simp only [List.head?_cons, Option.some.injEq] at hc; subst hc; decide

theorem Trail.delim {tr l : List Byte} (h : Trail tr) (hl : Delim l) : Delim (tr ++ l) := by
  rcases h with rfl | ⟨w, -, rfl⟩
  · exact hl
  · exact delim_comma _

theorem ws_nil : Ws [] := by intro c hc; simp at hc

theorem reads_tok {l l1 : List Byte} {tok : Tok D} {v : Val D} (h : advance td l = .ok (tok, l1)) (h2 : tok ≠ .rbracket)
    (h3 : ∀ n, go td (n + 1) (.from_token tok) l1 = .ok (v, l1)) {k : Nat} (hk : 1 ≤ k) : Reads td k l v l1 := by
  refine ⟨tok, l1, h, h2, fun n hn => ?_⟩
  obtain ⟨m, rfl⟩ : ∃ m, n = m + 1 := ⟨n - 1, by omega⟩
  exact h3 m

theorem end_array {tr : List Byte} (ht : Trail tr) {l rest : List Byte} {acc : List (Val D)} {v : Val D} {n : Nat}
    (hn : 1 ≤ n) {w : List Byte} (hw : Ws w) (h : Reads td n l v (w ++ (tr ++ 0x5d :: rest))) :
    go td (n + 1) (.array acc) l = .ok (.arr (acc ++ [v]), rest) := by
  obtain ⟨m, rfl⟩ : ∃ m, n = m + 1 := ⟨n - 1, by omega⟩
  rw [array_step h, advance_ws td hw]
  rcases ht with rfl | ⟨w', hw', rfl⟩
  · rw [List.nil_append, advance_rbracket]; simp only [mkArr_append]
  · rw [List.cons_append, advance_comma]
    simp only [go]
    rw [advance_ws td hw', advance_rbracket]; simp only [mkArr_append]

theorem end_map {tr : List Byte} (ht : Trail tr) {l l1 l2 k rest : List Byte} {acc : List (List Byte × Val D)} {v : Val D}
    {n : Nat} (hn : 1 ≤ n) {w : List Byte} (hw : Ws w)
    (h1 : advance td l = .ok (.string k, l1)) (hk : acc.any (fun m => m.1 == k) = false)
    (h2 : advance td l1 = .ok (.colon, l2)) (h : Reads td n l2 v (w ++ (tr ++ 0x7d :: rest))) :
    go td (n + 1) (.map acc) l = .ok (.obj (acc ++ [(k, v)]), rest) := by
  obtain ⟨m, rfl⟩ : ∃ m, n = m + 1 := ⟨n - 1, by omega⟩
  rw [map_step h1 hk h2 h, advance_ws td hw]
  rcases ht with rfl | ⟨w', hw', rfl⟩
  · rw [List.nil_append, advance_rbrace]; simp only [mkObj_append]
  · rw [List.cons_append, advance_comma]
    simp only [go]
    rw [advance_ws td hw', advance_rbrace]; simp only [mkObj_append]

theorem any_false {ms : List (List Byte × Val D)} {k : List Byte} {l : List (List Byte)}
    (h : (ms.map (·.1) ++ k :: l).Nodup) : ms.any (fun m => m.1 == k) = false := by
  rw [List.any_eq_false]
  intro m hm hk
  have hk : m.1 = k := by simpa using hk
  have := (List.nodup_append.1 h).2.2 m.1 (List.mem_map.2 ⟨m, hm, rfl⟩) k (by simp)
  exact this hk

theorem parse_text {it : Item D} {t : List Byte} (h : Text td it t) : Goal td it t := by
  induction h with
  | null =>
    intro w rest hw hr
    refine reads_tok (by rw [advance_ws td hw]; exact advance_null td rest) (by simp) (fun n => rfl) (by simp)
  | true =>
    intro w rest hw hr
    refine reads_tok (by rw [advance_ws td hw]; exact advance_true td rest) (by simp) (fun n => rfl) (by simp)
  | false =>
    intro w rest hw hr
    refine reads_tok (by rw [advance_ws td hw]; exact advance_false td rest) (by simp) (fun n => rfl) (by simp)
  | num t d ht hd =>
    intro w rest hw hr
    obtain ⟨c, r, e, -⟩ := ht.first
    refine reads_tok (by rw [advance_ws td hw]; exact advance_number td ht hd hr) (by simp) (fun n => rfl) (by simp [e])
  | str t s ht =>
    intro w rest hw hr
    refine reads_tok (tok := .string s) ?_ (by simp) (fun n => rfl) (by simp)
    rw [advance_ws td hw]
    have := advance_string td ht rest
    simpa using this
  | noElems w0 hw0 =>
    intro w rest hw hr
    refine ⟨.lbracket, w0 ++ 0x5d :: rest, ?_, by simp, fun n hn => ?_⟩
    · rw [advance_ws td hw]; simpa using advance_lbracket td (w0 ++ 0x5d :: rest)
    · simp only [List.cons_append, List.length_cons, List.length_append, List.length_nil] at hn
      obtain ⟨m, rfl⟩ : ∃ m, n = m + 2 := ⟨n - 2, by omega⟩
      simp only [go]
      rw [advance_ws td hw0, advance_rbracket]; rfl
  | noMembers w0 hw0 =>
    intro w rest hw hr
    refine ⟨.lbrace, w0 ++ 0x7d :: rest, ?_, by simp, fun n hn => ?_⟩
    · rw [advance_ws td hw]; simpa using advance_lbrace td (w0 ++ 0x7d :: rest)
    · simp only [List.cons_append, List.length_cons, List.length_append, List.length_nil] at hn
      obtain ⟨m, rfl⟩ : ∃ m, n = m + 2 := ⟨n - 2, by omega⟩
      simp only [go]
      rw [advance_ws td hw0, advance_rbrace]; rfl
  | arr vs t _ ih =>
    intro w rest hw hr
    refine ⟨.lbracket, t ++ 0x5d :: rest, ?_, by simp, fun n hn => ?_⟩
    · rw [advance_ws td hw]; simpa using advance_lbracket td (t ++ 0x5d :: rest)
    · simp only [List.cons_append, List.length_cons, List.length_append, List.length_nil] at hn
      obtain ⟨m, rfl⟩ : ∃ m, n = m + 1 := ⟨n - 1, by omega⟩
      simp only [go]
      exact ih [] rest [] m (.inl rfl) (by simp only [List.length_nil]; omega)
  | obj ms t _ hnd ih =>
    intro w rest hw hr
    refine ⟨.lbrace, t ++ 0x7d :: rest, ?_, by simp, fun n hn => ?_⟩
    · rw [advance_ws td hw]; simpa using advance_lbrace td (t ++ 0x7d :: rest)
    · simp only [List.cons_append, List.length_cons, List.length_append, List.length_nil] at hn
      obtain ⟨m, rfl⟩ : ∃ m, n = m + 1 := ⟨n - 1, by omega⟩
      simp only [go]
      exact ih [] rest [] m (.inl rfl) (by simp only [List.length_nil]; omega) (by simpa using hnd)
  | elem v t w1 w2 hw1 hw2 _ ih =>
    intro tr rest acc n htr hn
    simp only [List.length_append] at hn
    have hr := ih w1 (w2 ++ (tr ++ 0x5d :: rest)) hw1 (hw2.delim (htr.delim (delim_rbracket rest)))
    have hpos : 1 ≤ t.length := by
      obtain ⟨tok, l1, -, -, h3⟩ := hr
      cases t with
      | nil => have := h3 0 (by simp); simp [go] at this
      | cons => simp
    obtain ⟨m, rfl⟩ : ∃ m, n = m + 1 := ⟨n - 1, by omega⟩
    have e : w1 ++ t ++ w2 ++ (tr ++ 0x5d :: rest) = w1 ++ (t ++ (w2 ++ (tr ++ 0x5d :: rest))) := by simp
    rw [e, end_array htr (by omega) hw2 (hr.mono (k' := m) (by omega))]
  | elemsCons v vs t t' w1 w2 hw1 hw2 _ _ ih ih' =>
    intro tr rest acc n htr hn
    simp only [List.length_append, List.length_cons] at hn
    have hr := ih w1 (w2 ++ (0x2c :: (t' ++ (tr ++ 0x5d :: rest)))) hw1 (hw2.delim (delim_comma _))
    obtain ⟨m, rfl⟩ : ∃ m, n = m + 1 := ⟨n - 1, by omega⟩
    have e : w1 ++ t ++ w2 ++ 0x2c :: t' ++ (tr ++ 0x5d :: rest) =
      w1 ++ (t ++ (w2 ++ (0x2c :: (t' ++ (tr ++ 0x5d :: rest))))) := by simp
    rw [e, array_step (hr.mono (k' := m) (by omega)), advance_ws td hw2, advance_comma]
    have := ih' tr rest (acc ++ [v]) m htr (by omega)
    simpa using this
  | member k v kt t w1 w2 w3 w4 hw1 hw2 hw3 hw4 hk _ ih =>
    intro tr rest acc n htr hn hnd
    simp only [List.length_append, List.length_cons] at hn
    have hr := ih w3 (w4 ++ (tr ++ 0x7d :: rest)) hw3 (hw4.delim (htr.delim (delim_rbrace rest)))
    obtain ⟨m, rfl⟩ : ∃ m, n = m + 1 := ⟨n - 1, by omega⟩
    have e : w1 ++ 0x22 :: kt ++ 0x22 :: w2 ++ 0x3a :: w3 ++ t ++ w4 ++ (tr ++ 0x7d :: rest) =
      w1 ++ (0x22 :: (kt ++ 0x22 :: (w2 ++ (0x3a :: (w3 ++ (t ++ (w4 ++ (tr ++ 0x7d :: rest)))))))) := by simp
    have h1 := (advance_ws td hw1 _).trans (advance_string td hk (w2 ++ (0x3a :: (w3 ++ (t ++ (w4 ++ (tr ++ 0x7d :: rest)))))))
    have h2 := (advance_ws td hw2 _).trans (advance_colon td (w3 ++ (t ++ (w4 ++ (tr ++ 0x7d :: rest)))))
    have hf : acc.any (fun m => m.1 == k) = false := any_false (l := []) (by simpa using hnd)
    rw [e, end_map htr (by omega) hw4 h1 hf h2 (hr.mono (k' := m) (by omega))]
  | membersCons k v ms kt t t' w1 w2 w3 w4 hw1 hw2 hw3 hw4 hk _ _ ih ih' =>
    intro tr rest acc n htr hn hnd
    simp only [List.length_append, List.length_cons] at hn
    have hr := ih w3 (w4 ++ (0x2c :: (t' ++ (tr ++ 0x7d :: rest)))) hw3 (hw4.delim (delim_comma _))
    obtain ⟨m, rfl⟩ : ∃ m, n = m + 1 := ⟨n - 1, by omega⟩
    have e : w1 ++ 0x22 :: kt ++ 0x22 :: w2 ++ 0x3a :: w3 ++ t ++ w4 ++ 0x2c :: t' ++ (tr ++ 0x7d :: rest) =
      w1 ++ (0x22 :: (kt ++ 0x22 :: (w2 ++ (0x3a :: (w3 ++ (t ++ (w4 ++ (0x2c :: (t' ++ (tr ++ 0x7d :: rest)))))))))) := by
      simp
    have h1 := (advance_ws td hw1 _).trans
      (advance_string td hk (w2 ++ (0x3a :: (w3 ++ (t ++ (w4 ++ (0x2c :: (t' ++ (tr ++ 0x7d :: rest)))))))))
    have h2 := (advance_ws td hw2 _).trans (advance_colon td (w3 ++ (t ++ (w4 ++ (0x2c :: (t' ++ (tr ++ 0x7d :: rest)))))))
    have hf : acc.any (fun m => m.1 == k) = false := any_false (l := ms.map (·.1)) (by simpa using hnd)
    rw [e, map_step h1 hf h2 (hr.mono (k' := m) (by omega)), advance_ws td hw4, advance_comma]
    have := ih' tr rest (acc ++ [(k, v)]) m htr (by omega) (by simpa using hnd)
    simpa using this

end C3.StdJson
