import Verif.Csv.Lemmas

/-!
# Lines and rows of separated values
-/

set_option autoImplicit false

namespace C3.Csv
open C3.Str.Spec (interleave)

/-! ## C200 -/

/-- `readline` gives what is before the first line feed, without carriage returns, and leaves what is after it. -/
theorem C200_line (line rest : List Byte) (h : 10 ∉ line) :
    ∃ a, readline (line ++ 10 :: rest) = some (⟨line.filter (· ≠ 13), a⟩, rest) := ⟨_, readline_line line rest h⟩

/-- Without a line feed it gives the rest of the stream. -/
theorem C200_last (line : List Byte) (h : 10 ∉ line) (hn : line ≠ []) :
    readline line = some (⟨line.filter (· ≠ 13), true⟩, []) := readline_last line h hn

/-- At the end, and only there, it gives `io::EOF`: a line feed at the end of a stream does not begin a line. -/
theorem C200_eof (stream : List Byte) : readline stream = none ↔ stream = [] := by
  cases stream with
  | nil => simp [readline]
  | cons c r => simp only [readline]; split <;> simp

/-- "ab\r\nc". -/
example : readline [97, 98, 13, 10, 99] = some (⟨[97, 98], true⟩, [99]) ∧ readline [99] = some (⟨[99], true⟩, []) := by decide

/-! ## C201 -/

theorem eachLoop_rows (d : Byte) (eol : List Byte) (he : eol = [10] ∨ eol = [13, 10]) (hd : d ≠ 10 ∧ d ≠ 13) :
    ∀ (rows : List (List (List Byte))) (n : Nat),
    (∀ row ∈ rows, Plain d row ∧ (interleave [d] row).length < 2 ^ 64 - 1) →
    eachLoop [d] n (rows.flatMap (rowText d eol)) = .ok (rows.take n)
  | rows, 0, _ => by simp [eachLoop]
  | [], n + 1, _ => by simp [eachLoop, readline]
  | row :: rows, n + 1, h => by
    obtain ⟨⟨h1, h2⟩, h3⟩ := h row (by simp)
    have n10 := interleave_not_mem 10 d hd.1.symm row (fun f hf => (h2 f hf).2.1)
    have n13 := interleave_not_mem 13 d hd.2.symm row (fun f hf => (h2 f hf).2.2)
    have hr : ∃ a, readline ((row :: rows).flatMap (rowText d eol)) =
        some (⟨interleave [d] row, a⟩, rows.flatMap (rowText d eol)) := by
      rw [List.flatMap_cons, rowText]
      rcases he with rfl | rfl
      · rw [List.append_assoc]
        have := readline_line (interleave [d] row) (rows.flatMap (rowText d [10])) n10
        rw [filter_id _ n13] at this
        exact ⟨_, this⟩
      · have := readline_line (interleave [d] row ++ [13]) (rows.flatMap (rowText d [13, 10]))
          (by simp only [List.mem_append, List.mem_singleton, not_or]; exact ⟨n10, by decide⟩)
        rw [List.filter_append, filter_id _ n13] at this
        refine ⟨!(interleave [d] row ++ [13]).isEmpty, ?_⟩
        · have e : interleave [d] row ++ [13, 10] ++ rows.flatMap (rowText d [13, 10]) =
            interleave [d] row ++ [13] ++ 10 :: rows.flatMap (rowText d [13, 10]) := by simp
          rw [e, this]
          simp only [show ([13] : List Byte).filter (· ≠ 13) = [] by decide, List.append_nil]
    obtain ⟨a, hr⟩ := hr
    simp only [eachLoop, hr, split_plain d row h1 (fun f hf => (h2 f hf).1) h3,
      eachLoop_rows d eol he hd rows n (fun r hr => h r (by simp [hr])), List.take_succ_cons]

/-- The rows that were written, with a separator of one byte and lines that end with a line feed, or with a carriage
return and one, are those `@each_row` gives its body, in order, as many as are asked for. -/
theorem C201_rows (d : Byte) (eol : List Byte) (he : eol = [10] ∨ eol = [13, 10]) (hd : d ≠ 10 ∧ d ≠ 13)
    (rows : List (List (List Byte))) (max_rows : BitVec 32) (hm : 0 ≤ max_rows.toInt)
    (h : ∀ row ∈ rows, Plain d row ∧ (interleave [d] row).length < 2 ^ 64 - 1) :
    each_row (rows.flatMap (rowText d eol)) [d] max_rows = .ok (rows.take max_rows.toInt.toNat) := by
  have e : max_rows.toInt.toNat = max_rows.toNat := by
    rw [BitVec.toInt_eq_toNat_cond] at hm ⊢
    split at hm
    · rename_i g; rw [if_pos g]; simp
    · omega
  rw [e]
  exact eachLoop_rows d eol he hd rows _ h

/-- A row that is read by `read_row` is the first one, and the others are left. -/
theorem C201_read_row (d : Byte) (hd : d ≠ 10 ∧ d ≠ 13) (row : List (List Byte)) (rest : List Byte) (h : Plain d row)
    (hl : (interleave [d] row).length < 2 ^ 64 - 1) :
    ∃ line, read_row [d] (rowText d [10] row ++ rest) = .ok (⟨row, line⟩, rest) := by
  obtain ⟨h1, h2⟩ := h
  have n10 := interleave_not_mem 10 d hd.1.symm row (fun f hf => (h2 f hf).2.1)
  have n13 := interleave_not_mem 13 d hd.2.symm row (fun f hf => (h2 f hf).2.2)
  have := readline_line (interleave [d] row) rest n10
  rw [filter_id _ n13] at this
  refine ⟨⟨interleave [d] row, !(interleave [d] row).isEmpty⟩, ?_⟩
  unfold read_row
  rw [rowText, List.append_assoc, List.singleton_append, this]
  simp only [split_plain d row h1 (fun f hf => (h2 f hf).1) hl]

/-- `skip_row` leaves the same. -/
theorem C201_skip_row (d : Byte) (hd : d ≠ 10 ∧ d ≠ 13) (row : List (List Byte)) (rest : List Byte) (h : Plain d row) :
    skip_row (rowText d [10] row ++ rest) = rest := by
  have n10 := interleave_not_mem 10 d hd.1.symm row (fun f hf => (h.2 f hf).2.1)
  unfold skip_row
  rw [rowText, List.append_assoc, List.singleton_append, readline_line _ rest n10]

/-- `a,,b` and a row with one empty field. -/
example : Plain 0x2c [[97], [], [98]] ∧ Plain 0x2c [[]] ∧
    [[[97], [], [98]], [[]]].flatMap (rowText 0x2c [10]) = [97, 0x2c, 0x2c, 98, 10, 10] := by
  refine ⟨⟨by simp, ?_⟩, ⟨by simp, ?_⟩, by decide⟩
  · intro f hf; simp at hf; rcases hf with rfl | rfl | rfl <;> decide
  · intro f hf; simp at hf; subst hf; decide

/-! ## C202 -/

/-- A field in quotes may hold the separator (RFC 4180). -/
def C202_full : Prop := ∀ (f g : List Byte), (∀ c ∈ f ++ g, c ≠ 0x22 ∧ c ≠ 10 ∧ c ≠ 13) → f.length + g.length < 2 ^ 32 →
  ∃ row, each_row (0x22 :: f ++ 0x2c :: g ++ [0x22, 10]) [0x2c] 1 = .ok [row] ∧ row.length = 1

/-- Quotes are bytes like others: such a field is at least two. -/
theorem C202_split (f g : List Byte) (hf : 0x2c ∉ f ∧ 10 ∉ f ∧ 13 ∉ f) (hg : 0x2c ∉ g ∧ 10 ∉ g ∧ 13 ∉ g)
    (hl : f.length + g.length < 2 ^ 32) :
    each_row (0x22 :: f ++ 0x2c :: g ++ [0x22, 10]) [0x2c] 1 = .ok [[0x22 :: f, g ++ [0x22]]] := by
  have hp : Plain 0x2c [0x22 :: f, g ++ [0x22]] := by
    refine ⟨by simp, ?_⟩
    intro x hx
    simp only [List.mem_cons, List.not_mem_nil, or_false] at hx
    rcases hx with rfl | rfl
    · simp only [List.mem_cons, not_or]; exact ⟨⟨by decide, hf.1⟩, ⟨by decide, hf.2.1⟩, ⟨by decide, hf.2.2⟩⟩
    · simp only [List.mem_append, List.mem_singleton, not_or]
      exact ⟨⟨hg.1, by decide⟩, ⟨hg.2.1, by decide⟩, ⟨hg.2.2, by decide⟩⟩
  have := C201_rows 0x2c [10] (.inl rfl) (by decide) [[0x22 :: f, g ++ [0x22]]] 1 (by decide)
    (by intro r hr; simp only [List.mem_singleton] at hr; subst hr; exact ⟨hp, by simp [interleave]; omega⟩)
  have e : [[0x22 :: f, g ++ [0x22]]].flatMap (rowText 0x2c [10]) = 0x22 :: f ++ 0x2c :: g ++ [0x22, 10] := by
    simp [rowText, interleave]
  rw [e] at this
  rw [this]; rfl

theorem C202_fails : ¬ C202_full := by
  intro h
  obtain ⟨row, h1, h2⟩ := h [97] [98] (by decide) (by decide)
  rw [C202_split [97] [98] (by decide) (by decide) (by decide)] at h1
  simp only [Res.ok.injEq, List.cons.injEq, and_true] at h1
  subst h1
  simp at h2

/-! ## C203 -/

/-- A row that was read can be freed. -/
def C203_full : Prop := ∀ (separator stream rest : List Byte) (row : CsvRow),
  read_row separator stream = .ok (row, rest) → row.free = .ok ()

/-- It can unless it is an empty line that ends with a line feed alone. -/
theorem C203_free_partial (separator stream rest : List Byte) (row : CsvRow) (h : read_row separator stream = .ok (row, rest))
    (hs : stream.head? ≠ some 10) : row.free = .ok () := by
  unfold read_row at h
  cases stream with
  | nil => simp [readline] at h
  | cons c r =>
    have hc : c ≠ 10 := by simpa using hs
    rw [readline, if_neg hc] at h
    simp only at h
    split at h
    · simp at h
    · simp only [Res.ok.injEq, Prod.mk.injEq] at h
      rw [← h.1]; rfl

/-- The row of such a line is one whose string is a literal, which `free` releases. -/
theorem C203_empty (separator rest : List Byte) (hs : separator ≠ []) :
    ∃ row, read_row separator (10 :: rest) = .ok (row, rest) ∧ row.free = .undefined := by
  obtain ⟨ps, h1, h2⟩ := Str.C52_split ([] : List Byte) hs (by simp) false
  refine ⟨⟨ps, ⟨[], false⟩⟩, ?_, rfl⟩
  unfold read_row
  rw [readline, if_pos rfl]
  simp only [h2]
  rfl

theorem C203_fails : ¬ C203_full := by
  intro h
  obtain ⟨row, h1, h2⟩ := C203_empty [0x2c] [] (by simp)
  rw [h _ _ _ _ h1] at h2
  simp at h2

end C3.Csv
