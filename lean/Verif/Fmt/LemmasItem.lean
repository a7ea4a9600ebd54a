import Verif.Fmt.LemmasAll

set_option autoImplicit false

namespace C3.Fmt
open Std

theorem value_eq (s : Bool) (w : Nat) (x : BitVec w) : value (.int s w x) = val s x := by cases s <;> rfl

def pieceOf : Item → Piece
  | .lit c => .lit c
  | .percent => .percent
  | .int D c s w x => .dir D c.char (.int s w x)
  | .chr D c => .dir D (ch 'c') (.int false 32 (BitVec.ofNat 32 c.toNat))
  | .str D s => .dir D (ch 's') (.str (s.flatMap utf8))
  | .dec D s w x => .dir D (ch 's') (.int s w x)
  | .hex D upper s => .dir D (if upper then ch 'H' else ch 'h') (.bytes s)

theorem pieceOf_text (i : Item) : (pieceOf i).text = i.text := by cases i <;> rfl
theorem pieceOf_args (i : Item) : (pieceOf i).args = i.args := by cases i <;> rfl

theorem char_lt (c : Char) : c.toNat < 0x110000 := by
  have := c.valid
  unfold UInt32.isValidChar Nat.isValidChar at this
  show c.val.toNat < _
  omega

theorem val_char (c : Char) : val false (BitVec.ofNat 32 c.toNat) = c.toNat := by
  have := char_lt c
  have h : (BitVec.ofNat 32 c.toNat).toNat = c.toNat := by
    rw [BitVec.toNat_ofNat]; exact Nat.mod_eq_of_lt (by omega)
  show ((BitVec.ofNat 32 c.toNat).toNat : Int) = _
  rw [h]

theorem utf8_ascii (c : Char) (h : c.toNat < 128) : (utf8 c).length = 1 := by
  have h' : c.val.toNat ≤ 0x7f := by
    have : c.val.toNat < 128 := h
    omega
  unfold utf8 String.utf8EncodeChar
  simp only [if_pos h']
  rfl

theorem item_prints (i : Item) (h : i.Good) : ∃ n, (pieceOf i).Prints i.out n ∧ (i.Counted → n = i.out.length) := by
  cases i with
  | lit c => exact ⟨1, ⟨h, rfl, rfl⟩, fun _ => rfl⟩
  | percent => exact ⟨1, ⟨rfl, rfl⟩, fun _ => rfl⟩
  | int D c s w x =>
    obtain ⟨h1, h2, h3⟩ := h
    have hv := value_eq s w x
    obtain ⟨n, n1, n2⟩ := convert_int D c s w x h2 h3.prec h3.width (by rw [hv]; exact h3.minus)
      (by rw [hv]; exact h3.alt) (by rw [hv]; exact h3.empty)
    rw [hv] at n1 n2
    exact ⟨n, ⟨h1, isConv c, n1⟩, n2⟩
  | chr D c =>
    obtain ⟨h1, h2, h3⟩ := h
    simp only [List.mem_cons, List.not_mem_nil, or_false, not_or] at h3
    refine ⟨1, ⟨h1, isConv_c, convert_chr D false 32 _ c ?_ h3.1 h3.2.1 h3.2.2 h2⟩, fun hc => ?_⟩
    · rw [value_eq, val_char]
    · have := utf8_ascii c hc
      show 1 = (D.chr c).length
      unfold Dir.chr Dir.field
      rw [this, Nat.sub_eq_zero_of_le h2]
      split <;> simp [spaces, this]
  | str D s => exact ⟨_, ⟨h, isConv_s, convert_str D s⟩, fun _ => rfl⟩
  | dec D s w x =>
    have := convert_dec D s w x h.2.1 h.2.2
    rw [value_eq] at this
    exact ⟨_, ⟨h.1, isConv_s, this⟩, fun _ => rfl⟩
  | hex D upper s =>
    exact ⟨_, ⟨h, by cases upper <;> [exact isConv_h; exact isConv_H], convert_hex D upper s⟩, fun _ => rfl⟩

theorem items_pieces (l : List Item) (h : ∀ i ∈ l, i.Good) :
    ∃ ps : List (Piece × List Byte × Nat), (∀ p ∈ ps, p.1.Prints p.2.1 p.2.2) ∧
      (ps.flatMap fun p => p.1.text) = l.flatMap Item.text ∧ (ps.flatMap fun p => p.1.args) = l.flatMap Item.args ∧
      (ps.flatMap fun p => p.2.1) = l.flatMap Item.out ∧
      ((∀ i ∈ l, i.Counted) → (ps.map fun p => p.2.2).sum = (l.flatMap Item.out).length) := by
  induction l with
  | nil => exact ⟨[], by simp, rfl, rfl, rfl, fun _ => rfl⟩
  | cons i l ih =>
    obtain ⟨ps, h1, h2, h3, h4, h5⟩ := ih (fun j hj => h j (List.mem_cons_of_mem _ hj))
    obtain ⟨n, n1, n2⟩ := item_prints i (h i (List.mem_cons_self ..))
    refine ⟨(pieceOf i, i.out, n) :: ps, ?_, ?_, ?_, ?_, ?_⟩
    · intro p hp
      rcases List.mem_cons.1 hp with rfl | hp
      · exact n1
      · exact h1 p hp
    · rw [List.flatMap_cons, List.flatMap_cons, h2, pieceOf_text]
    · rw [List.flatMap_cons, List.flatMap_cons, h3, pieceOf_args]
    · rw [List.flatMap_cons, List.flatMap_cons, h4]
    · intro hc
      rw [List.map_cons, List.sum_cons, h5 (fun j hj => hc j (List.mem_cons_of_mem _ hj)), List.flatMap_cons,
        List.length_append, n2 (hc i (List.mem_cons_self ..))]

/-- A buffer that is too small for the zeros. -/
theorem padZeros_err (target room : Nat) : ∀ buf : List Byte, buf.length + room < target →
    padZeros target room buf = .error .internalBufferExceeded := by
  induction room with
  | zero => intro buf h; rw [padZeros, if_pos (by omega)]
  | succ room ih =>
    intro buf h
    rw [padZeros, if_pos (by omega), ih _ (by simp only [List.length_append, List.length_singleton]; omega)]

theorem convert_long (D : Dir) (c : Conv) (s : Bool) (w : Nat) (x : BitVec w) (hw : w ≤ 128) (hm : .minus ∉ D.flags)
    (hp : 256 < D.prec.getD 0) :
    convert (fmtOf D) c.char (.int s w x) = .error (.fault .internalBufferExceeded) := by
  obtain ⟨m, h1, h2⟩ := intFromAny_eq s w x hw
  rw [convert_ntoa D c _ _ m h1, ntoa_eq _ _ _ _ (Conv.base_bounds c).1 (Conv.base_bounds c).2]
  have hb : (if (intFmt D c).flags.precision = true ∧ m = 0 then [] else
      low c.base (intFmt D c).flags.uppercase m.toNat).length ≤ 128 := by
    split
    · simp
    · exact low_length_le _ (Conv.base_bounds c).1 _ _ m.isLt
  generalize (if (intFmt D c).flags.precision = true ∧ m = 0 then [] else
    low c.base (intFmt D c).flags.uppercase m.toNat) = buf at hb
  generalize hF : (if m = 0 then { intFmt D c with flags := { (intFmt D c).flags with hash := false } }
    else intFmt D c) = F
  have f1 : F.prec = D.prec.getD 0 := by rw [← hF]; split <;> rfl
  have f2 : F.flags.left = false := by
    rw [← hF]
    split <;> simpa [intFmt] using hm
  rw [ntoaFormat, leading, if_neg (by rw [f2]; simp), padZeros_err _ _ _ (by rw [f1]; unfold bufferSize; omega)]
  rfl

theorem vprintf_dir (D : Dir) (hD : D.Ok) (c : Byte) (hc : IsConv c) (a : Arg) :
    vprintf (D.text c) [a] =
      match convert (fmtOf D) c a with
      | .ok ⟨out, len, none⟩ => .ok (out, len)
      | .ok ⟨_, _, some f⟩ => .error (.fault f)
      | .error e => .error e := by
  obtain ⟨d, l, g1, g2⟩ := text_tail D c hc
  have hl : (D.text c).length = l.length + 1 + 1 := by rw [g1]; rfl
  have h3 := parseSpec_eq D hD c hc [] [a]
  rw [List.append_nil] at h3
  cases hr : convert (fmtOf D) c a with
  | ok r =>
    have := vloop_dir D hD c hc (l.length + 1) none [] a [] r hr
    rw [List.append_nil] at this
    rw [vprintf, hl, this]
    obtain ⟨o, n, f⟩ := r
    cases f <;> simp [vloop, after, firstErr]
  | error e =>
    rw [vprintf, hl]
    rw [g1] at h3 ⊢
    simp only [List.tail_cons] at h3
    rw [vloop.eq_def]
    simp only [ne_eq, not_true_eq_false, if_false]
    rw [if_neg g2, h3]
    simp only [hr]
    cases e <;> rfl

end C3.Fmt
