import Verif.Fmt.LemmasItem

/-! # `printf`: what the theorems say

`vprintf` is the model of `Formatter.vprintf`; `Std` is the specification (C11 with the conversions of C3). -/

set_option autoImplicit false

namespace C3.Fmt
open Std

deriving instance DecidableEq for Except

/-! ## C117: integers -/

/-- **C117.** A directive for integers prints what C says, for every integer type. -/
def C117_full : Prop := ∀ (D : Dir) (c : Conv) (s : Bool) (w : Nat) (x : BitVec w), D.Ok → w ≤ 128 →
  ∃ n, vprintf (D.text c.char) [.int s w x] = .ok (D.int c (val s x), n)

/-- `%-.3d` of 5 prints `5`, not `005`. -/
theorem C117_fails : ¬ C117_full := by
  intro h
  obtain ⟨n, hn⟩ := h ⟨[.minus], 0, some 3⟩ .d true 32 5 ⟨by decide, by intro p hp; cases hp; decide⟩ (by decide)
  have e : (⟨[.minus], 0, some 3⟩ : Dir).int .d (val true (5 : BitVec 32)) = txt ['0', '0', '5'] := by
    have : numeral 10 false 5 = [ch '5'] := numeral_small 5 (by decide)
    simp [Dir.int, Dir.digits, Dir.sign, Dir.pre, Dir.field, zeros, spaces, val, Conv.base, Conv.upper, this, txt]
  have t : (⟨[.minus], 0, some 3⟩ : Dir).text Conv.d.char = txt ['%', '-', '.', '3', 'd'] := by
    have : numeral 10 false 3 = [ch '3'] := numeral_small 3 (by decide)
    simp [Dir.text, this, txt, Conv.char, Flag.char]
  rw [e, t] at hn
  have : vprintf (txt ['%', '-', '.', '3', 'd']) [.int true 32 5] = .ok ([ch '5'], 1) := by decide +kernel
  rw [this] at hn
  simp [txt] at hn

/-- A precision above 256 makes every directive for integers fail, unless the field is filled from the left. -/
theorem C117_long_fails (D : Dir) (c : Conv) (s : Bool) (w : Nat) (x : BitVec w) (hD : D.Ok) (hw : w ≤ 128)
    (hm : .minus ∉ D.flags) (hp : 256 < D.prec.getD 0) :
    vprintf (D.text c.char) [.int s w x] = .error (.fault .internalBufferExceeded) := by
  rw [vprintf_dir D hD _ (isConv c), convert_long D c s w x hw hm hp]

example : vprintf (txt ['%', '.', '2', '5', '7', 'd']) [.int true 32 5] = .error (.fault .internalBufferExceeded) := by
  decide +kernel

/-- `%#06x` of 255 is eight characters wide, and an empty field is not filled. -/
theorem C117_alt_fails : vprintf (txt ['%', '#', '0', '6', 'x']) [.int true 32 255] = .ok (txt ['0', 'x', '0', '0', '0', '0', 'f', 'f'], 8) ∧
    vprintf (txt ['%', '5', '.', '0', 'd']) [.int true 32 0] = .ok ([], 0) := by decide +kernel

/-- **C117, partial.** Missing are the directives that are not `Clean`: see there. -/
theorem C117_int_partial (D : Dir) (c : Conv) (s : Bool) (w : Nat) (x : BitVec w) (hD : D.Ok) (hw : w ≤ 128)
    (h : Clean D c (val s x)) : ∃ n, vprintf (D.text c.char) [.int s w x] = .ok (D.int c (val s x), n) := by
  obtain ⟨n, ⟨_, _, n1⟩, _⟩ := item_prints (.int D c s w x) ⟨hD, hw, h⟩
  refine ⟨n, ?_⟩
  rw [vprintf_dir D hD _ (isConv c), n1]
  rfl

/-- The conditions are met by the common directives: no precision, and no prefix with the flag `0`. -/
example (D : Dir) (c : Conv) (v : Int) (h1 : D.prec = none) (h2 : .alt ∉ D.flags) (h3 : D.width ≤ 253) : Clean D c v :=
  ⟨by rw [h1]; decide, fun _ => h3, fun p _ h => (by rw [h1] at h; cases h), fun h => absurd h h2,
    fun _ h => (by rw [h1] at h; cases h)⟩

example : vprintf (txt ['%', '0', '5', 'd', '|', '%', '+', 'd', '|', '%', '#', 'X']) [.int true 32 (-42), .int false 8 200, .int true 128 (-255)] =
    .ok (txt ['-', '0', '0', '4', '2', '|', '+', '2', '0', '0', '|', '-', '0', 'X', 'F', 'F'], 16) := by decide +kernel

/-! ## C118: the number returned -/

/-- **C118.** The number returned is the number of bytes printed. -/
def C118_full : Prop := ∀ format args out n, vprintf format args = .ok (out, n) → n = out.length

/-- `%5d` of 7 prints five bytes and returns 1; `%c` of `é` prints two bytes and returns 1. -/
theorem C118_fails : ¬ C118_full := by
  intro h
  have := h (txt ['%', '5', 'd']) [.int true 32 7] (txt [' ', ' ', ' ', ' ', '7']) 1 (by decide +kernel)
  revert this
  decide

/-- **C118, partial.** It is never more, for every format and every arguments. -/
theorem C118_bound_partial (format : List Byte) (args : List Arg) (out : List Byte) (n : Nat)
    (h : vprintf format args = .ok (out, n)) : n ≤ out.length := by
  unfold vprintf at h
  split at h
  · cases h
  · rename_i hv; cases h; exact vloop_len _ _ _ _ _ _ _ hv
  · cases h

/-- **C118, partial.** It is the number of bytes where integers have no width and characters are ASCII.

Missing from the property: the other formats. -/
theorem C118_count_partial (l : List Item) (h : ∀ i ∈ l, i.Good) (hc : ∀ i ∈ l, i.Counted) :
    vprintf (l.flatMap Item.text) (l.flatMap Item.args) = .ok (l.flatMap Item.out, (l.flatMap Item.out).length) := by
  obtain ⟨ps, h1, h2, h3, h4, h5⟩ := items_pieces l h
  have := vprintf_pieces ps h1 []
  rw [h2, h3, h4, h5 hc, List.append_nil] at this
  exact this

example : vprintf (txt ['a', '%', 's', '%', '%', '%', '-', '4', 's', '|']) [.str (txt ['x']), .str (txt ['y', 'z'])] =
    .ok (txt ['a', 'x', '%', 'y', 'z', ' ', ' ', '|'], 8) := by decide +kernel

/-! ## C119: no format panics -/

/-- **C119.** Whatever the format and the arguments, the call returns a number or a fault. -/
def C119_full : Prop := ∀ format args, vprintf format args ≠ .error .panic

/-- `%5` reads behind the end of the format. -/
theorem C119_fails : ¬ C119_full := fun h => h (txt ['%', '5']) [.int true 32 7] (by decide +kernel)

/-- **C119, partial.** Only a format that ends in a digit panics. And the loop takes no more rounds than the format has
characters.

Missing from the property: the formats that end in a digit. -/
theorem C119_panic_partial (format : List Byte) (args : List Arg) :
    (vprintf format args = .error .panic → ∃ d ∈ txt ['0', '1', '2', '3', '4', '5', '6', '7', '8', '9'],
      format.getLast? = some d) ∧ vprintf format args ≠ .error .rounds := by
  have hd : ∀ c : Byte, isDigit c = true → c ∈ txt ['0', '1', '2', '3', '4', '5', '6', '7', '8', '9'] := by decide +kernel
  have key : ∀ e, vprintf format args = .error e → e ≠ .rounds ∧ (e = .panic → EndsInDigit format) := by
    intro e h
    unfold vprintf at h
    split at h
    · cases h; exact ⟨by simp, by simp⟩
    · cases h
    · rename_i hv; cases h; exact vloop_err _ _ _ _ _ (Nat.le_refl _) hv
  refine ⟨fun h => ?_, fun h => (key _ h).1 rfl⟩
  obtain ⟨p, c, h1, h2⟩ := (key _ h).2 rfl
  exact ⟨c, hd c h2, by rw [h1]; simp⟩

example : vprintf (txt ['%', '5', '.', '2', '0']) [.int true 32 7] = .error .panic := by decide +kernel
example : vprintf (txt ['%', '5', '.']) [.int true 32 7] = .error (.fault .invalidFormat) := by decide +kernel

/-! ## C120: characters -/

/-- **C120.** `%c` prints the character in UTF-8, in a field of the width. -/
def C120_full : Prop := ∀ (D : Dir) (c : Char), D.Ok →
  ∃ n, vprintf (D.text (ch 'c')) [.int false 32 (BitVec.ofNat 32 c.toNat)] = .ok (D.chr c, n)

theorem outChar_char (D : Dir) (hD : D.Ok) (c : Char) :
    vprintf (D.text (ch 'c')) [.int false 32 (BitVec.ofNat 32 c.toNat)] =
      .ok (adjust (fmtOf D) 1 ++ charBytes (BitVec.ofNat 32 c.toNat) ++ adjust (fmtOf D) 1,
        1 + (adjust (fmtOf D) 1).length + (adjust (fmtOf D) 1).length) := by
  have hc := char_lt c
  have hi : intConv (ch 'c') = none := by decide
  have : convert (fmtOf D) (ch 'c') (.int false 32 (BitVec.ofNat 32 c.toNat)) =
      .ok (outChar (fmtOf D) (.int false 32 (BitVec.ofNat 32 c.toNat))) := by
    unfold convert
    rw [hi]
    simp only
    rw [if_neg (by decide), if_pos trivial]
  rw [vprintf_dir D hD _ isConv_c, this, outChar]
  simp only [value_eq, val_char]
  rw [if_pos (by omega), BitVec.ofInt_natCast]

/-- U+007F, U+07FF and U+FFFF are printed with a byte too many: `%c` of U+007F prints `C1 BF`. (`C120_char_partial` says that these are all.) -/
theorem C120_fails : ¬ C120_full := by
  intro h
  obtain ⟨n, hn⟩ := h ⟨[], 0, none⟩ '\x7f' ⟨by decide, by intro p hp; cases hp⟩
  rw [outChar_char _ ⟨by decide, by intro p hp; cases hp⟩] at hn
  have hn : adjust (fmtOf ⟨[], 0, none⟩) 1 ++ charBytes (BitVec.ofNat 32 '\x7f'.toNat) ++ adjust (fmtOf ⟨[], 0, none⟩) 1 =
      Dir.chr ⟨[], 0, none⟩ '\x7f' := congrArg (fun r => match r with | .ok (o, _) => o | .error _ => []) hn
  revert hn
  decide +kernel

/-- No field that is wider than an ASCII character is right: one that is filled from the right is not filled, one that is
filled from the left is filled twice. -/
theorem C120_width_fails (D : Dir) (hD : D.Ok) (c : Char) (hc : c.toNat < 0x7f) (hw : 1 < D.width) (n : Nat) :
    vprintf (D.text (ch 'c')) [.int false 32 (BitVec.ofNat 32 c.toNat)] ≠ .ok (D.chr c, n) := by
  rw [outChar_char D hD c]
  intro h
  have h := congrArg (fun r => match r with | Except.ok (o, _) => o.length | .error _ => 0) h
  simp only [List.length_append] at h
  have hb := charBytes_eq c (by omega) (by omega) (by omega)
  rw [hb] at h
  have hu := utf8_ascii c (by omega)
  unfold Dir.chr Dir.field adjust at h
  by_cases hm : .minus ∈ D.flags
  · simp [hm, fmtOf, pad, spaces, hu] at h
    omega
  · simp [hm, fmtOf, spaces, hu] at h
    omega

example : vprintf (txt ['%', '-', '3', 'c', '|']) [.int true 32 97] = .ok (txt [' ', ' ', 'a', ' ', ' ', '|'], 6) := by
  decide +kernel

/-- **C120, partial.** A width above 1 and three characters are missing. -/
theorem C120_char_partial (D : Dir) (c : Char) (hD : D.Ok) (hw : D.width ≤ 1) (h : c.toNat ∉ [0x7f, 0x7ff, 0xffff]) :
    vprintf (D.text (ch 'c')) [.int false 32 (BitVec.ofNat 32 c.toNat)] = .ok (D.chr c, 1) := by
  simp only [List.mem_cons, List.not_mem_nil, or_false, not_or] at h
  rw [vprintf_dir D hD _ isConv_c, convert_chr D false 32 _ c (by rw [value_eq, val_char]) h.1 h.2.1 h.2.2 hw]

example : vprintf (txt ['%', 'c', '%', 'c']) [.int false 32 0x20AC, .int true 8 65] =
    .ok ([0xE2, 0x82, 0xAC, 0x41], 2) := by decide +kernel

/-! ## C121: strings and bytes -/

/-- **C121.** `%s` prints the first characters of a string, as many as the precision says, in a field of the width. The
number returned is the number of bytes. -/
theorem C121_string (D : Dir) (hD : D.Ok) (s : List Char) :
    vprintf (D.text (ch 's')) [.str (s.flatMap utf8)] = .ok (D.str s, (D.str s).length) := by
  rw [vprintf_dir D hD _ isConv_s, convert_str D s]

example : vprintf (txt ['%', '-', '6', '.', '2', 's', '|']) [.str [0xC3, 0xA4, 0xE2, 0x82, 0xAC, 0x41]] =
    .ok ([0xC3, 0xA4, 0xE2, 0x82, 0xAC, 0x20, 0x7C], 7) := by decide +kernel

/-- **C121.** `%s` of an integer prints the decimal numeral. -/
theorem C121_number (D : Dir) (hD : D.Ok) (hp : D.prec = none) (s : Bool) (w : Nat) (x : BitVec w) (hw : w ≤ 128) :
    vprintf (D.text (ch 's')) [.int s w x] = .ok (D.dec (val s x), (D.dec (val s x)).length) := by
  rw [vprintf_dir D hD _ isConv_s, convert_dec D s w x hw hp, value_eq]

example : vprintf (txt ['%', '5', 's', '|', '%', 's']) [.int true 16 (-12), .int false 16 0xFFFF] =
    .ok (txt [' ', ' ', '-', '1', '2', '|', '6', '5', '5', '3', '5'], 11) := by decide +kernel

/-- **C121.** `%h` and `%H` print two digits for every byte, in a field of the width. -/
theorem C121_bytes (D : Dir) (hD : D.Ok) (upper : Bool) (s : List Byte) :
    vprintf (D.text (if upper then ch 'H' else ch 'h')) [.bytes s] = .ok (D.hex upper s, (D.hex upper s).length) := by
  rw [vprintf_dir D hD _ (by cases upper <;> [exact isConv_h; exact isConv_H]), convert_hex D upper s]

example : vprintf (txt ['%', '7', 'h', '|', '%', 'H']) [.bytes [0x0a, 0xff], .bytes [0x5e]] =
    .ok (txt [' ', ' ', ' ', '0', 'a', 'f', 'f', '|', '5', 'E'], 10) := by decide +kernel

/-! ## C122: whole formats -/

/-- **C122.** A format is printed piece by piece, every directive with its own argument; arguments that are left over
are ignored. The pieces are those of `C117` to `C121`. -/
theorem C122_pieces (l : List Item) (h : ∀ i ∈ l, i.Good) (extra : List Arg) :
    ∃ n, vprintf (l.flatMap Item.text) (l.flatMap Item.args ++ extra) = .ok (l.flatMap Item.out, n) := by
  obtain ⟨ps, h1, h2, h3, h4, _⟩ := items_pieces l h
  have := vprintf_pieces ps h1 extra
  rw [h2, h3, h4] at this
  exact ⟨_, this⟩

/-- **C122.** A directive without an argument makes the call fail, whatever stands behind it. -/
theorem C122_missing (l : List Item) (h : ∀ i ∈ l, i.Good) (D : Dir) (hD : D.Ok) (c : Conv) (rest : List Byte) :
    ∃ e, vprintf (l.flatMap Item.text ++ (D.text c.char ++ rest)) (l.flatMap Item.args) = .error e := by
  obtain ⟨ps, h1, h2, h3, _, _⟩ := items_pieces l h
  obtain ⟨m, m1, m2⟩ := vloop_pieces ps h1 (D.text c.char ++ rest) [] _ (Nat.le_refl _)
  rw [h2, h3, List.append_nil, ← List.length_append] at m2
  rw [vprintf, m2]
  obtain ⟨d, t, g1, g2⟩ := text_tail D c.char (isConv c)
  have h3 := parseSpec_eq D hD c.char (isConv c) rest []
  rw [g1] at h3 m1 ⊢
  simp only [List.tail_cons, List.cons_append] at h3 m1 ⊢
  cases m with
  | zero => simp at m1
  | succ m =>
    rw [vloop.eq_def]
    simp only [ne_eq, not_true_eq_false, if_false]
    rw [if_neg g2, h3]
    simp only [firstErr]
    cases hv : vloop m (some .notEnoughArguments) rest [] with
    | error e => exact ⟨e, rfl⟩
    | ok v =>
      obtain ⟨o, k, f⟩ := v
      have hf := vloop_first _ _ _ _ _ _ _ hv
      subst hf
      exact ⟨_, rfl⟩

example : vprintf (txt ['%', 'd', ',', '%', 'x', '!']) [.int true 32 7] = .error (.fault .notEnoughArguments) := by
  decide +kernel
example : vprintf (txt ['%', 'd', ',', '%', 'x', '!']) [.int true 32 7, .int true 32 30, .str []] =
    .ok (txt ['7', ',', '1', 'e', '!'], 5) := by decide +kernel

end C3.Fmt
