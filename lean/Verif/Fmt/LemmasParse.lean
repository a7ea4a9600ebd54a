import Verif.Fmt.Lemmas

set_option autoImplicit false

namespace C3.Fmt
open Std

/-! ## Flags -/

/-- The directive in the members of the formatter. -/
def fmtOf (D : Dir) : Fmt :=
  ⟨⟨decide (.zero ∈ D.flags), decide (.minus ∈ D.flags), decide (.plus ∈ D.flags), decide (.space ∈ D.flags),
    decide (.alt ∈ D.flags), false, D.prec.isSome⟩, D.width, D.prec.getD 0⟩

theorem flag_none (fl : Flags) (c : Byte) (h : flag {} c = none) : flag fl c = none := by
  unfold flag at h ⊢
  split at h
  · cases h
  split at h
  · cases h
  split at h
  · cases h
  split at h
  · cases h
  split at h
  · cases h
  rw [if_neg, if_neg, if_neg, if_neg, if_neg] <;> assumption

theorem parseFlags_eq (l : List Flag) : ∀ (fl : Flags) (c : Byte) (rest : List Byte), flag {} c = none →
    parseFlags fl (l.map Flag.char ++ c :: rest) =
      .ok ({ fl with
        zeropad := fl.zeropad || decide (.zero ∈ l), left := fl.left || decide (.minus ∈ l),
        plus := fl.plus || decide (.plus ∈ l), space := fl.space || decide (.space ∈ l),
        hash := fl.hash || decide (.alt ∈ l) }, c :: rest) := by
  induction l with
  | nil =>
    intro fl c rest h
    simp [parseFlags, flag_none fl c h]
  | cons a l ih =>
    intro fl c rest h
    cases a with
    | zero =>
      have : flag fl (ch '0') = some { fl with zeropad := true } := rfl
      simp [parseFlags, Flag.char, this, ih _ c rest h]
    | minus =>
      have : flag fl (ch '-') = some { fl with left := true } := rfl
      simp [parseFlags, Flag.char, this, ih _ c rest h]
    | plus =>
      have : flag fl (ch '+') = some { fl with plus := true } := rfl
      simp [parseFlags, Flag.char, this, ih _ c rest h]
    | space =>
      have : flag fl (ch ' ') = some { fl with space := true } := rfl
      simp [parseFlags, Flag.char, this, ih _ c rest h]
    | alt =>
      have : flag fl (ch '#') = some { fl with hash := true } := rfl
      simp [parseFlags, Flag.char, this, ih _ c rest h]

/-! ## Numbers -/

theorem numeral_small (n : Nat) (h : n < 10) : numeral 10 false n = [tableChar false n] := by
  rw [numeral_eq, low_small 10 (by decide) false n h]; rfl

theorem numeral_step (n : Nat) (h : 10 ≤ n) :
    numeral 10 false n = numeral 10 false (n / 10) ++ [tableChar false (n % 10)] := by
  rw [numeral_eq, numeral_eq, low_step 10 (by decide) false n h, List.reverse_cons]

theorem tableChar_digit (n : Nat) (h : n < 10) : isDigit (tableChar false n) = true ∧
    (tableChar false n).zeroExtend 32 = BitVec.ofNat 32 (n + 48) ∧ (n ≠ 0 → flag {} (tableChar false n) = none) ∧
    tableChar false n ≠ ch '%' := by
  have : ∀ n : Fin 10, isDigit (tableChar false n.1) = true ∧
      (tableChar false n.1).zeroExtend 32 = BitVec.ofNat 32 (n.1 + 48) ∧
      (n.1 ≠ 0 → flag {} (tableChar false n.1) = none) ∧ tableChar false n.1 ≠ ch '%' := by decide +kernel
  exact this ⟨n, h⟩

/-- The first digit. -/
theorem numeral_head (n : Nat) : ∃ c l, numeral 10 false n = c :: l ∧ isDigit c = true ∧
    (n ≠ 0 → flag {} c = none) ∧ c ≠ ch '%' := by
  induction n using Nat.strongRecOn with
  | _ n ih =>
    by_cases h : n < 10
    · obtain ⟨h1, _, h3, h4⟩ := tableChar_digit n h
      exact ⟨_, [], numeral_small n h, h1, h3, h4⟩
    · obtain ⟨c, l, h1, h2, h3, h4⟩ := ih (n / 10) (by omega)
      refine ⟨c, l ++ [tableChar false (n % 10)], ?_, h2, fun _ => h3 (by omega), h4⟩
      rw [numeral_step n (by omega), h1]; rfl

theorem simpleAtoi_numeral (n : Nat) : ∀ rest : List Byte,
    simpleAtoi 0 (numeral 10 false n ++ rest) = simpleAtoi (BitVec.ofNat 32 n) rest := by
  have key : ∀ (i d : Nat) (rest : List Byte), d < 10 →
      simpleAtoi (BitVec.ofNat 32 i) (tableChar false d :: rest) = simpleAtoi (BitVec.ofNat 32 (i * 10 + d)) rest := by
    intro i d rest h
    obtain ⟨h1, h2, _⟩ := tableChar_digit d h
    rw [simpleAtoi, if_pos h1, h2]
    congr 1
    have e10 : (10 : BitVec 32) = BitVec.ofNat 32 10 := rfl
    have e48 : (48 : BitVec 32) = BitVec.ofNat 32 48 := rfl
    rw [e10, e48, ← BitVec.ofNat_mul, BitVec.ofNat_add d, ← BitVec.add_assoc, BitVec.add_sub_cancel,
      ← BitVec.ofNat_add]
  induction n using Nat.strongRecOn with
  | _ n ih =>
    intro rest
    by_cases h : n < 10
    · rw [numeral_small n h]
      have := key 0 n rest h
      rw [Nat.zero_mul, Nat.zero_add] at this
      exact this
    · rw [numeral_step n (by omega), List.append_assoc, ih (n / 10) (by omega)]
      show simpleAtoi _ (tableChar false (n % 10) :: rest) = _
      rw [key _ _ _ (Nat.mod_lt _ (by decide)), Nat.div_add_mod' n 10]

theorem parseField_numeral (n : Nat) (h : n < 2 ^ 31) (c : Byte) (hc : isDigit c = false) (rest : List Byte)
    (args : List Arg) :
    parseField (numeral 10 false n ++ c :: rest) args = .ok ((n : Int), c :: rest, args) := by
  obtain ⟨d, l, h1, h2, _⟩ := numeral_head n
  have hs := simpleAtoi_numeral n (c :: rest)
  rw [simpleAtoi, if_neg (by simp [hc])] at hs
  rw [h1] at hs ⊢
  rw [List.cons_append] at hs ⊢
  rw [parseField.eq_def]
  simp only
  rw [if_pos h2, hs]
  have : (BitVec.ofNat 32 n).toInt = (n : Int) := by
    rw [BitVec.toInt_eq_toNat_cond, BitVec.toNat_ofNat]
    split <;> omega
  rw [this]

theorem parseField_none (c : Byte) (hc : isDigit c = false) (hs : c ≠ ch '*') (rest : List Byte) (args : List Arg) :
    parseField (c :: rest) args = .ok (0, c :: rest, args) := by
  rw [parseField.eq_def]
  simp [hc, hs]

/-! ## Directives -/

/-- A conversion character is no flag, digit, star, point or percent sign. -/
structure IsConv (c : Byte) : Prop where
  flag : flag {} c = none
  digit : isDigit c = false
  star : c ≠ ch '*'
  point : c ≠ ch '.'
  percent : c ≠ ch '%'

theorem parseSpec_eq (D : Dir) (hD : D.Ok) (c : Byte) (hc : IsConv c) (rest : List Byte) (args : List Arg) :
    parseSpec ((D.text c).tail ++ rest) args = .ok (fmtOf D, c, rest, args) := by
  -- the precision
  have hprec : ∀ fl w, ∃ c' l, ((match D.prec with | none => [] | some p => ch '.' :: numeral 10 false p) ++ [c]) ++ rest
      = c' :: l ∧ flag {} c' = none ∧ isDigit c' = false ∧ c' ≠ ch '*' ∧
      parsePrec ⟨fl, w, 0⟩ c' l args =
        .ok (⟨{ fl with precision := fl.precision || D.prec.isSome }, w, D.prec.getD 0⟩, c, rest, args) := by
    intro fl w
    cases hp : D.prec with
    | none =>
      refine ⟨c, rest, rfl, hc.flag, hc.digit, hc.star, ?_⟩
      rw [parsePrec, if_neg hc.point]
      simp
    | some p =>
      refine ⟨ch '.', numeral 10 false p ++ c :: rest, by simp, by decide, by decide, by decide, ?_⟩
      obtain ⟨d, l, h1, _⟩ := numeral_head p
      rw [parsePrec, if_pos rfl, if_neg (by rw [h1]; simp), parseField_numeral p (hD.2 p hp) c hc.digit]
      simp [bind, Except.bind]
  obtain ⟨c', l, h1, h2, h3, h4, h5⟩ := hprec
    ⟨decide (.zero ∈ D.flags), decide (.minus ∈ D.flags), decide (.plus ∈ D.flags), decide (.space ∈ D.flags),
      decide (.alt ∈ D.flags), false, false⟩ D.width
  have htext : (D.text c).tail ++ rest = D.flags.map Flag.char ++
      ((if D.width = 0 then [] else numeral 10 false D.width) ++ c' :: l) := by
    rw [← h1, Dir.text]
    cases D.prec <;> simp
  rw [htext]
  by_cases hw : D.width = 0
  · rw [if_pos hw, List.nil_append, parseSpec, parseFlags_eq D.flags {} c' l h2]
    simp only [bind, Except.bind]
    rw [parseField_none c' h3 h4]
    simp only [Bool.false_or]
    have e : (0 : Int).natAbs = D.width := by rw [hw]; rfl
    rw [if_neg (by omega), e, h5]
    simp [fmtOf]
  · rw [if_neg hw]
    obtain ⟨d, l', g1, g2, g3, _⟩ := numeral_head D.width
    have hf := parseField_numeral _ hD.1 c' h3 l args
    rw [g1, List.cons_append] at hf ⊢
    rw [parseSpec, parseFlags_eq D.flags {} d _ (g3 hw)]
    simp only [bind, Except.bind]
    rw [hf]
    simp only [Bool.false_or]
    rw [if_neg (by omega), Int.natAbs_natCast, h5]
    simp [fmtOf]

/-- The head behind `%` is not a second `%`. -/
theorem text_tail (D : Dir) (c : Byte) (hc : IsConv c) : ∃ d l, D.text c = ch '%' :: d :: l ∧ d ≠ ch '%' := by
  unfold Dir.text
  cases hf : D.flags with
  | cons a l => exact ⟨_, _, rfl, by cases a <;> decide⟩
  | nil =>
    by_cases hw : D.width = 0
    · rw [if_pos hw]
      cases D.prec with
      | none => exact ⟨c, [], rfl, hc.percent⟩
      | some p => exact ⟨_, _, rfl, by decide⟩
    · rw [if_neg hw]
      obtain ⟨d, l', g1, g2, g3, g4⟩ := numeral_head D.width
      rw [g1]
      exact ⟨d, _, rfl, g4⟩

theorem vloop_dir (D : Dir) (hD : D.Ok) (c : Byte) (hc : IsConv c) (n : Nat) (first : Option Fault)
    (rest : List Byte) (a : Arg) (args : List Arg) (r : Res) (hr : convert (fmtOf D) c a = .ok r) :
    vloop (n + 1) first (D.text c ++ rest) (a :: args) =
      after r.out r.len (vloop n (firstErr first r.fault) rest args) := by
  obtain ⟨d, l, h1, h2⟩ := text_tail D c hc
  have h3 := parseSpec_eq D hD c hc rest (a :: args)
  rw [h1] at h3 ⊢
  simp only [List.tail_cons, List.cons_append] at h3 ⊢
  rw [vloop, if_neg (by simp)]
  simp only
  rw [if_neg h2, h3]
  simp only [hr]

/-- A piece of a format: a character, `%%`, or a directive with its argument. -/
inductive Piece where
  | lit (c : Byte)
  | percent
  | dir (D : Dir) (conv : Byte) (a : Arg)

def Piece.text : Piece → List Byte
  | .lit c => [c]
  | .percent => [ch '%', ch '%']
  | .dir D c _ => D.text c

def Piece.args : Piece → List Arg
  | .dir _ _ a => [a]
  | _ => []

/-- The piece prints `out` and counts `len`. -/
def Piece.Prints : Piece → List Byte → Nat → Prop
  | .lit c, out, len => c ≠ ch '%' ∧ out = [c] ∧ len = 1
  | .percent, out, len => out = [ch '%'] ∧ len = 1
  | .dir D c a, out, len => D.Ok ∧ IsConv c ∧ convert (fmtOf D) c a = .ok ⟨out, len, none⟩

theorem after_after (a b : List Byte) (la lb : Nat) (r : Except Stop (List Byte × Nat × Option Fault)) :
    after a la (after b lb r) = after (a ++ b) (la + lb) r := by
  cases r with
  | error e => rfl
  | ok v => obtain ⟨o, n, f⟩ := v; simp [after, Nat.add_assoc]

theorem vloop_pieces (ps : List (Piece × List Byte × Nat)) (h : ∀ p ∈ ps, p.1.Prints p.2.1 p.2.2)
    (rest : List Byte) (extra : List Arg) : ∀ n, (ps.flatMap fun p => p.1.text).length + rest.length ≤ n →
    ∃ m, rest.length ≤ m ∧
      vloop n none ((ps.flatMap fun p => p.1.text) ++ rest) ((ps.flatMap fun p => p.1.args) ++ extra) =
      after (ps.flatMap fun p => p.2.1) (ps.map fun p => p.2.2).sum (vloop m none rest extra) := by
  induction ps with
  | nil =>
    intro n hn
    refine ⟨n, by simpa using hn, ?_⟩
    simp only [List.flatMap_nil, List.nil_append, List.map_nil, List.sum_nil]
    cases vloop n none rest extra with
    | error e => rfl
    | ok v => obtain ⟨o, k, f⟩ := v; simp [after]
  | cons p ps ih =>
    intro n hn
    obtain ⟨p, out, len⟩ := p
    have hp := h _ (List.mem_cons_self ..)
    have ih := ih (fun q hq => h q (List.mem_cons_of_mem _ hq))
    simp only [List.flatMap_cons, List.length_append, List.map_cons, List.sum_cons, List.append_assoc] at hn ⊢
    cases p with
    | lit c =>
      obtain ⟨h1, h2, h3⟩ := hp
      simp only at h2 h3
      subst h2 h3
      cases n with
      | zero => simp [Piece.text] at hn
      | succ n =>
        rw [show (Piece.lit c).text = [c] from rfl, show (Piece.lit c).args = [] from rfl]
        rw [show (Piece.lit c).text = [c] from rfl] at hn
        simp only [List.length_singleton, List.nil_append, List.cons_append] at hn ⊢
        obtain ⟨m, m1, m2⟩ := ih n (by omega)
        refine ⟨m, m1, ?_⟩
        rw [vloop.eq_def]
        simp only
        rw [if_pos h1, m2, after_after]
        rfl
    | percent =>
      obtain ⟨h2, h3⟩ := hp
      simp only at h2 h3
      subst h2 h3
      cases n with
      | zero => simp [Piece.text] at hn
      | succ n =>
        rw [show Piece.percent.text = [ch '%', ch '%'] from rfl] at hn ⊢
        rw [show Piece.percent.args = [] from rfl]
        simp only [List.length_cons, List.nil_append, List.cons_append, List.length_nil] at hn ⊢
        obtain ⟨m, m1, m2⟩ := ih n (by omega)
        refine ⟨m, m1, ?_⟩
        rw [vloop.eq_def]
        simp only [ne_eq, not_true_eq_false, if_false, if_true]
        rw [m2, after_after]
        rfl
    | dir D c a =>
      obtain ⟨h1, h2, h3⟩ := hp
      obtain ⟨d, l, g1, _⟩ := text_tail D c h2
      cases n with
      | zero => simp [Piece.text, g1] at hn
      | succ n =>
        rw [show (Piece.dir D c a).text = D.text c from rfl] at hn ⊢
        rw [show (Piece.dir D c a).args = [a] from rfl]
        simp only [List.cons_append, List.nil_append] at hn ⊢
        obtain ⟨m, m1, m2⟩ := ih n (by rw [g1] at hn; simp only [List.length_cons] at hn; omega)
        refine ⟨m, m1, ?_⟩
        rw [vloop_dir D h1 c h2 n none _ a _ _ h3]
        simp only [firstErr]
        rw [m2, after_after]

theorem vprintf_pieces (ps : List (Piece × List Byte × Nat)) (h : ∀ p ∈ ps, p.1.Prints p.2.1 p.2.2) (extra : List Arg) :
    vprintf (ps.flatMap fun p => p.1.text) ((ps.flatMap fun p => p.1.args) ++ extra) =
      .ok (ps.flatMap fun p => p.2.1, (ps.map fun p => p.2.2).sum) := by
  obtain ⟨m, _, m2⟩ := vloop_pieces ps h [] extra _ (Nat.le_refl _)
  have : vloop m none [] extra = .ok ([], 0, none) := by cases m <;> rfl
  rw [vprintf]
  simp only [List.append_nil, List.length_nil, Nat.add_zero] at m2
  rw [m2, this]
  simp [after]

end C3.Fmt
