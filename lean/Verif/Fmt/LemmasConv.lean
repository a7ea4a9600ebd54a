import Verif.Fmt.LemmasParse

set_option autoImplicit false

namespace C3.Fmt
open Std

/-! ## Integers -/

/-- The members of the formatter when `ntoa` is called. -/
def intFmt (D : Dir) (c : Conv) : Fmt :=
  ⟨⟨decide (.zero ∈ D.flags) && D.prec.isNone, decide (.minus ∈ D.flags), decide (.plus ∈ D.flags) && decide (c = .d),
    decide (.space ∈ D.flags) && decide (c = .d), decide (.alt ∈ D.flags) && decide (c ≠ .d), c.upper, D.prec.isSome⟩,
    D.width, D.prec.getD 0⟩

theorem convert_ntoa (D : Dir) (c : Conv) (a : Arg) (neg : Bool) (m : BitVec 128) (h : intFromAny a = .ok (neg, m)) :
    convert (fmtOf D) c.char a =
      match ntoa (intFmt D c) m neg c.base with
      | .ok r => .ok r
      | .error e => .error (.fault e) := by
  have hc : intConv c.char = some (c.base, c.upper) := by cases c <;> rfl
  unfold convert
  rw [hc]
  simp only
  unfold convInt
  rw [h]
  simp only
  cases hp : D.prec <;> cases c <;> simp [Conv.base, fmtOf, intFmt, Conv.upper, hp] <;> rfl

theorem isConv (c : Conv) : IsConv c.char := by
  cases c <;> exact ⟨by decide, by decide, by decide, by decide, by decide⟩

theorem Conv.base_bounds (c : Conv) : 1 < c.base ∧ c.base ≤ 16 := by cases c <;> decide

theorem isSome_of_some {α : Type} {o : Option α} {x : α} (h : o = some x) : o.isSome = true := by rw [h]; rfl

theorem numeral_length_pos (base : Nat) (upper : Bool) (n : Nat) : 0 < (numeral base upper n).length := by
  rw [numeral_eq, List.length_reverse]; exact low_length_pos base upper n

theorem zeros_succ (n : Nat) : zeros (n + 1) = zeros n ++ [ch '0'] := List.replicate_succ'

/-- Zeros and digits, without the flag `0`. -/
theorem body_eq (D : Dir) (c : Conv) (v : Int) (F : Fmt) (neg : Bool) (fprec : F.prec = D.prec.getD 0)
    (fleft : F.flags.left = decide (.minus ∈ D.flags))
    (fzero : F.flags.zeropad = true → F.flags.left = true)
    (hA : ∀ p, .minus ∈ D.flags → D.prec = some p → 0 < p → v ≠ 0 ∧ p ≤ (numeral c.base c.upper v.natAbs).length)
    (buf : List Byte) (hbuf : buf.reverse = if D.prec.isSome = true ∧ v = 0 then [] else numeral c.base c.upper v.natAbs) :
    zeros (zerosOf F buf.length neg) ++ buf.reverse =
      zeros (D.prec.getD 0 - (D.digits c v).length) ++ D.digits c v := by
  have hlen : buf.length = buf.reverse.length := List.length_reverse.symm
  rw [hlen, hbuf]
  have hnd := numeral_length_pos c.base c.upper v.natAbs
  unfold zerosOf Dir.digits
  rw [fprec]
  by_cases hl : .minus ∈ D.flags
  · rw [if_pos (by rw [fleft]; exact decide_eq_true hl)]
    cases hp : D.prec with
    | none => simp [zeros]
    | some p =>
      by_cases hv : v = 0
      · have hp0 : p = 0 := by
          rcases Nat.eq_zero_or_pos p with h | h
          · exact h
          · exact absurd hv (hA p hl hp h).1
        simp [hv, hp0]
      · have : p ≤ (numeral c.base c.upper v.natAbs).length := by
          rcases Nat.eq_zero_or_pos p with h | h
          · omega
          · exact (hA p hl hp h).2
        simp only [hv, and_false, false_and, if_false, Option.getD_some]
        rw [Nat.sub_eq_zero_of_le this]
  · have hl' : ¬ F.flags.left = true := by rw [fleft]; simpa using hl
    rw [if_neg hl', if_neg (fun h => hl' (fzero h))]
    cases hp : D.prec with
    | none => simp
    | some p =>
      by_cases hv : v = 0
      · cases p with
        | zero => simp [hv]
        | succ p => simp [hv, numeral, zeros_succ]
      · simp [hv]

/-- The directive as the code prints it. -/
theorem convert_int (D : Dir) (c : Conv) (s : Bool) (w : Nat) (x : BitVec w) (hw : w ≤ 128)
    (hp : D.prec.getD 0 ≤ 253) (hz : .zero ∈ D.flags → D.width ≤ 253)
    (hA : ∀ p, .minus ∈ D.flags → D.prec = some p → 0 < p → value (.int s w x) ≠ 0 ∧
      p ≤ (numeral c.base c.upper (value (.int s w x)).natAbs).length)
    (hB : .alt ∈ D.flags → .zero ∈ D.flags → .minus ∉ D.flags → D.prec = none → c ≠ .d → value (.int s w x) ≠ 0 →
      D.width ≤ (D.sign c (value (.int s w x))).length + (numeral c.base c.upper (value (.int s w x)).natAbs).length)
    (hC : value (.int s w x) = 0 → D.prec = some 0 → D.sign c 0 = [] → D.width = 0) :
    ∃ n, convert (fmtOf D) c.char (.int s w x) = .ok ⟨D.int c (value (.int s w x)), n, none⟩ ∧
      (D.width = 0 → n = (D.int c (value (.int s w x))).length) := by
  obtain ⟨m, h1, h2⟩ := intFromAny_eq s w x hw
  rw [convert_ntoa D c _ _ m h1, ntoa_eq _ _ _ _ (Conv.base_bounds c).1 (Conv.base_bounds c).2]
  generalize hv : value (.int s w x) = v at *
  have hm0 : m = 0 ↔ v = 0 := by
    constructor
    · intro h
      have : v.natAbs = 0 := by rw [← h2, h]; rfl
      omega
    · intro h
      apply BitVec.eq_of_toNat_eq
      rw [h2, h]; rfl
  let F : Fmt := if m = 0 then { intFmt D c with flags := { (intFmt D c).flags with hash := false } } else intFmt D c
  have hF : (if m = 0 then { intFmt D c with flags := { (intFmt D c).flags with hash := false } } else intFmt D c) = F :=
    rfl
  have fprec : F.prec = D.prec.getD 0 := by unfold F; split <;> rfl
  have fwidth : F.width = D.width := by unfold F; split <;> rfl
  have fleft : F.flags.left = decide (.minus ∈ D.flags) := by unfold F; split <;> rfl
  have fzero : F.flags.zeropad = (decide (.zero ∈ D.flags) && D.prec.isNone) := by unfold F; split <;> rfl
  have fpre : F.flags.precision = D.prec.isSome := by unfold F; split <;> rfl
  have fplus : F.flags.plus = (decide (.plus ∈ D.flags) && decide (c = .d)) := by unfold F; split <;> rfl
  have fspace : F.flags.space = (decide (.space ∈ D.flags) && decide (c = .d)) := by unfold F; split <;> rfl
  have fup : F.flags.uppercase = c.upper := by unfold F; split <;> rfl
  have fhash : F.flags.hash = (decide (.alt ∈ D.flags) && decide (c ≠ .d) && decide (v ≠ 0)) := by
    unfold F
    by_cases hm : m = 0
    · rw [if_pos hm]; simp [hm0.1 hm]
    · rw [if_neg hm]; simp [intFmt, mt hm0.2 hm]
  have hsign : signOf F (decide (v < 0)) = D.sign c v := by
    unfold signOf Dir.sign
    rw [fplus, fspace]
    by_cases h : v < 0
    · simp [h]
    · by_cases hd : c = .d <;> simp [h, hd]
  have hprefix : (prefixOf F c.base).reverse = D.pre c v := by
    unfold prefixOf Dir.pre
    rw [fhash, fup]
    have hd : c.base ≠ 10 ↔ c ≠ .d := by cases c <;> simp [Conv.base]
    have hl : c ≠ .d → baseLetter c.base c.upper = c.char := by cases c <;> simp [baseLetter, Conv.base, Conv.upper, Conv.char]
    by_cases h1 : Flag.alt ∈ D.flags <;> by_cases h2 : c = .d <;> by_cases h3 : v = 0 <;> simp [h1, h2, h3, hd]
    exact hl h2
  rw [hF]
  have hbuf : (if (intFmt D c).flags.precision = true ∧ m = 0 then [] else low c.base (intFmt D c).flags.uppercase m.toNat) =
      if D.prec.isSome = true ∧ v = 0 then [] else low c.base c.upper v.natAbs := by
    rw [h2]
    by_cases h : D.prec.isSome = true ∧ v = 0
    · rw [if_pos h, if_pos ⟨h.1, hm0.2 h.2⟩]
    · rw [if_neg h, if_neg (fun g => h ⟨g.1, hm0.1 g.2⟩)]; rfl
  rw [hbuf]
  have hlow : (low c.base c.upper v.natAbs).length ≤ 128 := by
    rw [← h2]; exact low_length_le _ (Conv.base_bounds c).1 _ _ m.isLt
  have hbl : (if D.prec.isSome = true ∧ v = 0 then [] else low c.base c.upper v.natAbs).length ≤ 128 := by
    split
    · simp
    · exact hlow
  rw [ntoaFormat_eq F _ _ _ hbl (by rw [fprec]; exact hp)
    (by rw [fpre, fprec]; intro h; cases hpp : D.prec with | none => rfl | some p => rw [hpp] at h; cases h)
    (by rw [fzero, fwidth]; intro h; simp only [Bool.and_eq_true, decide_eq_true_eq] at h; exact hz h.1)]
  generalize hbufd : (if D.prec.isSome = true ∧ v = 0 then [] else low c.base c.upper v.natAbs) = buf
  have hbr : buf.reverse = if D.prec.isSome = true ∧ v = 0 then [] else numeral c.base c.upper v.natAbs := by
    rw [← hbufd, numeral_eq]; split <;> rfl
  have hlen : buf.length = buf.reverse.length := List.length_reverse.symm
  have hnd := numeral_length_pos c.base c.upper v.natAbs
  have key : (if D.sign c v ++ D.pre c v ++ zeros (zerosOf F buf.length (decide (v < 0))) ++ buf.reverse = [] then []
      else if F.flags.left = true then
        (D.sign c v ++ D.pre c v ++ zeros (zerosOf F buf.length (decide (v < 0))) ++ buf.reverse) ++
          spaces (F.width - (D.sign c v ++ D.pre c v ++ zeros (zerosOf F buf.length (decide (v < 0))) ++ buf.reverse).length)
      else if F.flags.zeropad = true then
        D.sign c v ++ D.pre c v ++ zeros (zerosOf F buf.length (decide (v < 0))) ++ buf.reverse
      else spaces (F.width -
          (D.sign c v ++ D.pre c v ++ zeros (zerosOf F buf.length (decide (v < 0))) ++ buf.reverse).length) ++
        (D.sign c v ++ D.pre c v ++ zeros (zerosOf F buf.length (decide (v < 0))) ++ buf.reverse)) = D.int c v ∧
      (D.width = 0 → (D.sign c v ++ D.pre c v ++ zeros (zerosOf F buf.length (decide (v < 0))) ++ buf.reverse).length =
        (D.int c v).length) := by
    by_cases act : .zero ∈ D.flags ∧ .minus ∉ D.flags ∧ D.prec = none
    · obtain ⟨a1, a2, a3⟩ := act
      have hl : ¬ F.flags.left = true := by rw [fleft]; simpa using a2
      have hzp : F.flags.zeropad = true := by rw [fzero, a3]; simpa using a1
      rw [a3, if_neg (by simp)] at hbr
      rw [hbr, if_neg (by intro h; simp only [List.append_eq_nil_iff] at h; rw [h.2] at hnd; simp at hnd), if_neg hl,
        if_pos hzp, hlen, hbr]
      have hint : D.sign c v ++ D.pre c v ++
          zeros (zerosOf F (numeral c.base c.upper v.natAbs).length (decide (v < 0))) ++ numeral c.base c.upper v.natAbs
          = D.int c v := by
        unfold Dir.int zerosOf
        rw [if_neg hl, if_pos hzp, fprec, fwidth, hsign]
        simp only [Dir.digits, a1, a2, a3, not_false_eq_true, and_self, if_true, Option.getD_none, Nat.zero_sub,
          reduceCtorEq, and_false, if_false, Nat.zero_max]
        rw [show zeros 0 = [] from rfl, List.nil_append]
        congr 3
        simp only [List.length_append]
        unfold Dir.pre
        by_cases hb : .alt ∈ D.flags ∧ c ≠ .d ∧ v ≠ 0
        · have := hB hb.1 a1 a2 a3 hb.2.1 hb.2.2
          omega
        · rw [if_neg hb, List.length_nil]; omega
      exact ⟨hint, fun _ => by rw [hint]⟩
    · have fzl : F.flags.zeropad = true → F.flags.left = true := by
        rw [fzero, fleft]
        simp only [Bool.and_eq_true, decide_eq_true_eq, Option.isNone_iff_eq_none]
        intro h
        by_cases hm : .minus ∈ D.flags
        · exact hm
        · exact absurd ⟨h.1, hm, h.2⟩ act
      have hint : D.int c v = D.field (D.sign c v ++ D.pre c v ++
          (zeros (D.prec.getD 0 - (D.digits c v).length) ++ D.digits c v)) := by
        unfold Dir.int
        simp only [if_neg act]
      rw [hint, List.append_assoc (D.sign c v ++ D.pre c v),
        body_eq D c v F _ fprec fleft fzl hA buf hbr]
      generalize hS : D.sign c v ++ D.pre c v ++ (zeros (D.prec.getD 0 - (D.digits c v).length) ++ D.digits c v) = S
      unfold Dir.field
      by_cases hS0 : S = []
      · rw [if_pos hS0]
        rw [hS0] at hS
        simp only [List.append_eq_nil_iff] at hS
        obtain ⟨⟨g1, g2⟩, g3, g4⟩ := hS
        unfold Dir.digits at g4
        have hv0 : v = 0 ∧ D.prec = some 0 := by
          by_cases h : v = 0 ∧ D.prec = some 0
          · exact h
          · rw [if_neg h] at g4; rw [g4] at hnd; simp at hnd
        have : D.width = 0 := hC hv0.1 hv0.2 (by rw [← hv0.1]; exact g1)
        rw [this, hS0]
        simp [spaces]
      · rw [if_neg hS0, fleft, fwidth]
        by_cases hm : .minus ∈ D.flags
        · simp only [hm, decide_true, if_true, true_and]
          intro h
          simp [h, spaces]
        · have hzp : ¬ F.flags.zeropad = true := fun h => by
            have := fzl h; rw [fleft] at this; exact hm (by simpa using this)
          simp only [hm, decide_false, Bool.false_eq_true, if_false, if_neg hzp, true_and]
          intro h
          simp [h, spaces]
  simp only [hsign, hprefix]
  exact ⟨_, congrArg Except.ok (congrArg (fun o => Res.mk o _ none) key.1), key.2⟩

/-! ## Characters -/

theorem isConv_c : IsConv (ch 'c') := ⟨by decide, by decide, by decide, by decide, by decide⟩
theorem isConv_s : IsConv (ch 's') := ⟨by decide, by decide, by decide, by decide, by decide⟩
theorem isConv_h : IsConv (ch 'h') := ⟨by decide, by decide, by decide, by decide, by decide⟩
theorem isConv_H : IsConv (ch 'H') := ⟨by decide, by decide, by decide, by decide, by decide⟩

end C3.Fmt
