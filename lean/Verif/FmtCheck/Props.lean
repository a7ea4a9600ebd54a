import Verif.FmtCheck.LemmasRun

/-! # Properties of the compiler's check of formats -/

set_option autoImplicit false

namespace C3.FmtCheck
open C3.Fmt (Byte ch txt Arg vprintf)
open C3.Fmt.Std
open Spec

/-! ## C171: what the check accepts -/

/-- **C171.** A format of the documented form is accepted exactly if there is one argument for every directive and
its type is one the conversion takes. -/
theorem C171_accepts (ps : List Part) (h : ∀ p ∈ ps, p.Ok) (tys : List Ty) :
    check (ps.flatMap Part.text) tys = .accepted ↔ List.Forall₂ Letter.Takes (ps.flatMap Part.letters) tys := by
  rw [check_parts ps h]; exact judge_accepted _ _

/-- **C171.** The error is about the number of arguments exactly if the number is wrong and the types of those that are
there are right; otherwise it is about a type, and the check does not read behind the end of anything. -/
theorem C171_errors (ps : List Part) (h : ∀ p ∈ ps, p.Ok) (tys : List Ty) :
    (check (ps.flatMap Part.text) tys = .tooFew ↔ tys.length < (ps.flatMap Part.letters).length ∧
      List.Forall₂ Letter.Takes ((ps.flatMap Part.letters).take tys.length) tys) ∧
    (check (ps.flatMap Part.text) tys = .tooMany ↔ (ps.flatMap Part.letters).length < tys.length ∧
      List.Forall₂ Letter.Takes (ps.flatMap Part.letters) (tys.take (ps.flatMap Part.letters).length)) ∧
    check (ps.flatMap Part.text) tys ≠ .outOfBounds := by
  rw [check_parts ps h]; exact ⟨judge_few _ _, judge_many _ _, judge_bounds _ _⟩

/-- `"a%-5d%% %.3s"`. -/
def parts : List Part :=
  [.lit (ch 'a'), .dir ⟨[.minus], 5, none⟩ .d, .percent, .lit (ch ' '), .dir ⟨[], 0, some 3⟩ .s]

example : (∀ p ∈ parts, p.Ok) ∧
    parts.flatMap Part.text = txt ['a', '%', '-', '5', 'd', '%', '%', ' ', '%', '.', '3', 's'] ∧
    check (txt ['a', '%', '-', '5', 'd', '%', '%', ' ', '%', '.', '3', 's']) [.integer, .other] = .accepted ∧
    check (txt ['a', '%', '-', '5', 'd', '%', '%', ' ', '%', '.', '3', 's']) [.integer] = .tooFew ∧
    check (txt ['a', '%', '-', '5', 'd', '%', '%', ' ', '%', '.', '3', 's']) [.other, .other] = .wrongType := by
  refine ⟨?_, ?_, by decide +kernel, by decide +kernel, by decide +kernel⟩
  · intro p hp
    simp only [parts, List.mem_cons, List.not_mem_nil, or_false] at hp
    rcases hp with rfl | rfl | rfl | rfl | rfl
    · exact (by decide : ch 'a' ≠ ch '%')
    · exact ⟨by decide, fun p h => by cases h⟩
    · trivial
    · exact (by decide : ch ' ' ≠ ch '%')
    · exact ⟨by decide, fun p h => by cases h; decide⟩
  · simp only [parts, List.flatMap_cons, List.flatMap_nil, Part.text, Dir.text]
    rw [if_neg (by decide), if_pos trivial, C3.Fmt.numeral_small 5 (by decide), C3.Fmt.numeral_small 3 (by decide)]
    decide +kernel

/-! ## C172: accepted calls print -/

/-- **C172.** The full statement: the formatter does not fail on a format and arguments that were accepted, apart from its
buffer being too small. -/
def C172_full : Prop := ∀ (format : List Byte) (args : List Arg) (tys : List Ty), List.Forall₂ HasType args tys →
  check format tys = .accepted → ¬ Mismatch (vprintf format args)

/-- **C172.** For formats of the documented form: an accepted call prints without a fault if widths and precisions are not above
253. Without this bound the only fault is that of the formatter's buffer. Missing: formats that are not of the form,
and conversions to floating point, which the model of the formatter does not have. -/
theorem C172_prints_partial (ps : List Part) (hok : ∀ p ∈ ps, p.Ok) (hm : ∀ p ∈ ps, p.Modelled) (args : List Arg)
    (tys : List Ty) (ht : List.Forall₂ HasType args tys) (h : check (ps.flatMap Part.text) tys = .accepted) :
    ((∀ p ∈ ps, p.Short) → ∃ r, vprintf (ps.flatMap Part.text) args = .ok r) ∧
    ((∃ r, vprintf (ps.flatMap Part.text) args = .ok r) ∨
      vprintf (ps.flatMap Part.text) args = .error (.fault .internalBufferExceeded)) := by
  have hj := (C171_accepts ps hok tys).1 h
  rcases vloop_parts ps hok hm _ args tys ht hj (Nat.le_refl _) with ⟨out, len, e⟩ | ⟨e, p, hp, hs⟩
  · have : vprintf (ps.flatMap Part.text) args = .ok (out, len) := by rw [vprintf, e]
    exact ⟨fun _ => ⟨_, this⟩, .inl ⟨_, this⟩⟩
  · have : vprintf (ps.flatMap Part.text) args = .error (.fault .internalBufferExceeded) := by rw [vprintf, e]
    exact ⟨fun hsh => absurd (hsh p hp) hs, .inr this⟩

example : check (txt ['%', 'd', '%', 's']) [.integer, .other] = .accepted ∧
    vprintf (txt ['%', 'd', '%', 's']) [.int true 32 7#32, .str (txt ['a'])] = .ok (txt ['7', 'a'], 2) ∧
    check (txt ['%', '0', '3', '0', '0', 'd']) [.integer] = .accepted ∧
    vprintf (txt ['%', '0', '3', '0', '0', 'd']) [.int true 32 7#32] = .error (.fault .internalBufferExceeded) := by
  decide +kernel

/-- **C172.** A width given by an argument: the check takes the argument of the width for the one to be printed and accepts a
call that has nothing to print. It fails whatever the conversion and the argument. -/
theorem C172_width_argument (l : Letter) (t : Ty) (h : l.Takes t) (a : Arg) :
    check (ch '%' :: ch '*' :: [l.char]) [t] = .accepted ∧ Mismatch (vprintf (ch '%' :: ch '*' :: [l.char]) [a]) := by
  refine ⟨?_, ?_⟩
  · cases l <;> cases t <;> first | decide +kernel | exact absurd h (by decide)
  · have e : C3.Fmt.parseFlags {} (ch '*' :: [l.char]) = .ok ({}, ch '*' :: [l.char]) := rfl
    have hc := letter_isConv l
    cases a with
    | str s => exact ⟨.fault .invalidFormat, by cases l <;> rfl, by decide, by decide⟩
    | bytes s => exact ⟨.fault .invalidFormat, by cases l <;> rfl, by decide, by decide⟩
    | int s w x =>
      have hp : ∀ args, C3.Fmt.parseField (ch '*' :: [l.char]) (.int s w x :: args) =
          if -2 ^ 31 ≤ C3.Fmt.value (.int s w x) ∧ C3.Fmt.value (.int s w x) < 2 ^ 31 then
            .ok (C3.Fmt.value (.int s w x), [l.char], args) else .error (.fault .invalidFormat) := by
        intro args
        rw [C3.Fmt.parseField.eq_def]
        rfl
      by_cases hv : -2 ^ 31 ≤ C3.Fmt.value (.int s w x) ∧ C3.Fmt.value (.int s w x) < 2 ^ 31
      · refine ⟨.fault .notEnoughArguments, ?_, by decide, by decide⟩
        have hs : ∃ f, C3.Fmt.parseSpec (ch '*' :: [l.char]) [.int s w x] = .ok (f, l.char, [], []) := by
          rw [C3.Fmt.parseSpec, e]
          simp only [bind, Except.bind]
          rw [hp, if_pos hv]
          simp only
          rw [C3.Fmt.parsePrec, if_neg hc.point]
          exact ⟨_, rfl⟩
        obtain ⟨f, hs⟩ := hs
        rw [vprintf, show (ch '%' :: ch '*' :: [l.char]).length = 2 + 1 from rfl, C3.Fmt.vloop.eq_def]
        simp only
        rw [if_neg (by simp), if_neg (by decide), hs]
        rfl
      · refine ⟨.fault .invalidFormat, ?_, by decide, by decide⟩
        have hs : C3.Fmt.parseSpec (ch '*' :: [l.char]) [.int s w x] = .error (.fault .invalidFormat) := by
          rw [C3.Fmt.parseSpec, e]
          simp only [bind, Except.bind]
          rw [hp, if_neg hv]
        rw [vprintf, show (ch '%' :: ch '*' :: [l.char]).length = 2 + 1 from rfl, C3.Fmt.vloop.eq_def]
        simp only
        rw [if_neg (by simp), if_neg (by decide), hs]

/-- **C172.** The statement is false. Besides the above, the check goes over any character to find a letter that is a conversion:
`"%5 d"` is accepted. -/
theorem C172_fails : ¬ C172_full := by
  intro h
  exact h (ch '%' :: ch '*' :: [Letter.d.char]) [.int true 32 7#32] [.integer]
    (.cons rfl .nil) (C172_width_argument .d .integer (by decide) (.int true 32 7#32)).1
    (C172_width_argument .d .integer (by decide) (.int true 32 7#32)).2

example : check (txt ['%', '5', ' ', 'd']) [.integer] = .accepted ∧
    vprintf (txt ['%', '5', ' ', 'd']) [.int true 32 7#32] = .error (.fault .invalidFormat) := by decide +kernel

/-! ## C173: the check stays in its bounds -/

/-- **C173.** The full statement: the check does not read behind the end of the format (and the zero behind it) or of the
arguments. -/
def C173_full : Prop := ∀ (format : List Byte) (tys : List Ty), check format tys ≠ .outOfBounds

/-- **C173.** It does not if no `%` is directly followed by a point. Missing: formats in which one is. -/
theorem C173_bounds_partial (format : List Byte) (h : ∀ a b, format ≠ a ++ ch '%' :: ch '.' :: b) (tys : List Ty) :
    check format tys ≠ .outOfBounds := loop_safe _ format tys h

example : check (txt ['%', '5', '.', '*', '%', '!']) [.integer, .bool] ≠ .outOfBounds ∧
    check (txt ['%']) [.integer] = .tooMany := by decide +kernel

/-- **C173.** `"%.*s"` with one argument, of any type: the second argument, which is to be printed, is looked at though it
is not there. The same for any conversion, and anything behind it. -/
theorem C173_star (t : Ty) (rest : List Byte) : check (ch '%' :: ch '.' :: ch '*' :: rest) [t] = .outOfBounds := by
  unfold check
  rw [show (ch '%' :: ch '.' :: ch '*' :: rest).length + 2 = (rest.length + 4) + 1 from rfl, List.cons_append,
    List.cons_append, loop]
  rfl

/-- **C173.** A format that ends in `"%."`: the character behind the zero at its end is read. -/
theorem C173_point (ps : List Part) (h : ∀ p ∈ ps, p.Ok ∧ p.letters = []) (t : Ty) (tys : List Ty) :
    check (ps.flatMap Part.text ++ [ch '%', ch '.']) (t :: tys) = .outOfBounds := by
  have key : ∀ (ps : List Part), (∀ p ∈ ps, p.Ok ∧ p.letters = []) → ∀ n, (ps.flatMap Part.text).length < n →
      loop n (ps.flatMap Part.text ++ [ch '%', ch '.', 0]) (t :: tys) = .outOfBounds := by
    intro ps
    induction ps with
    | nil =>
      intro _ n hn
      cases n with
      | zero => cases hn
      | succ n =>
        rw [List.flatMap_nil, List.nil_append, loop]
        have : search t (ch '.') [] = .outOfBounds := by cases t <;> rfl
        rw [if_neg (by simp), if_neg (by decide), if_neg (by simp), star_digit _ (by decide)]
        simp only [this]
    | cons p ps ih =>
      intro h n hn
      obtain ⟨hp, hl⟩ := h p (List.mem_cons_self ..)
      have ih := ih fun q hq => h q (List.mem_cons_of_mem _ hq)
      cases n with
      | zero => cases hn
      | succ n =>
        simp only [List.flatMap_cons, List.length_append, List.append_assoc] at hn ⊢
        cases p with
        | lit c =>
          simp only [Part.text, List.length_singleton, List.cons_append, List.nil_append] at hn ⊢
          rw [← ih n (by omega)]
          cases hx : ps.flatMap Part.text with
          | nil => exact if_pos hp
          | cons a b => exact if_pos hp
        | percent =>
          simp only [Part.text, List.length_cons, List.length_nil, List.cons_append, List.nil_append] at hn ⊢
          rw [← ih n (by omega), loop]
          simp
        | dir D l => cases hl
  have := key ps h ((ps.flatMap Part.text ++ [ch '%', ch '.']).length + 2) (by simp; omega)
  unfold check
  rw [List.append_assoc]
  exact this

/-- **C173.** The statement is false. -/
theorem C173_fails : ¬ C173_full := fun h => h _ _ (C173_star .other [ch 's'])

example : check (txt ['%', '.', '*', 's']) [.other] = .outOfBounds ∧
    check (txt ['a', '%', '.']) [.other] = .outOfBounds ∧
    check (txt ['%', '.', '*', 's']) [.integer, .other] = .accepted := by decide +kernel

/-! ## C174: what prints is accepted -/

/-- **C174.** The full statement: a call that prints, and needs all of its arguments for that, is accepted. -/
def C174_full : Prop := ∀ (format : List Byte) (args : List Arg) (tys : List Ty), List.Forall₂ HasType args tys →
  (∃ r, vprintf format args = .ok r) → (∀ k, k < args.length → ∃ e, vprintf format (args.take k) = .error e) →
  check format tys = .accepted

/-- **C174.** For formats of the documented form with arguments of types the conversions take. Missing: the other ways the
formatter knows to write a directive. -/
theorem C174_accepted_partial (ps : List Part) (h : ∀ p ∈ ps, p.Ok) (tys : List Ty)
    (ht : List.Forall₂ Letter.Takes (ps.flatMap Part.letters) tys) : check (ps.flatMap Part.text) tys = .accepted :=
  (C171_accepts ps h tys).2 ht

example : List.Forall₂ Letter.Takes (parts.flatMap Part.letters) [.integer, .other] :=
  .cons (.inr (.inl rfl)) (.cons trivial .nil)

/-- **C174.** Never accepted: a width given by an argument; a precision without digits; `%O`; `%h` of a slice. -/
theorem C174_refused (l : Letter) (w t : Ty) :
    check (ch '%' :: ch '*' :: [l.char]) [w, t] ≠ .accepted ∧ check (ch '%' :: ch '.' :: [l.char]) [t] ≠ .accepted ∧
    check (txt ['%', 'O']) [t] ≠ .accepted ∧ check (txt ['%', 'h']) [.other] ≠ .accepted := by
  refine ⟨?_, ?_, ?_, by decide +kernel⟩
  · cases l <;> cases w <;> cases t <;> decide +kernel
  · cases l <;> cases t <;> decide +kernel
  · cases t <;> decide +kernel

/-- All of these print. -/
example : vprintf (txt ['%', '*', 'd']) [.int true 32 3#32, .int true 32 7#32] = .ok (txt [' ', ' ', '7'], 1) ∧
    vprintf (txt ['%', '.', 'd']) [.int true 32 7#32] = .ok (txt ['7'], 1) ∧
    vprintf (txt ['%', 'O']) [.int true 32 8#32] = .ok (txt ['1', '0'], 2) ∧
    vprintf (txt ['%', 'h']) [.bytes [0xab#8]] = .ok (txt ['a', 'b'], 2) := by decide +kernel

/-- **C174.** The statement is false. -/
theorem C174_fails : ¬ C174_full := by
  intro h
  refine (C174_refused .d .integer .integer).1 (h _ [.int true 32 3#32, .int true 32 7#32] [.integer, .integer]
    (.cons rfl (.cons rfl .nil)) ⟨(txt [' ', ' ', '7'], 1), by decide +kernel⟩ ?_)
  intro k hk
  match k with
  | 0 => exact ⟨.fault .invalidFormat, by decide +kernel⟩
  | 1 => exact ⟨.fault .notEnoughArguments, by decide +kernel⟩
  | k + 2 => simp at hk

end C3.FmtCheck
