import Verif.Fmt.LemmasItem
import Verif.FmtCheck.Spec

set_option autoImplicit false

namespace C3.FmtCheck
open C3.Fmt (Byte ch txt Arg isDigit tableChar tableChar_digit numeral_small numeral_step numeral_head)
open C3.Fmt.Std
open Spec

/-! ## Characters between `%` and the conversion -/

/-- A character the search goes over. -/
def Skip (c : Byte) : Prop := c ≠ 0 ∧ c ≠ ch '%' ∧ c ≠ ch '*' ∧ ∀ t, conversion c t = none

theorem skip_flag (f : Flag) : Skip f.char := by
  cases f <;> exact ⟨by decide, by decide, by decide, fun t => by cases t <;> decide⟩

theorem skip_point : Skip (ch '.') := ⟨by decide, by decide, by decide, fun t => by cases t <;> decide⟩

theorem skip_digit (n : Nat) (h : n < 10) : Skip (tableChar false n) := by
  have : ∀ n : Fin 10, tableChar false n.1 ≠ 0 ∧ tableChar false n.1 ≠ ch '%' ∧ tableChar false n.1 ≠ ch '*' ∧
      tableChar false n.1 ≠ ch '.' ∧ conversion (tableChar false n.1) .other = none := by decide +kernel
  obtain ⟨h1, h2, h3, _, h5⟩ := this ⟨n, h⟩
  refine ⟨h1, h2, h3, fun t => ?_⟩
  unfold conversion at h5 ⊢
  split at h5
  · cases h5
  split at h5
  · cases h5
  split at h5
  · cases h5
  split at h5
  · cases h5
  split at h5
  · cases h5
  rw [if_neg, if_neg, if_neg, if_neg, if_neg] <;> assumption

theorem point_digit (n : Nat) (h : n < 10) : tableChar false n ≠ ch '.' := by
  have : ∀ n : Fin 10, tableChar false n.1 ≠ ch '.' := by decide +kernel
  exact this ⟨n, h⟩

theorem numeral_skip (n : Nat) : ∀ c ∈ numeral 10 false n, Skip c ∧ c ≠ ch '.' := by
  induction n using Nat.strongRecOn with
  | _ n ih =>
    intro c hc
    by_cases h : n < 10
    · rw [numeral_small n h] at hc
      rw [List.mem_singleton.1 hc]
      exact ⟨skip_digit n h, point_digit n h⟩
    · rw [numeral_step n (by omega)] at hc
      rcases List.mem_append.1 hc with hc | hc
      · exact ih (n / 10) (by omega) c hc
      · rw [List.mem_singleton.1 hc]
        exact ⟨skip_digit _ (Nat.mod_lt _ (by decide)), point_digit _ (Nat.mod_lt _ (by decide))⟩

/-- A directive: what is between `%` and the conversion is skipped; a point at the start is followed by a digit. -/
theorem text_shape (D : Dir) (c : Byte) : ∃ mid, D.text c = ch '%' :: (mid ++ [c]) ∧ (∀ x ∈ mid, Skip x) ∧
    ∀ m, mid = ch '.' :: m → ∃ x m', m = x :: m' ∧ x ≠ ch '*' := by
  refine ⟨D.flags.map Flag.char ++ (if D.width = 0 then [] else numeral 10 false D.width) ++
    (match D.prec with | none => [] | some p => ch '.' :: numeral 10 false p), ?_, ?_, ?_⟩
  · rw [Dir.text]; cases D.prec <;> simp
  · intro x hx
    rcases List.mem_append.1 hx with hx | hx
    · rcases List.mem_append.1 hx with hx | hx
      · obtain ⟨f, _, rfl⟩ := List.mem_map.1 hx
        exact skip_flag f
      · by_cases hw : D.width = 0
        · rw [if_pos hw] at hx; cases hx
        · rw [if_neg hw] at hx; exact (numeral_skip _ x hx).1
    · cases hp : D.prec with
      | none => rw [hp] at hx; cases hx
      | some p =>
        rw [hp] at hx
        rcases List.mem_cons.1 hx with rfl | hx
        · exact skip_point
        · exact (numeral_skip _ x hx).1
  · intro m hm
    cases hf : D.flags with
    | cons f l =>
      rw [hf] at hm
      simp only [List.map_cons, List.cons_append, List.cons.injEq] at hm
      have : f.char ≠ ch '.' := by cases f <;> decide
      exact absurd hm.1 this
    | nil =>
      rw [hf] at hm
      by_cases hw : D.width = 0
      · rw [if_pos hw] at hm
        cases hp : D.prec with
        | none => rw [hp] at hm; cases hm
        | some p =>
          rw [hp] at hm
          simp only [List.map_nil, List.nil_append, List.cons.injEq, true_and] at hm
          obtain ⟨x, l, h1, _⟩ := numeral_head p
          refine ⟨x, l, by rw [← hm, h1], ?_⟩
          exact (numeral_skip p x (by rw [h1]; exact List.mem_cons_self ..)).1.2.2.1
      · rw [if_neg hw] at hm
        obtain ⟨x, l, h1, _⟩ := numeral_head D.width
        rw [h1] at hm
        simp only [List.map_nil, List.nil_append, List.cons_append, List.cons.injEq] at hm
        exact absurd hm.1 (numeral_skip D.width x (by rw [h1]; exact List.mem_cons_self ..)).2

/-! ## The search -/

theorem search_eq (t : Ty) (c : Byte) (tl : List Byte) : search t c tl =
    match conversion c t with
    | some true => .next tl
    | some false => .wrongType
    | none => if c = 0 then .done else match tl with | [] => .outOfBounds | c :: tl => search t c tl := by
  conv => lhs; unfold search
  rfl

theorem search_skip (t : Ty) (mid : List Byte) (c : Byte) (rest : List Byte) : ∀ a, (∀ x ∈ a :: mid, Skip x) →
    search t a (mid ++ c :: rest) = search t c rest := by
  induction mid with
  | nil =>
    intro a h
    obtain ⟨h1, _, _, h2⟩ := h a (List.mem_cons_self ..)
    rw [search_eq, h2 t]
    simp only [List.nil_append]
    rw [if_neg h1]
  | cons b mid ih =>
    intro a h
    obtain ⟨h1, _, _, h2⟩ := h a (List.mem_cons_self ..)
    rw [search_eq, h2 t]
    simp only [List.cons_append]
    rw [if_neg h1]
    exact ih b fun x hx => h x (List.mem_cons_of_mem _ hx)

instance (l : Letter) (t : Ty) : Decidable (l.Takes t) := by
  cases l <;> unfold Letter.Takes <;> infer_instance

theorem conversion_letter (l : Letter) (t : Ty) : conversion l.char t = some (decide (l.Takes t)) := by
  cases l <;> cases t <;> decide

theorem letter_char (l : Letter) : l.char ≠ 0 ∧ l.char ≠ ch '%' ∧ l.char ≠ ch '.' := by cases l <;> decide

theorem search_letter (t : Ty) (l : Letter) (rest : List Byte) :
    search t l.char rest = if l.Takes t then .next rest else .wrongType := by
  rw [search_eq, conversion_letter]
  by_cases h : l.Takes t <;> simp [h]

/-! ## The loop -/

theorem star_none (c : Byte) (h : c ≠ ch '.') (tl : List Byte) (args : List Ty) : star c tl args = some (tl, args) := by
  unfold star; exact if_neg h

theorem star_digit (d : Byte) (h : d ≠ ch '*') (tl : List Byte) (args : List Ty) :
    star (ch '.') (d :: tl) args = some (tl, args) := by
  unfold star; rw [if_pos rfl]; simp only; rw [if_neg h]

theorem loop_few (n : Nat) (D : Dir) (l : Letter) (rest : List Byte) :
    loop (n + 1) (D.text l.char ++ rest) [] = .tooFew := by
  obtain ⟨mid, h1, h2, _⟩ := text_shape D l.char
  rw [h1]
  cases mid with
  | nil =>
    simp only [List.nil_append, List.cons_append]
    rw [loop]
    simp [(letter_char l).2.1]
  | cons x mid =>
    simp only [List.cons_append]
    rw [loop]
    simp [(h2 x (List.mem_cons_self ..)).2.1]

theorem loop_dir (n : Nat) (D : Dir) (l : Letter) (rest : List Byte) (t : Ty) (args : List Ty) :
    loop (n + 1) (D.text l.char ++ rest) (t :: args) = if l.Takes t then loop n rest args else .wrongType := by
  obtain ⟨mid, h1, h2, h3⟩ := text_shape D l.char
  obtain ⟨k1, k2, k3⟩ := letter_char l
  rw [h1]
  cases mid with
  | nil =>
    simp only [List.nil_append, List.cons_append]
    rw [loop, if_neg (by simp), if_neg k2, if_neg (by simp), star_none _ k3]
    simp only
    rw [search_letter]
    by_cases h : l.Takes t <;> simp [h]
  | cons x mid =>
    have hx := h2 x (List.mem_cons_self ..)
    simp only [List.cons_append, List.append_assoc, List.nil_append]
    rw [loop, if_neg (by simp), if_neg hx.2.1, if_neg (by simp)]
    by_cases hp : x = ch '.'
    · subst hp
      obtain ⟨y, m', e1, e2⟩ := h3 mid rfl
      subst e1
      simp only [List.cons_append]
      rw [star_digit _ e2]
      simp only
      rw [search_skip t m' l.char rest _ fun z hz => h2 z ?_, search_letter]
      · by_cases h : l.Takes t <;> simp [h]
      rcases List.mem_cons.1 hz with rfl | hz
      · exact List.mem_cons_self ..
      · exact List.mem_cons_of_mem _ (List.mem_cons_of_mem _ hz)
    · rw [star_none _ hp]
      simp only
      rw [search_skip t mid l.char rest x h2, search_letter]
      by_cases h : l.Takes t <;> simp [h]

/-- What the check says of the conversions and the types. -/
def judge : List Letter → List Ty → Verdict
  | [], [] => .accepted
  | [], _ :: _ => .tooMany
  | _ :: _, [] => .tooFew
  | l :: ls, t :: ts => if l.Takes t then judge ls ts else .wrongType

theorem loop_parts (ps : List Part) (h : ∀ p ∈ ps, p.Ok) : ∀ n (args : List Ty),
    (ps.flatMap Part.text).length < n →
    loop n (ps.flatMap Part.text ++ [0]) args = judge (ps.flatMap Part.letters) args := by
  induction ps with
  | nil =>
    intro n args hn
    cases n with
    | zero => cases hn
    | succ n =>
      simp only [List.flatMap_nil, List.nil_append]
      rw [loop]
      · cases args <;> simp [judge]
      · intro c d tl hh; cases hh
  | cons p ps ih =>
    intro n args hn
    have hp := h p (List.mem_cons_self ..)
    have ih := ih fun q hq => h q (List.mem_cons_of_mem _ hq)
    cases n with
    | zero => cases hn
    | succ n =>
      simp only [List.flatMap_cons, List.length_append, List.append_assoc] at hn ⊢
      cases p with
      | lit c =>
        have hne : ∃ d tl, ps.flatMap Part.text ++ [0] = d :: tl := by
          cases ps.flatMap Part.text with
          | nil => exact ⟨_, _, rfl⟩
          | cons a b => exact ⟨_, _, rfl⟩
        simp only [Part.text, Part.letters, List.length_singleton, List.cons_append, List.nil_append] at hn ⊢
        rw [← ih n args (by omega)]
        obtain ⟨d, tl, e⟩ := hne
        rw [e, loop, if_pos (show c ≠ ch '%' from hp)]
      | percent =>
        simp only [Part.text, Part.letters, List.length_cons, List.length_nil, List.cons_append, List.nil_append] at hn ⊢
        rw [← ih n args (by omega), loop]
        simp
      | dir D l =>
        have hlen : 0 < (D.text l.char).length := by
          obtain ⟨mid, e, _⟩ := text_shape D l.char
          rw [e]; simp
        simp only [Part.text, Part.letters, List.cons_append, List.nil_append] at hn ⊢
        cases args with
        | nil => rw [loop_few]; rfl
        | cons t args =>
          rw [loop_dir, ih n args (by omega)]
          rfl

theorem check_parts (ps : List Part) (h : ∀ p ∈ ps, p.Ok) (args : List Ty) :
    check (ps.flatMap Part.text) args = judge (ps.flatMap Part.letters) args :=
  loop_parts ps h _ args (by omega)

theorem judge_accepted (ls : List Letter) : ∀ ts, judge ls ts = .accepted ↔ List.Forall₂ Letter.Takes ls ts := by
  induction ls with
  | nil => intro ts; cases ts <;> simp [judge]
  | cons l ls ih =>
    intro ts
    cases ts with
    | nil => simp [judge]
    | cons t ts =>
      rw [judge]
      by_cases h : l.Takes t
      · rw [if_pos h, ih ts]; simp [h]
      · rw [if_neg h]; simp [h]

theorem judge_few (ls : List Letter) : ∀ ts, judge ls ts = .tooFew ↔
    ts.length < ls.length ∧ List.Forall₂ Letter.Takes (ls.take ts.length) ts := by
  induction ls with
  | nil => intro ts; cases ts <;> simp [judge]
  | cons l ls ih =>
    intro ts
    cases ts with
    | nil => simp [judge]
    | cons t ts =>
      rw [judge]
      by_cases h : l.Takes t
      · rw [if_pos h, ih ts]; simp [h]
      · rw [if_neg h]; simp [h]

theorem judge_many (ls : List Letter) : ∀ ts, judge ls ts = .tooMany ↔
    ls.length < ts.length ∧ List.Forall₂ Letter.Takes ls (ts.take ls.length) := by
  induction ls with
  | nil => intro ts; cases ts <;> simp [judge]
  | cons l ls ih =>
    intro ts
    cases ts with
    | nil => simp [judge]
    | cons t ts =>
      rw [judge]
      by_cases h : l.Takes t
      · rw [if_pos h, ih ts]; simp [h]
      · rw [if_neg h]; simp [h]

theorem judge_bounds (ls : List Letter) : ∀ ts, judge ls ts ≠ .outOfBounds := by
  induction ls with
  | nil => intro ts; cases ts <;> simp [judge]
  | cons l ls ih =>
    intro ts
    cases ts with
    | nil => simp [judge]
    | cons t ts =>
      rw [judge]
      by_cases h : l.Takes t
      · rw [if_pos h]; exact ih ts
      · rw [if_neg h]; simp

end C3.FmtCheck
