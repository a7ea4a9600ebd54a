import Verif.FmtCheck.Lemmas

set_option autoImplicit false

namespace C3.FmtCheck
open C3.Fmt
open C3.Fmt.Std
open Spec

/-! ## Reading behind the end -/

/-- `%` is not followed by a point. -/
def NoPoint (x : List Byte) : Prop := ∀ a b, x ≠ a ++ ch '%' :: ch '.' :: b

theorem NoPoint.suffix {x y : List Byte} (h : NoPoint (y ++ x)) : NoPoint x := by
  intro a b e
  exact h (y ++ a) b (by rw [e, List.append_assoc])

theorem search_ends (t : Ty) (tl : List Byte) : ∀ (c : Byte) (x : List Byte), c :: tl = x ++ [0] →
    search t c tl ≠ .outOfBounds ∧ ∀ tl', search t c tl = .next tl' → ∃ y z, x = y ++ z ∧ tl' = z ++ [0] := by
  induction tl with
  | nil =>
    intro c x hx
    have hc : c = 0 := by
      cases x with
      | nil => simpa using hx
      | cons a x => simp at hx
    subst hc
    have : search t 0 [] = .done := by
      rw [search_eq]
      have : conversion 0 t = none := by cases t <;> decide
      rw [this]; simp
    rw [this]
    exact ⟨by simp, fun _ h => by cases h⟩
  | cons b tl ih =>
    intro c x hx
    cases x with
    | nil => simp at hx
    | cons a x =>
      simp only [List.cons_append, List.cons.injEq] at hx
      obtain ⟨hx1, hx2⟩ := hx
      rw [search_eq]
      cases hc : conversion c t with
      | some v =>
        cases v with
        | true =>
          refine ⟨by simp, fun tl' h => ?_⟩
          simp only [Found.next.injEq] at h
          exact ⟨[a], x, rfl, by rw [← h, hx2]⟩
        | false => exact ⟨by simp, fun _ h => by cases h⟩
      | none =>
        simp only
        by_cases h0 : c = 0
        · rw [if_pos h0]; exact ⟨by simp, fun _ h => by cases h⟩
        · rw [if_neg h0]
          obtain ⟨i1, i2⟩ := ih b x hx2
          refine ⟨i1, fun tl' h => ?_⟩
          obtain ⟨y, z, e1, e2⟩ := i2 tl' h
          exact ⟨a :: y, z, by rw [e1]; rfl, e2⟩

theorem loop_safe (n : Nat) : ∀ (x : List Byte) (args : List Ty), NoPoint x → loop n (x ++ [0]) args ≠ .outOfBounds := by
  induction n with
  | zero => intro x args _; rw [loop]; simp
  | succ n ih =>
    intro x args h
    cases x with
    | nil =>
      rw [List.nil_append, loop]
      · split <;> simp
      · intro c d tl hh; cases hh
    | cons c x =>
      obtain ⟨d, tl, e⟩ : ∃ d tl, x ++ [0] = d :: tl := by
        cases x with
        | nil => exact ⟨_, _, rfl⟩
        | cons a b => exact ⟨_, _, rfl⟩
      rw [List.cons_append, e, loop]
      have hx : NoPoint x := NoPoint.suffix (y := [c]) h
      by_cases hc : c ≠ ch '%'
      · rw [if_pos hc, ← e]; exact ih x args hx
      rw [if_neg hc]
      rw [ne_eq, Classical.not_not] at hc
      subst hc
      by_cases hd : d = ch '%'
      · rw [if_pos hd]
        cases x with
        | nil => simp only [List.nil_append, List.cons.injEq] at e; exact absurd (e.1.trans hd) (by decide)
        | cons a x =>
          simp only [List.cons_append, List.cons.injEq] at e
          rw [← e.2]
          exact ih x args (NoPoint.suffix (y := [a]) hx)
      rw [if_neg hd]
      by_cases ha : args = []
      · rw [if_pos ha]; simp
      rw [if_neg ha]
      have hp : d ≠ ch '.' := by
        intro hp
        cases x with
        | nil => simp only [List.nil_append, List.cons.injEq] at e; exact absurd (e.1.trans hp) (by decide)
        | cons a x =>
          simp only [List.cons_append, List.cons.injEq] at e
          exact h [] x (by rw [e.1, hp]; rfl)
      rw [star_none _ hp]
      cases args with
      | nil => exact absurd rfl ha
      | cons t args =>
        simp only
        obtain ⟨i1, i2⟩ := search_ends t tl d x e.symm
        cases hs : search t d tl with
        | next tl' =>
          obtain ⟨y, z, e1, e2⟩ := i2 tl' hs
          simp only
          rw [e2]
          exact ih z args (NoPoint.suffix (y := y) (by rw [← e1]; exact hx))
        | wrongType => simp
        | done => simp
        | outOfBounds => exact absurd hs i1

/-! ## `ntoa` -/

theorem digits_room (base : Nat) (hb : 1 < base) (upper : Bool) (room : Nat) : ∀ value buf, value < 2 ^ room → 0 < room →
    ∃ b, digits base upper room value buf = .ok b ∧ b.length ≤ buf.length + room := by
  induction room with
  | zero => intro _ _ _ h; cases h
  | succ room ih =>
    intro value buf hv _
    rw [digits]
    by_cases h0 : value / base = 0
    · rw [if_pos h0]; exact ⟨_, rfl, by simp⟩
    · rw [if_neg h0]
      have hlt : value / base < 2 ^ room := by
        rw [Nat.div_lt_iff_lt_mul (by omega)]
        calc value < 2 ^ (room + 1) := hv
          _ = 2 ^ room * 2 := Nat.pow_succ ..
          _ ≤ 2 ^ room * base := Nat.mul_le_mul_left _ hb
      have hr : 0 < room := by
        cases room with
        | zero => exact absurd (Nat.lt_one_iff.1 hlt) h0
        | succ r => omega
      obtain ⟨b, h1, h2⟩ := ih (value / base) (buf ++ [digitChar upper (value % base)]) hlt hr
      exact ⟨b, h1, by simp at h2; omega⟩

theorem digits_mono (base : Nat) (upper : Bool) (room : Nat) : ∀ value buf b, digits base upper room value buf = .ok b →
    digits base upper (room + 1) value buf = .ok b := by
  induction room with
  | zero => intro value buf b h; rw [digits] at h; cases h
  | succ room ih =>
    intro value buf b h
    rw [digits] at h ⊢
    split
    · rename_i hh; rw [if_pos hh] at h; exact h
    · rename_i hh; rw [if_neg hh] at h; exact ih _ _ _ h

theorem digits_mono_add (base : Nat) (upper : Bool) (room k : Nat) (value : Nat) (buf b : List Byte)
    (h : digits base upper room value buf = .ok b) : digits base upper (room + k) value buf = .ok b := by
  induction k with
  | zero => exact h
  | succ k ih => exact digits_mono _ _ _ _ _ _ ih

theorem digits_128 (base : Nat) (hb : 1 < base) (upper : Bool) (v : BitVec 128) :
    ∃ b, digits base upper bufferSize v.toNat [] = .ok b ∧ b.length ≤ 128 := by
  obtain ⟨b, h1, h2⟩ := digits_room base hb upper 128 v.toNat [] v.isLt (by decide)
  exact ⟨b, digits_mono_add base upper 128 128 _ _ _ h1, by simpa using h2⟩

theorem padZeros_err (target room : Nat) : ∀ buf e, padZeros target room buf = .error e → e = .internalBufferExceeded := by
  induction room with
  | zero => intro buf e h; rw [padZeros] at h; split at h <;> cases h; rfl
  | succ room ih =>
    intro buf e h
    rw [padZeros] at h
    split at h
    · exact ih _ _ h
    · cases h

theorem padZeros_ok (target room : Nat) : ∀ buf, target ≤ buf.length + room → ∃ b, padZeros target room buf = .ok b ∧
    b.length ≤ max buf.length target := by
  induction room with
  | zero => intro buf h; rw [padZeros]; rw [if_neg (by omega)]; exact ⟨_, rfl, by omega⟩
  | succ room ih =>
    intro buf h
    rw [padZeros]
    by_cases hb : buf.length < target
    · rw [if_pos hb]
      obtain ⟨b, h1, h2⟩ := ih (buf ++ [ch '0']) (by simp; omega)
      exact ⟨b, h1, by simp at h2; omega⟩
    · rw [if_neg hb]; exact ⟨_, rfl, by omega⟩

/-- The only way for `ntoa` to fail is the buffer. -/
theorem ntoa_safe (f : Fmt) (v : BitVec 128) (neg : Bool) (base : Nat) (hb : 1 < base) :
    (∃ r, ntoa f v neg base = .ok r ∧ r.fault = none) ∨ ntoa f v neg base = .error .internalBufferExceeded := by
  have lead : ∀ (f : Fmt) buf e, leading f buf neg = .error e → e = .internalBufferExceeded := by
    intro f buf e h
    unfold leading at h
    split at h
    · cases h
    · simp only [bind, Except.bind] at h
      cases h1 : padZeros f.prec (bufferSize - buf.length) buf with
      | error e' => rw [h1] at h; cases h; exact padZeros_err _ _ _ _ h1
      | ok b =>
        rw [h1] at h
        simp only at h
        split at h
        · exact padZeros_err _ _ _ _ h
        · cases h
  have hash : ∀ (f : Fmt) buf e, hashed f buf base = .error e → e = .internalBufferExceeded := by
    intro f buf e h
    unfold hashed at h
    split at h
    · simp only at h
      split at h
      · split at h
        · cases h; rfl
        · cases h
      · split at h
        · cases h; rfl
        · cases h
    · cases h
  have sign : ∀ (f : Fmt) buf e, signed f buf neg = .error e → e = .internalBufferExceeded := by
    intro f buf e h
    unfold signed at h
    repeat' split at h
    all_goals cases h
    all_goals rfl
  have fmt : ∀ (f : Fmt) buf, (∃ r, ntoaFormat f buf neg base = .ok r ∧ r.fault = none) ∨
      ntoaFormat f buf neg base = .error .internalBufferExceeded := by
    intro f buf
    unfold ntoaFormat
    simp only [bind, Except.bind]
    cases h1 : leading f buf neg with
    | error e => exact .inr (by rw [lead f buf e h1])
    | ok b1 =>
      simp only
      cases h2 : hashed f b1 base with
      | error e => exact .inr (by rw [hash f b1 e h2])
      | ok b2 =>
        simp only
        cases h3 : signed f b2 neg with
        | error e => exact .inr (by rw [sign f b2 e h3])
        | ok b3 => exact .inl ⟨_, rfl, rfl⟩
  unfold ntoa
  simp only [bind, Except.bind]
  generalize (if v = 0 then { f with flags := { f.flags with hash := false } } else f : Fmt) = g
  by_cases hv : ¬ g.flags.precision = true ∨ v ≠ 0
  · rw [if_pos hv]
    obtain ⟨b, h1, _⟩ := digits_128 base hb g.flags.uppercase v
    rw [h1]
    exact fmt g b
  · rw [if_neg hv]
    exact fmt g []

/-- And widths and precisions up to 253 fit. -/
theorem ntoa_short (f : Fmt) (v : BitVec 128) (neg : Bool) (base : Nat) (hb : 1 < base) (hw : f.width ≤ 253)
    (hp : f.prec ≤ 253) : ∃ r, ntoa f v neg base = .ok r ∧ r.fault = none := by
  have lead : ∀ (f : Fmt) buf, f.width ≤ 253 → f.prec ≤ 253 → buf.length ≤ 128 →
      ∃ b, leading f buf neg = .ok b ∧ b.length ≤ 253 := by
    intro f buf hw hp hl
    unfold leading
    split
    · exact ⟨_, rfl, by omega⟩
    · simp only [bind, Except.bind]
      obtain ⟨b1, h1, h2⟩ := padZeros_ok f.prec (bufferSize - buf.length) buf (by simp only [bufferSize]; omega)
      rw [h1]
      simp only
      split
      · obtain ⟨b2, h3, h4⟩ := padZeros_ok (if f.width ≠ 0 ∧ f.flags.zeropad = true ∧
          (neg = true ∨ f.flags.plus = true ∨ f.flags.space = true) then f.width - 1 else f.width)
          (bufferSize - b1.length) b1 (by simp only [bufferSize]; split <;> omega)
        refine ⟨b2, h3, Nat.le_trans h4 ?_⟩
        split <;> omega
      · exact ⟨_, rfl, by omega⟩
  have hash : ∀ (f : Fmt) buf, buf.length ≤ 253 → ∃ b, hashed f buf base = .ok b ∧ b.length ≤ 255 := by
    intro f buf hl
    unfold hashed
    split
    · simp only
      split
      · have : (buf.take (buf.length - 2)).length ≤ 253 := by simp; omega
        rw [if_neg (by simp only [bufferSize]; omega)]
        exact ⟨_, rfl, by simp only [List.length_append, List.length_cons, List.length_nil]; omega⟩
      · rw [if_neg (by simp only [bufferSize]; omega)]
        exact ⟨_, rfl, by simp only [List.length_append, List.length_cons, List.length_nil]; omega⟩
    · exact ⟨_, rfl, by omega⟩
  have sign : ∀ (f : Fmt) buf, buf.length ≤ 255 → ∃ b, signed f buf neg = .ok b := by
    intro f buf hl
    have : ¬ buf.length ≥ bufferSize := by simp only [bufferSize]; omega
    unfold signed
    rw [if_neg this, if_neg this, if_neg this]
    repeat' split
    all_goals exact ⟨_, rfl⟩
  have fmt : ∀ (f : Fmt) buf, f.width ≤ 253 → f.prec ≤ 253 → buf.length ≤ 128 →
      (∃ r, ntoaFormat f buf neg base = .ok r ∧ r.fault = none) := by
    intro f buf hw hp hl
    unfold ntoaFormat
    simp only [bind, Except.bind]
    obtain ⟨b1, h1, l1⟩ := lead f buf hw hp hl
    obtain ⟨b2, h2, l2⟩ := hash f b1 l1
    obtain ⟨b3, h3⟩ := sign f b2 l2
    rw [h1]
    simp only
    rw [h2]
    simp only
    rw [h3]
    exact ⟨_, rfl, rfl⟩
  unfold ntoa
  simp only [bind, Except.bind]
  have hg1 : (if v = 0 then { f with flags := { f.flags with hash := false } } else f : Fmt).width ≤ 253 := by
    split <;> exact hw
  have hg2 : (if v = 0 then { f with flags := { f.flags with hash := false } } else f : Fmt).prec ≤ 253 := by
    split <;> exact hp
  revert hg1 hg2
  generalize (if v = 0 then { f with flags := { f.flags with hash := false } } else f : Fmt) = g
  intro hg1 hg2
  by_cases hv : ¬ g.flags.precision = true ∨ v ≠ 0
  · rw [if_pos hv]
    obtain ⟨b, h1, h2⟩ := digits_128 base hb g.flags.uppercase v
    rw [h1]
    exact fmt g b hg1 hg2 h2
  · rw [if_neg hv]
    exact fmt g [] hg1 hg2 (by simp)

/-! ## Conversions -/

/-- The argument is converted, or the buffer is too small; the latter not if `short`. -/
def Fine (short : Prop) (r : Except Stop Res) : Prop :=
  (∃ q, r = .ok q ∧ q.fault = none) ∨ (r = .error (.fault .internalBufferExceeded) ∧ ¬ short)

theorem convInt_fine (f : Fmt) (base : Nat) (hb : 1 < base) (s : Bool) (w : Nat) (x : BitVec w) :
    (∃ r, convInt f base (.int s w x) = .ok r ∧ r.fault = none) ∨
      (convInt f base (.int s w x) = .error .internalBufferExceeded ∧ ¬ (f.width ≤ 253 ∧ f.prec ≤ 253)) := by
  obtain ⟨neg, v, hv⟩ : ∃ neg v, intFromAny (.int s w x) = .ok (neg, v) := by
    cases s with
    | true => rw [intFromAny]; split <;> exact ⟨_, _, rfl⟩
    | false => exact ⟨_, _, rfl⟩
  unfold convInt
  rw [hv]
  simp only
  by_cases hs : f.width ≤ 253 ∧ f.prec ≤ 253
  · refine .inl (ntoa_short _ v neg base hb ?_ ?_)
    · exact hs.1
    · exact hs.2
  · rcases ntoa_safe _ v neg base hb with h | h
    · exact .inl h
    · exact .inr ⟨h, hs⟩

theorem convert_ntoa_fine (f : Fmt) (c : Byte) (base : Nat) (upper : Bool) (hc : intConv c = some (base, upper))
    (hb : 1 < base) (s : Bool) (w : Nat) (x : BitVec w) :
    Fine (f.width ≤ 253 ∧ f.prec ≤ 253) (convert f c (.int s w x)) := by
  unfold convert
  rw [hc]
  simp only
  rcases convInt_fine { f with flags := (if base = 10 then { { f.flags with uppercase := upper } with hash := false } else
    { f.flags with uppercase := upper } : Flags) } base hb s w x with ⟨r, h1, h2⟩ | ⟨h1, h2⟩
  · rw [h1]; exact .inl ⟨r, rfl, h2⟩
  · rw [h1]; exact .inr ⟨rfl, h2⟩

theorem convert_fine (f : Fmt) (l : Letter) (hl : ¬ l.Float) (t : Ty) (ht : l.Takes t) (a : Arg) (ha : HasType a t) :
    Fine (f.width ≤ 253 ∧ f.prec ≤ 253) (convert f l.char a) := by
  have int : (l.Takes t ↔ (t = .bool ∨ t = .integer ∨ t = .float ∨ t = .pointer)) → ∃ s w x, a = .int s w x := by
    intro h
    have h := h.1 ht
    cases a with
    | int s w x => exact ⟨s, w, x, rfl⟩
    | str s => have ha : t = .other := ha; rw [ha] at h; simp at h
    | bytes s =>
      have ha : t = .chars ∨ t = .other := ha
      rcases ha with ha | ha <;> (rw [ha] at h; simp at h)
  have num : ∀ base upper, intConv l.char = some (base, upper) → 1 < base →
      (l.Takes t ↔ (t = .bool ∨ t = .integer ∨ t = .float ∨ t = .pointer)) →
      Fine (f.width ≤ 253 ∧ f.prec ≤ 253) (convert f l.char a) := by
    intro base upper h1 h2 h3
    obtain ⟨s, w, x, rfl⟩ := int h3
    exact convert_ntoa_fine f _ base upper h1 h2 s w x
  cases l with
  | a => exact absurd trivial hl
  | A => exact absurd trivial hl
  | F => exact absurd trivial hl
  | f => exact absurd trivial hl
  | e => exact absurd trivial hl
  | E => exact absurd trivial hl
  | g => exact absurd trivial hl
  | G => exact absurd trivial hl
  | d => exact num 10 false (by decide) (by decide) Iff.rfl
  | X => exact num 16 true (by decide) (by decide) Iff.rfl
  | x => exact num 16 false (by decide) (by decide) Iff.rfl
  | B => exact num 2 true (by decide) (by decide) Iff.rfl
  | b => exact num 2 false (by decide) (by decide) Iff.rfl
  | o => exact num 8 false (by decide) (by decide) Iff.rfl
  | s =>
    refine .inl ⟨convStr f a, rfl, ?_⟩
    unfold convStr
    simp only
    split <;> rfl
  | c =>
    refine .inl ⟨outChar f a, rfl, ?_⟩
    cases a <;> rfl
  | H =>
    refine .inl ⟨convHex f true a, rfl, ?_⟩
    cases a with
    | bytes s => unfold convHex; simp only; split <;> rfl
    | _ => rfl
  | h =>
    refine .inl ⟨convHex f false a, rfl, ?_⟩
    cases a with
    | bytes s => unfold convHex; simp only; split <;> rfl
    | _ => rfl
  | p =>
    have h : t = .pointer ∨ t = .integer := ht
    have : ∃ s w x, a = .int s w x := by
      cases a with
      | int s w x => exact ⟨s, w, x, rfl⟩
      | str s => have ha : t = .other := ha; rw [ha] at h; simp at h
      | bytes s =>
        have ha : t = .chars ∨ t = .other := ha
        rcases ha with ha | ha <;> (rw [ha] at h; simp at h)
    obtain ⟨s, w, x, rfl⟩ := this
    have e : convert f Letter.p.char (.int s w x) =
        match convInt { f with flags := { f.flags with zeropad := true, hash := true } } 16 (.int s w x) with
        | .ok r => .ok r
        | .error e => .error (.fault e) := rfl
    rw [e]
    rcases convInt_fine { f with flags := { f.flags with zeropad := true, hash := true } } 16 (by decide) s w x with
      ⟨r, h1, h2⟩ | ⟨h1, h2⟩
    · rw [h1]; exact .inl ⟨r, rfl, h2⟩
    · rw [h1]; exact .inr ⟨rfl, h2⟩

/-! ## Whole formats -/

theorem letter_isConv (l : Letter) : IsConv l.char := by
  cases l <;> exact ⟨by decide, by decide, by decide, by decide, by decide⟩

theorem vloop_parts (ps : List Part) (hok : ∀ p ∈ ps, p.Ok) (hm : ∀ p ∈ ps, p.Modelled) :
    ∀ (n : Nat) (args : List Arg) (tys : List Ty), List.Forall₂ HasType args tys →
    List.Forall₂ Letter.Takes (ps.flatMap Part.letters) tys → (ps.flatMap Part.text).length ≤ n →
    (∃ out len, vloop n none (ps.flatMap Part.text) args = .ok (out, len, none)) ∨
      (vloop n none (ps.flatMap Part.text) args = .error (.fault .internalBufferExceeded) ∧ ∃ p ∈ ps, ¬ p.Short) := by
  induction ps with
  | nil =>
    intro n args tys _ _ _
    exact .inl ⟨[], 0, by cases n <;> rfl⟩
  | cons p ps ih =>
    intro n args tys h1 h2 hn
    have hp := hok p (List.mem_cons_self ..)
    have hpm := hm p (List.mem_cons_self ..)
    have ih := ih (fun q hq => hok q (List.mem_cons_of_mem _ hq)) (fun q hq => hm q (List.mem_cons_of_mem _ hq))
    have go : ∀ (o : List Byte) (k m : Nat) (args : List Arg) (tys : List Ty), List.Forall₂ HasType args tys →
        List.Forall₂ Letter.Takes (ps.flatMap Part.letters) tys → (ps.flatMap Part.text).length ≤ m →
        (∃ out len, after o k (vloop m none (ps.flatMap Part.text) args) = .ok (out, len, none)) ∨
        (after o k (vloop m none (ps.flatMap Part.text) args) = .error (.fault .internalBufferExceeded) ∧
          ∃ q ∈ p :: ps, ¬ q.Short) := by
      intro o k m args tys g1 g2 g3
      rcases ih m args tys g1 g2 g3 with ⟨out, len, e⟩ | ⟨e, q, hq, hs⟩
      · rw [e]; exact .inl ⟨_, _, rfl⟩
      · rw [e]; exact .inr ⟨rfl, q, List.mem_cons_of_mem _ hq, hs⟩
    simp only [List.flatMap_cons, List.length_append] at hn h2 ⊢
    cases p with
    | lit c =>
      cases n with
      | zero => simp [Part.text] at hn
      | succ n =>
        simp only [Part.text, Part.letters, List.length_singleton, List.nil_append, List.cons_append] at hn h2 ⊢
        have e : vloop (n + 1) none (c :: ps.flatMap Part.text) args =
            after [c] 1 (vloop n none (ps.flatMap Part.text) args) := by
          rw [vloop.eq_def]; exact if_pos hp
        rw [e]
        exact go _ _ _ _ _ h1 h2 (by omega)
    | percent =>
      cases n with
      | zero => simp [Part.text] at hn
      | succ n =>
        simp only [Part.text, Part.letters, List.length_cons, List.length_nil, List.nil_append, List.cons_append] at hn h2 ⊢
        have e : vloop (n + 1) none (ch '%' :: ch '%' :: ps.flatMap Part.text) args =
            after [ch '%'] 1 (vloop n none (ps.flatMap Part.text) args) := by
          rw [vloop.eq_def]; simp
        rw [e]
        exact go _ _ _ _ _ h1 h2 (by omega)
    | dir D l =>
      obtain ⟨d, tx, g1, g2⟩ := text_tail D l.char (letter_isConv l)
      cases n with
      | zero => simp [Part.text, g1] at hn
      | succ n =>
        simp only [Part.text, Part.letters, List.nil_append, List.cons_append] at hn h2 ⊢
        have hlen : 0 < (D.text l.char).length := by rw [g1]; simp
        cases h2 with
        | cons k1 k2 =>
          cases h1 with
          | cons j1 j2 =>
            rename_i a args
            rcases convert_fine (fmtOf D) l hpm _ k1 a j1 with ⟨r, e1, e2⟩ | ⟨e1, e2⟩
            · rw [vloop_dir D hp l.char (letter_isConv l) n none _ a args r e1, e2]
              exact go _ _ _ _ _ j2 k2 (by omega)
            · refine .inr ⟨?_, .dir D l, List.mem_cons_self .., e2⟩
              have h3 := parseSpec_eq D hp l.char (letter_isConv l) (ps.flatMap Part.text) (a :: args)
              rw [g1] at h3 ⊢
              simp only [List.tail_cons, List.cons_append] at h3 ⊢
              rw [vloop, if_neg (by simp)]
              simp only
              rw [if_neg g2, h3]
              simp only [e1]
              rfl

end C3.FmtCheck
