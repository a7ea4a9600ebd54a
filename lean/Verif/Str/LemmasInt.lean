import Verif.Str.IntSpec
import Verif.Hex.Lemmas
import Mathlib.Tactic.Ring
import Mathlib.Tactic.Linarith

/-! # Helper lemmas for `to_integer` -/

set_option autoImplicit false

namespace C3.Str
open C3.Codec Spec

theorem pow_pos2 (n : Nat) : (0 : Int) < 2 ^ n := Int.pow_pos (by decide)

theorem pow_split {t : Ty} (h : 0 < t.bits) : (2 : Int) ^ t.bits = 2 * 2 ^ (t.bits - 1) := by
  obtain ⟨n, hn⟩ : ∃ n, t.bits = n + 1 := ⟨t.bits - 1, by omega⟩
  rw [hn, Nat.add_sub_cancel, Int.pow_succ]
  ring

theorem wrap_fits {t : Ty} (h : 0 < t.bits) (v : Int) : Fits t (t.wrap v) := by
  have hp := pow_pos2 t.bits
  unfold Fits Ty.min Ty.max Ty.wrap
  have h1 := Int.emod_nonneg (v + 2 ^ (t.bits - 1)) (show (2 : Int) ^ t.bits ≠ 0 by omega)
  have h2 := Int.emod_lt_of_pos (v + 2 ^ (t.bits - 1)) hp
  have h3 := Int.emod_nonneg v (show (2 : Int) ^ t.bits ≠ 0 by omega)
  have h4 := Int.emod_lt_of_pos v hp
  have h5 := pow_split h
  cases t.signed <;> simp only [Bool.false_eq_true, if_false, if_true] <;> omega

theorem wrap_cong {t : Ty} (v : Int) : ∃ k, t.wrap v = v + k * 2 ^ t.bits := by
  unfold Ty.wrap
  split
  · refine ⟨-((v + 2 ^ (t.bits - 1)) / 2 ^ t.bits), ?_⟩
    have := Int.emod_add_mul_ediv (v + 2 ^ (t.bits - 1)) (2 ^ t.bits)
    linarith
  · refine ⟨-(v / 2 ^ t.bits), ?_⟩
    have := Int.emod_add_mul_ediv v (2 ^ t.bits)
    linarith

/-- Values of the type that differ by a multiple of 2^bits are equal. -/
theorem fits_unique {t : Ty} (h : 0 < t.bits) {a b k : Int} (ha : Fits t a) (hb : Fits t b) (e : a = b + k * 2 ^ t.bits) : a = b := by
  have hp := pow_pos2 t.bits
  have h5 := pow_split h
  unfold Fits Ty.min Ty.max at ha hb
  have hlt : a - b < 2 ^ t.bits ∧ b - a < 2 ^ t.bits := by
    cases hs : t.signed <;> simp only [hs, Bool.false_eq_true, if_false, if_true] at ha hb <;> omega
  have hk : k = 0 := by
    rcases Int.lt_trichotomy k 0 with hk | hk | hk
    · have : k * 2 ^ t.bits ≤ -1 * 2 ^ t.bits := Int.mul_le_mul_of_nonneg_right (by omega) (by omega)
      omega
    · exact hk
    · have : 1 * 2 ^ t.bits ≤ k * 2 ^ t.bits := Int.mul_le_mul_of_nonneg_right (by omega) (by omega)
      omega
  rw [hk] at e
  omega

theorem wrap_of_fits {t : Ty} (h : 0 < t.bits) {v : Int} (hv : Fits t v) : t.wrap v = v := by
  obtain ⟨k, hk⟩ := wrap_cong (t := t) v
  exact fits_unique h (wrap_fits h v) hv hk

theorem zero_fits {t : Ty} (h : 0 < t.bits) : Fits t 0 := by
  have := pow_pos2 (t.bits - 1)
  have := pow_pos2 t.bits
  unfold Fits Ty.min Ty.max
  cases t.signed <;> simp only [Bool.false_eq_true, if_false, if_true] <;> omega

/-! ## Digits -/

theorem byte_all {p : Byte → Prop} (h : ∀ n < 256, p (BitVec.ofNat 8 n)) (b : Byte) : p b := by
  have := h b.toNat b.isLt
  rwa [BitVec.ofNat_toNat, BitVec.setWidth_eq] at this

/-- What `digit` does in base 16. -/
def hexOut (c : Byte) : Except IntFault Nat :=
  if 58 ≤ c.toNat ∧ c.toNat ≤ 63 then .ok (c.toNat - 48)
  else match Hex.digitVal c with
    | some v => .ok v
    | none => .error .MALFORMED_INTEGER

instance : DecidableEq (Except IntFault Nat)
  | .ok a, .ok b => if h : a = b then isTrue (by rw [h]) else isFalse (fun e => h (Except.ok.inj e))
  | .error a, .error b => if h : a = b then isTrue (by rw [h]) else isFalse (fun e => h (Except.error.inj e))
  | .ok _, .error _ => isFalse (fun e => nomatch e)
  | .error _, .ok _ => isFalse (fun e => nomatch e)

theorem digit_16_nat : ∀ n < 256, digit 16 (BitVec.ofNat 8 n) = hexOut (BitVec.ofNat 8 n) := by decide +kernel

theorem digit_16 (c : Byte) : digit 16 c = hexOut c := byte_all (p := fun c => digit 16 c = hexOut c) digit_16_nat c

/-- What it does in the other bases. -/
def lowOut (base : Nat) (c : Byte) : Except IntFault Nat :=
  match Hex.digitVal c with
  | some v => if v < base then .ok v else .error .MALFORMED_INTEGER
  | none => .error .MALFORMED_INTEGER

theorem digit_low_nat : ∀ base < 11, ∀ n < 256, digit base (BitVec.ofNat 8 n) = lowOut base (BitVec.ofNat 8 n) := by decide +kernel

theorem digit_low {base : Nat} (h : base ≤ 10) (c : Byte) : digit base c = lowOut base c :=
  byte_all (p := fun c => digit base c = lowOut base c) (digit_low_nat base (by omega)) c

theorem digit_ok {b : Nat} (hb : BaseOk b) {c : Byte} {v : Nat} (hv : Hex.digitVal c = some v) (hlt : v < b) : digit b c = .ok v := by
  rcases hb with h | rfl
  · rw [digit_low h.2, lowOut, hv]; simp [hlt]
  · rw [digit_16, hexOut, hv]
    have : ¬ (58 ≤ c.toNat ∧ c.toNat ≤ 63) := by
      rintro ⟨h1, h2⟩
      unfold Hex.digitVal at hv
      rw [if_neg (by omega), if_neg (by omega), if_neg (by omega)] at hv
      cases hv
    simp [this]

theorem digit_sound {b : Nat} (hb : BaseOk b) {c : Byte} {v : Nat} (h : digit b c = .ok v)
    (hc : b = 16 → ¬ (58 ≤ c.toNat ∧ c.toNat ≤ 63)) : Hex.digitVal c = some v ∧ v < b := by
  rcases hb with hb | rfl
  · rw [digit_low hb.2, lowOut] at h
    cases hd : Hex.digitVal c with
    | none => rw [hd] at h; simp at h
    | some w =>
      rw [hd] at h
      simp only at h
      split at h
      · simp at h; subst h; exact ⟨rfl, by assumption⟩
      · simp at h
  · rw [digit_16, hexOut, if_neg (hc rfl)] at h
    cases hd : Hex.digitVal c with
    | none => rw [hd] at h; simp at h
    | some w =>
      rw [hd] at h
      simp at h
      subst h
      exact ⟨rfl, Hex.digitVal_lt hd⟩

theorem digit_lt {b : Nat} {c : Byte} {v : Nat} (h : digit b c = .ok v) : v < b := by
  have key : ∀ x : BitVec 8, digit.check b x = .ok v → v < b := by
    intro x hx
    unfold digit.check at hx
    split at hx
    · simp at hx
    · simp at hx; omega
  unfold digit at h
  split at h
  · exact key _ h
  · split at h
    · exact key _ h
    · split at h
      · simp at h
      · exact key _ h

theorem digit_malformed {b : Nat} {c : Byte} {f : IntFault} (h : digit b c = .error f) : f = .MALFORMED_INTEGER := by
  have key : ∀ x : BitVec 8, digit.check b x = .error f → f = .MALFORMED_INTEGER := by
    intro x hx
    unfold digit.check at hx
    split at hx
    · simp at hx; exact hx.symm
    · simp at hx
  unfold digit at h
  split at h
  · exact key _ h
  · split at h
    · exact key _ h
    · split at h
      · simp at h; exact h.symm
      · exact key _ h

/-! ## The loop -/

/-- The sign applied. -/
def signed (neg : Bool) (n : Nat) : Int := if neg then -(n : Int) else n

/-- One step of the loop. -/
def step (t : Ty) (b : Nat) (neg : Bool) (value : Int) (d : Nat) : Except IntFault Int :=
  if neg then if t.wrap (value * b - d) > value then .error .INTEGER_OVERFLOW else .ok (t.wrap (value * b - d))
  else if t.wrap (value * b + d) < value then .error .INTEGER_OVERFLOW else .ok (t.wrap (value * b + d))

theorem digits_cons (t : Ty) (b : Nat) (neg : Bool) (c : Byte) (s : List Byte) (value : Int) :
    digits t b neg (c :: s) value =
      match digit b c with
      | .error f => .error f
      | .ok d =>
        match step t b neg value d with
        | .error f => .error f
        | .ok v => digits t b neg s v := by
  rw [digits]
  cases digit b c with
  | error f => rfl
  | ok d =>
    simp only
    unfold step
    cases neg <;> simp only [Bool.false_eq_true, if_false, if_true] <;> split <;> rfl

theorem digits_append (t : Ty) (b : Nat) (neg : Bool) (s u : List Byte) : ∀ value,
    digits t b neg (s ++ u) value =
      match digits t b neg s value with
      | .error f => .error f
      | .ok v => digits t b neg u v := by
  induction s with
  | nil => intro value; rfl
  | cons c s ih =>
    intro value
    rw [List.cons_append, digits_cons, digits_cons]
    cases digit b c with
    | error f => rfl
    | ok d =>
      simp only
      cases step t b neg value d with
      | error f => rfl
      | ok v => simp only; rw [ih]

theorem signed_step (neg : Bool) (n b d : Nat) :
    signed neg (n * b + d) = if neg then signed neg n * b - d else signed neg n * b + d := by
  cases neg <;> simp [signed] <;> ring

theorem digits_value_lt {b : Nat} {s : List Byte} {n : Nat} (h : Digits b s n) : s ≠ [] := by
  cases h <;> simp

theorem fits_le {t : Ty} (h : 0 < t.bits) {neg : Bool} {m n : Nat} (hmn : m ≤ n) (hf : Fits t (signed neg n)) : Fits t (signed neg m) := by
  have h0 := zero_fits h
  unfold Fits at *
  cases neg <;> simp only [signed, Bool.false_eq_true, if_false, if_true] at * <;> omega

theorem step_ok {t : Ty} (h : 0 < t.bits) {b : Nat} (hb : 2 ≤ b) {neg : Bool} {n d : Nat} (hf : Fits t (signed neg (n * b + d))) :
    step t b neg (signed neg n) d = .ok (signed neg (n * b + d)) := by
  have hle : n ≤ n * b + d := by nlinarith
  have hw := wrap_of_fits h hf
  have hs := signed_step neg n b d
  cases neg with
  | true =>
    simp only [if_true] at hs
    rw [step, if_pos rfl, ← hs, hw, if_neg]
    simp only [signed, if_true]; omega
  | false =>
    simp only [Bool.false_eq_true, if_false] at hs
    rw [step, if_neg (by simp), ← hs, hw, if_neg]
    simp only [signed, Bool.false_eq_true, if_false]; omega

theorem digits_accept {t : Ty} (h : 0 < t.bits) {b : Nat} (hb : BaseOk b) {neg : Bool} {s : List Byte} {n : Nat} (hd : Digits b s n) :
    Fits t (signed neg n) → digits t b neg s 0 = .ok (signed neg n) := by
  have hb2 : 2 ≤ b := by rcases hb with h | h <;> omega
  induction hd with
  | one c v hv hlt =>
    intro hf
    rw [digits_cons, digit_ok hb hv hlt]
    simp only
    have h0 : (0 : Int) = signed neg 0 := by cases neg <;> rfl
    have e : v = 0 * b + v := by omega
    rw [h0, step_ok h hb2 (by rw [← e]; exact hf), ← e]
    rfl
  | more s n c v _ hv hlt ih =>
    intro hf
    have hle : n ≤ n * b + v := by nlinarith
    rw [digits_append, ih (fits_le h hle hf)]
    simp only
    rw [digits_cons, digit_ok hb hv hlt]
    simp only
    rw [step_ok h hb2 hf]
    rfl

/-- What is accepted is right modulo 2^bits. -/
theorem step_cong {t : Ty} {b : Nat} {neg : Bool} {value v : Int} {n d : Nat} (hv : ∃ k, value = signed neg n + k * 2 ^ t.bits)
    (h : step t b neg value d = .ok v) : ∃ k, v = signed neg (n * b + d) + k * 2 ^ t.bits := by
  obtain ⟨k, hk⟩ := hv
  rw [signed_step]
  unfold step at h
  cases neg with
  | true =>
    simp only [if_true] at h ⊢
    split at h
    · cases h
    · simp only [Except.ok.injEq] at h
      obtain ⟨l, hl⟩ := wrap_cong (t := t) (value * b - d)
      refine ⟨k * b + l, ?_⟩
      rw [← h, hl, hk]; ring
  | false =>
    simp only [Bool.false_eq_true, if_false] at h ⊢
    split at h
    · cases h
    · simp only [Except.ok.injEq] at h
      obtain ⟨l, hl⟩ := wrap_cong (t := t) (value * b + d)
      refine ⟨k * b + l, ?_⟩
      rw [← h, hl, hk]; ring

theorem step_fits {t : Ty} (h : 0 < t.bits) {b : Nat} {neg : Bool} {value v : Int} {d : Nat}
    (hs : step t b neg value d = .ok v) : Fits t v := by
  unfold step at hs
  cases neg <;> simp only [Bool.false_eq_true, if_false, if_true] at hs <;> split at hs
  · cases hs
  · simp only [Except.ok.injEq] at hs; rw [← hs]; exact wrap_fits h _
  · cases hs
  · simp only [Except.ok.injEq] at hs; rw [← hs]; exact wrap_fits h _

theorem digits_sound {t : Ty} (h : 0 < t.bits) {b : Nat} (hb : BaseOk b) {neg : Bool} : ∀ (u s : List Byte) (n : Nat) (value v : Int),
    (b = 16 → ∀ c ∈ u, ¬ (58 ≤ c.toNat ∧ c.toNat ≤ 63)) → (s = [] ∧ n = 0 ∨ Digits b s n) → s ++ u ≠ [] → Fits t value →
    (∃ k, value = signed neg n + k * 2 ^ t.bits) → digits t b neg u value = .ok v →
    ∃ m, Digits b (s ++ u) m ∧ Fits t v ∧ ∃ k, v = signed neg m + k * 2 ^ t.bits := by
  intro u
  induction u with
  | nil =>
    intro s n value v _ hs hne hf hk hd
    simp only [digits, Except.ok.injEq] at hd
    subst hd
    rw [List.append_nil] at hne ⊢
    rcases hs with ⟨rfl, -⟩ | hs
    · exact absurd rfl hne
    · exact ⟨n, hs, hf, hk⟩
  | cons c u ih =>
    intro s n value v hc hs hne hf hk hd
    rw [digits_cons] at hd
    cases hdc : digit b c with
    | error f => rw [hdc] at hd; cases hd
    | ok d =>
      rw [hdc] at hd
      simp only at hd
      cases hst : step t b neg value d with
      | error f => rw [hst] at hd; cases hd
      | ok w =>
        rw [hst] at hd
        simp only at hd
        obtain ⟨h1, h2⟩ := digit_sound hb hdc (fun e => hc e c (by simp))
        have hs' : Digits b (s ++ [c]) (n * b + d) := by
          rcases hs with ⟨rfl, rfl⟩ | hs
          · have : 0 * b + d = d := by omega
            rw [this]; exact .one c d h1 h2
          · exact .more s n c d hs h1 h2
        have := ih (s ++ [c]) (n * b + d) w v (fun e x hx => hc e x (by simp [hx])) (.inr hs') (by simp) (step_fits h hst)
          (step_cong hk hst) hd
        simpa using this

/-! ## Overflow -/

theorem digits_last {b : Nat} {s : List Byte} {n : Nat} (h : Digits b s n) :
    ∃ u c m v, s = u ++ [c] ∧ n = m * b + v ∧ Hex.digitVal c = some v ∧ v < b ∧ (u = [] ∧ m = 0 ∨ Digits b u m) := by
  cases h with
  | one c v hv hlt => exact ⟨[], c, 0, n, rfl, by omega, hv, hlt, .inl ⟨rfl, rfl⟩⟩
  | more s n c v hs hv hlt => exact ⟨s, c, n, v, rfl, rfl, hv, hlt, .inr hs⟩

/-- If all but the last digit fit, and the last step wraps to a value on the wrong side, the result is the fault. -/
theorem digits_overflow {t : Ty} (h : 0 < t.bits) {b : Nat} (hb : BaseOk b) {neg : Bool} {u : List Byte} {c : Byte} {m v : Nat}
    (hu : u = [] ∧ m = 0 ∨ Digits b u m) (hv : Hex.digitVal c = some v) (hlt : v < b) (hf : Fits t (signed neg m))
    (hst : step t b neg (signed neg m) v = .error .INTEGER_OVERFLOW) :
    digits t b neg (u ++ [c]) 0 = .error .INTEGER_OVERFLOW := by
  have h0 : (0 : Int) = signed neg 0 := by cases neg <;> rfl
  have hd : digits t b neg u 0 = .ok (signed neg m) := by
    rcases hu with ⟨rfl, rfl⟩ | hu
    · rw [← h0]; rfl
    · exact digits_accept h hb hu hf
  rw [digits_append, hd]
  simp only
  rw [digits_cons, digit_ok hb hv hlt]
  simp only
  rw [hst]

/-- Values just out of range. -/
theorem step_overflow {t : Ty} (h : 0 < t.bits) {b : Nat} (hb : 2 ≤ b) {neg : Bool} {m v : Nat} (hneg : neg = true → t.signed = true)
    (hn : ¬ Fits t (signed neg (m * b + v)))
    (hhi : m * b + v < 2 ^ t.bits + (if t.signed then 0 else 2 ^ t.bits / b)) (hv : v < b) :
    Fits t (signed neg m) ∧ step t b neg (signed neg m) v = .error .INTEGER_OVERFLOW := by
  have hp := pow_pos2 t.bits
  have h5 := pow_split h
  have hcast : ((2 ^ t.bits : Nat) : Int) = 2 ^ t.bits := by simp
  have h2m : 2 * m ≤ m * b := by nlinarith
  have hstep : ∀ x : Int, step t b neg (signed neg m) v =
      (if neg then if t.wrap (signed neg (m * b + v)) > signed neg m then .error .INTEGER_OVERFLOW else .ok (t.wrap (signed neg (m * b + v)))
      else if t.wrap (signed neg (m * b + v)) < signed neg m then .error .INTEGER_OVERFLOW else .ok (t.wrap (signed neg (m * b + v)))) := by
    intro x
    rw [signed_step]
    unfold step
    cases neg <;> simp
  rw [hstep 0]
  obtain ⟨k, hk⟩ := wrap_cong (t := t) (signed neg (m * b + v))
  have hw := wrap_fits h (signed neg (m * b + v))
  cases hsg : t.signed with
  | false =>
    have hneg' : neg = false := by
      cases neg with
      | false => rfl
      | true => rw [hneg rfl] at hsg; cases hsg
    subst hneg'
    rw [hsg] at hhi
    simp only [Bool.false_eq_true, if_false, signed] at *
    have hge : (2 : Int) ^ t.bits ≤ (m * b + v : Nat) := by
      unfold Fits Ty.min Ty.max at hn
      simp only [hsg, Bool.false_eq_true, if_false] at hn
      omega
    have hdiv : 2 ^ t.bits / b ≤ m := by
      have h1 : 2 ^ t.bits / b ≤ (m * b + v) / b := Nat.div_le_div_right (by
        rw [← hcast] at hge; exact Int.ofNat_le.1 hge)
      have h2 : (m * b + v) / b = m := by
        rw [Nat.mul_comm, Nat.mul_add_div (by omega), Nat.div_eq_of_lt hv]; omega
      omega
    have hmlt : m < 2 ^ t.bits := by
      have : 2 ^ t.bits / b ≤ 2 ^ t.bits / 2 := Nat.div_le_div_left hb (by decide)
      omega
    have hwv : t.wrap ((m * b + v : Nat) : Int) = ((m * b + v : Nat) : Int) - 2 ^ t.bits := by
      apply fits_unique h (k := k + 1) hw
      · unfold Fits Ty.min Ty.max
        simp only [hsg, Bool.false_eq_true, if_false]
        omega
      · rw [hk]; ring
    refine ⟨?_, ?_⟩
    · unfold Fits Ty.min Ty.max
      simp only [hsg, Bool.false_eq_true, if_false]
      omega
    · rw [hwv, if_pos (by omega)]
  | true =>
    rw [hsg] at hhi
    simp only [if_true] at hhi
    cases neg with
    | false =>
      simp only [Bool.false_eq_true, if_false, signed] at *
      have hge : (2 : Int) ^ (t.bits - 1) ≤ (m * b + v : Nat) := by
        unfold Fits Ty.min Ty.max at hn
        simp only [hsg, if_true] at hn
        omega
      have hwv : t.wrap ((m * b + v : Nat) : Int) = ((m * b + v : Nat) : Int) - 2 ^ t.bits := by
        apply fits_unique h (k := k + 1) hw
        · unfold Fits Ty.min Ty.max
          simp only [hsg, if_true]
          omega
        · rw [hk]; ring
      refine ⟨?_, ?_⟩
      · unfold Fits Ty.min Ty.max
        simp only [hsg, if_true]
        omega
      · rw [hwv, if_pos (by omega)]
    | true =>
      simp only [if_true, signed] at *
      have hge : (2 : Int) ^ (t.bits - 1) < (m * b + v : Nat) := by
        unfold Fits Ty.min Ty.max at hn
        simp only [hsg, if_true] at hn
        omega
      have hwv : t.wrap (-((m * b + v : Nat) : Int)) = -((m * b + v : Nat) : Int) + 2 ^ t.bits := by
        apply fits_unique h (k := k - 1) hw
        · unfold Fits Ty.min Ty.max
          simp only [hsg, if_true]
          omega
        · rw [hk]; ring
      refine ⟨?_, ?_⟩
      · unfold Fits Ty.min Ty.max
        simp only [hsg, if_true]
        omega
      · rw [hwv, if_pos (by omega)]

/-! ## Blanks, sign, base -/

theorem skipBlank_append (w s : List Byte) (hw : ∀ c ∈ w, c ∈ ascii [' ', '\t']) (hs : ∀ c ∈ s.head?, c ∉ ascii [' ', '\t']) :
    skipBlank (w ++ s) = s := by
  induction w with
  | nil =>
    cases s with
    | nil => rfl
    | cons c s =>
      have := hs c rfl
      simp only [ascii, List.map_cons, List.map_nil, List.mem_cons, List.not_mem_nil, or_false, not_or] at this
      rw [List.nil_append, skipBlank, if_neg]
      simp only [is_blank, Bool.or_eq_true, decide_eq_true_eq, not_or]
      exact this
  | cons c w ih =>
    have := hw c (by simp)
    simp only [ascii, List.map_cons, List.map_nil, List.mem_cons, List.not_mem_nil, or_false] at this
    rw [List.cons_append, skipBlank, if_pos, ih fun x hx => hw x (by simp [hx])]
    simp only [is_blank, Bool.or_eq_true, decide_eq_true_eq]
    exact this

theorem skipBlank_split (s : List Byte) : ∃ w, s = w ++ skipBlank s ∧ ∀ c ∈ w, c ∈ ascii [' ', '\t'] := by
  induction s with
  | nil => exact ⟨[], rfl, by simp⟩
  | cons c s ih =>
    rw [skipBlank]
    split
    · rename_i h
      obtain ⟨w, e, hw⟩ := ih
      refine ⟨c :: w, by rw [List.cons_append, ← e], ?_⟩
      intro x hx
      rcases List.mem_cons.1 hx with rfl | hx
      · simp only [is_blank, Bool.or_eq_true, decide_eq_true_eq] at h
        simp only [ascii, List.map_cons, List.map_nil, List.mem_cons, List.not_mem_nil, or_false]
        exact h
      · exact hw x hx
    · exact ⟨[], rfl, by simp⟩

/-- What comes behind the sign. -/
def body (t : Ty) (base : Nat) (neg : Bool) : List Byte → Except IntFault Int
  | [] => .error .MALFORMED_INTEGER
  | c :: s =>
    if c = 48#8 && base = 10 then
      if s = [] then .ok 0
      else
        match radix base s with
        | (_, []) => .error .MALFORMED_INTEGER
        | (base_used, s) => digits t base_used neg s 0
    else digits t base neg (c :: s) 0

theorem to_integer_eq (t : Ty) (base : Nat) (s : List Byte) :
    to_integer t base s =
      match sign t (skipBlank s) with
      | .error f => .error f
      | .ok (neg, s) => body t base neg s := by
  rw [to_integer]
  cases sign t (skipBlank s) with
  | error f => rfl
  | ok r =>
    obtain ⟨neg, s⟩ := r
    cases s with
    | nil => rfl
    | cons c s => rfl

theorem digitVal_prefix_none : ∀ c ∈ ascii ['x', 'X', 'o', 'O', '+', '-', ' ', '\t'], Hex.digitVal c = none := by decide +kernel

theorem digits_head {b : Nat} {s : List Byte} {n : Nat} (h : Digits b s n) : ∃ c t v, s = c :: t ∧ Hex.digitVal c = some v ∧ v < b := by
  induction h with
  | one c v hv hlt => exact ⟨c, [], v, rfl, hv, hlt⟩
  | more s n c v _ _ _ ih =>
    obtain ⟨d, t, w, rfl, hw⟩ := ih
    exact ⟨d, t ++ [c], w, rfl, hw⟩

theorem digits_mem {b : Nat} {s : List Byte} {n : Nat} (h : Digits b s n) : ∀ c ∈ s, ∃ v, Hex.digitVal c = some v ∧ v < b := by
  induction h with
  | one c v hv hlt => intro d hd; simp at hd; subst hd; exact ⟨v, hv, hlt⟩
  | more s n c v _ hv hlt ih =>
    intro d hd
    rcases List.mem_append.1 hd with hd | hd
    · exact ih d hd
    · simp at hd; subst hd; exact ⟨v, hv, hlt⟩

theorem radix_low {s : List Byte} (hs : ∀ c ∈ s, ∃ v, Hex.digitVal c = some v ∧ v < 10) : radix 10 s = (10, s) := by
  cases s with
  | nil => rfl
  | cons c s =>
    obtain ⟨v, hv, hlt⟩ := hs c (by simp)
    have : ∀ n < 256, (∃ v < 10, Hex.digitVal (BitVec.ofNat 8 n) = some v) →
        BitVec.ofNat 8 n ∉ ([120#8, 88#8, 98#8, 66#8, 111#8, 79#8] : List (BitVec 8)) := by decide +kernel
    have := byte_all (p := fun c => (∃ v < 10, Hex.digitVal c = some v) → c ∉ ([120#8, 88#8, 98#8, 66#8, 111#8, 79#8] : List (BitVec 8)))
      this c ⟨v, hlt, hv⟩
    simp only [List.mem_cons, List.not_mem_nil, or_false, not_or] at this
    simp [radix, this]

/-- The value of a leading zero. -/
theorem digits_zero_cons {b : Nat} {c : Byte} {s : List Byte} {n : Nat} (h0 : Hex.digitVal c = some 0) (h : Digits b (c :: s) n) :
    (s = [] ∧ n = 0) ∨ Digits b s n := by
  generalize e : c :: s = x at h
  induction h generalizing s with
  | one d v hv hlt =>
    simp only [List.cons.injEq] at e
    obtain ⟨rfl, rfl⟩ := e
    rw [h0] at hv
    exact .inl ⟨rfl, by simpa using hv.symm⟩
  | more u m d v hu hv hlt ih =>
    rcases List.eq_nil_or_concat s with rfl | ⟨s', x, rfl⟩
    · exfalso
      obtain ⟨y, t, w, rfl, -⟩ := digits_head hu
      simp at e
    · have e' : (c :: s') ++ [x] = u ++ [d] := by simpa using e
      obtain ⟨e1, e2⟩ := List.append_inj' e' rfl
      simp at e2
      subst e2
      rcases ih e1 with ⟨rfl, rfl⟩ | hd
      · right
        have : 0 * b + v = v := by omega
        rw [this]
        exact .one x v hv hlt
      · right
        rw [List.concat_eq_append]
        exact .more s' m x v hd hv hlt

/-- The digits behind a body, with their base, in terms of the loop. -/
theorem body_eq {t : Ty} {base b : Nat} (hbase : BaseOk base) {neg : Bool} {s : List Byte} {n : Nat} (h : Body base b s n) :
    BaseOk b ∧ ((n = 0 ∧ body t base neg s = .ok 0) ∨
      ∃ u, (Digits b u n) ∧ body t base neg s = digits t b neg u 0) := by
  cases h with
  | plain s n hd =>
    refine ⟨hbase, ?_⟩
    obtain ⟨c, u, v, rfl, hv, hlt⟩ := digits_head hd
    simp only [body]
    by_cases hc : c = 48#8 ∧ base = 10
    · obtain ⟨rfl, rfl⟩ := hc
      rw [if_pos (by simp)]
      rcases digits_zero_cons (by decide) hd with ⟨rfl, rfl⟩ | hu
      · exact .inl ⟨rfl, by simp⟩
      · right
        have hne := digits_value_lt hu
        rw [if_neg hne, radix_low (digits_mem hu)]
        obtain ⟨d, u', w, rfl, -⟩ := digits_head hu
        exact ⟨_, hu, rfl⟩
    · rw [if_neg (by simpa using hc)]
      exact .inr ⟨_, hd, rfl⟩
  | hex x s n hb hx hd =>
    refine ⟨.inr rfl, .inr ⟨s, hd, ?_⟩⟩
    obtain ⟨d, u', w, rfl, -⟩ := digits_head hd
    subst hb
    have hx : x = 120#8 ∨ x = 88#8 := by simpa [ascii] using hx
    unfold body
    rcases hx with rfl | rfl <;> simp [radix]
  | bin x s n hb hx hd =>
    refine ⟨.inl (by omega), .inr ⟨s, hd, ?_⟩⟩
    obtain ⟨d, u', w, rfl, -⟩ := digits_head hd
    subst hb
    have hx : x = 98#8 ∨ x = 66#8 := by simpa [ascii] using hx
    unfold body
    rcases hx with rfl | rfl <;> simp [radix]
  | oct x s n hb hx hd =>
    refine ⟨.inl (by omega), .inr ⟨s, hd, ?_⟩⟩
    obtain ⟨d, u', w, rfl, -⟩ := digits_head hd
    subst hb
    have hx : x = 111#8 ∨ x = 79#8 := by simpa [ascii] using hx
    unfold body
    rcases hx with rfl | rfl <;> simp [radix]

theorem body_head {base b : Nat} {s : List Byte} {n : Nat} (h : Body base b s n) :
    ∃ c u v, s = c :: u ∧ Hex.digitVal c = some v := by
  cases h with
  | plain s n hd => obtain ⟨c, u, v, e, hv, -⟩ := digits_head hd; exact ⟨c, u, v, e, hv⟩
  | hex x s n => exact ⟨_, _, 0, rfl, by decide⟩
  | bin x s n => exact ⟨_, _, 0, rfl, by decide⟩
  | oct x s n => exact ⟨_, _, 0, rfl, by decide⟩

/-- What `to_integer` does with a text of a number. -/
theorem to_integer_reads {t : Ty} (hbits : 0 < t.bits) {base b : Nat} {s : List Byte} {v : Int} (h : Reads base b s v) :
    (∃ neg n body', v = signed neg n ∧ Body base b body' n ∧ (neg = true → t.signed = true) ∧ to_integer t base s = body t base neg body') ∨
    (t.signed = false ∧ v ≤ 0 ∧ 45#8 ∈ s ∧ to_integer t base s = .error .NEGATIVE_VALUE) := by
  obtain ⟨w, sg, bd, n, rfl, hw, hb, hsg⟩ := h
  obtain ⟨c, u, d, rfl, hd⟩ := body_head hb
  have hc : c ∉ ascii ['x', 'X', 'o', 'O', '+', '-', ' ', '\t'] := fun hc => by
    rw [digitVal_prefix_none c hc] at hd; cases hd
  simp only [ascii, List.map_cons, List.map_nil, List.mem_cons, List.not_mem_nil, or_false, not_or] at hc
  have hcs : c ≠ 43#8 ∧ c ≠ 45#8 ∧ c ≠ 32#8 ∧ c ≠ 9#8 := ⟨hc.2.2.2.2.1, hc.2.2.2.2.2.1, hc.2.2.2.2.2.2.1, hc.2.2.2.2.2.2.2⟩
  have hmin : t.min = 0 ↔ t.signed = false := by
    have := pow_pos2 (t.bits - 1)
    unfold Ty.min
    cases t.signed <;> simp <;> omega
  have hskip : skipBlank (w ++ (sg ++ c :: u)) = sg ++ c :: u := by
    apply skipBlank_append w _ hw
    rcases hsg with ⟨hsg, -⟩ | ⟨rfl, -⟩
    · simp only [List.mem_cons, List.not_mem_nil, or_false] at hsg
      rcases hsg with rfl | rfl
      · intro x hx
        simp at hx
        subst hx
        simp [ascii, hcs]
      · intro x hx
        simp [ascii] at hx
        subst hx
        decide
    · intro x hx
      simp [ascii] at hx
      subst hx
      decide
  rw [to_integer_eq, hskip]
  rcases hsg with ⟨hsg, rfl⟩ | ⟨rfl, rfl⟩
  · left
    refine ⟨false, n, c :: u, rfl, hb, by simp, ?_⟩
    simp only [List.mem_cons, List.not_mem_nil, or_false] at hsg
    rcases hsg with rfl | rfl
    · rw [List.nil_append, sign, if_neg hcs.2.1, if_neg hcs.1]
    · rfl
  · have e : ascii ['-'] ++ c :: u = 45#8 :: c :: u := rfl
    rw [e, sign, if_pos rfl]
    by_cases hm : t.min = 0
    · right
      rw [if_pos hm]
      exact ⟨hmin.1 hm, by omega, by simp [ascii], rfl⟩
    · left
      rw [if_neg hm]
      refine ⟨true, n, c :: u, rfl, hb, fun _ => ?_, rfl⟩
      cases hs : t.signed with
      | true => rfl
      | false => exact absurd (hmin.2 hs) hm

end C3.Str
