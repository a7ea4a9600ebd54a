import Verif.IntLiteral.Spec
import Verif.Bigint.LemmasString
import Mathlib.Tactic.IntervalCases

/-! Helper lemmas for integer literals. -/

namespace C3.IntLiteral
open C3.Bigint

theorem char_eq_of_toNat (c : Char) (n : Nat) (h : c.toNat = n) : c = Char.ofNat n := by
  subst h; exact (Char.ofNat_toNat c).symm

def hexChars : List Char := "0123456789abcdefABCDEF".toList

theorem char_le_iff (a b : Char) : a ≤ b ↔ a.toNat ≤ b.toNat := Iff.rfl

theorem mem_hexChars {c : Char} {d : Nat} (h : digitValue c = some d) : c ∈ hexChars := by
  unfold digitValue at h
  simp only [char_le_iff] at h
  have e : ∀ n, c.toNat = n → Char.ofNat n ∈ hexChars → c ∈ hexChars := by
    intro n h1 h2; rw [char_eq_of_toNat c n h1]; exact h2
  have k0 : '0'.toNat = 48 := rfl
  have k9 : '9'.toNat = 57 := rfl
  have ka : 'a'.toNat = 97 := rfl
  have kf : 'f'.toNat = 102 := rfl
  have kA : 'A'.toNat = 65 := rfl
  have kF : 'F'.toNat = 70 := rfl
  rw [k0, k9, ka, kf, kA, kF] at h
  split at h
  · rename_i hh
    obtain ⟨h1, h2⟩ := hh
    generalize hn : c.toNat = n at h1 h2
    interval_cases n <;> exact e _ hn (by decide)
  · split at h
    · rename_i hh
      obtain ⟨h1, h2⟩ := hh
      generalize hn : c.toNat = n at h1 h2
      interval_cases n <;> exact e _ hn (by decide)
    · split at h
      · rename_i hh
        obtain ⟨h1, h2⟩ := hh
        generalize hn : c.toNat = n at h1 h2
        interval_cases n <;> exact e _ hn (by decide)
      · simp at h

theorem hexChars_low : ∀ c ∈ hexChars, low c ≠ 'u'.toNat ∧ low c ≠ 'l'.toNat ∧ low c ≠ 'i'.toNat ∧
    low c ≠ '_'.toNat ||| 32 := by decide

theorem hexChars_conv : ∀ c ∈ hexChars, ∃ d, digitValue c = some d ∧ d < 16 ∧
    char_hex_to_nibble c = d ∧ (d < 10 → char_minus_zero c = d) := by decide

theorem under_low : low '_' ≠ 'u'.toNat ∧ low '_' ≠ 'l'.toNat ∧ low '_' ≠ 'i'.toNat ∧
    low '_' = '_'.toNat ||| 32 := by decide

theorem digitsOf_cons_digit {c : Char} {d : Nat} (h : digitValue c = some d) (cs : List Char) :
    digitsOf (c :: cs) = d :: digitsOf cs := by
  simp [digitsOf, h]

theorem digitsOf_cons_under (cs : List Char) : digitsOf ('_' :: cs) = digitsOf cs := by
  have : digitValue '_' = none := by decide
  simp [digitsOf, this]

theorem foldl_mono (b : Nat) (hb : 1 ≤ b) (ds : List Nat) (n : Nat) :
    n ≤ ds.foldl (fun acc d => acc * b + d) n := by
  induction ds generalizing n with
  | nil => exact Nat.le_refl _
  | cons d ds ih =>
    refine Nat.le_trans ?_ (ih _)
    nlinarith

theorem high_gt (x : Int128) (sh : Nat) (hsh : sh ≤ 64) :
    x.high > UINT64_MAX >>> sh ↔ 2 ^ 128 ≤ x.u * 2 ^ sh := by
  have h1 : (UINT64_MAX >>> sh).toNat = 2 ^ (64 - sh) - 1 := by
    rw [BitVec.toNat_ushiftRight, Nat.shiftRight_eq_div_pow]
    unfold UINT64_MAX
    rw [BitVec.toNat_allOnes]
    have e : (2 : Nat) ^ 64 = 2 ^ (64 - sh) * 2 ^ sh := by rw [← pow_add]; congr 1; omega
    have hp : 0 < 2 ^ sh := Nat.two_pow_pos sh
    have hp' : 0 < 2 ^ (64 - sh) := Nat.two_pow_pos _
    rw [e]
    generalize 2 ^ sh = p at *
    generalize 2 ^ (64 - sh) = q at *
    rw [Nat.div_eq_iff (by omega)]
    constructor
    · rw [Nat.sub_mul]; omega
    · rw [Nat.sub_mul]
      have : p ≤ q * p := Nat.le_mul_of_pos_left _ hp'
      omega
  show (UINT64_MAX >>> sh).toNat < x.high.toNat ↔ _
  rw [h1]
  have e : (2 : Nat) ^ 128 = 2 ^ (64 - sh) * 2 ^ 64 * 2 ^ sh := by
    rw [← pow_add, ← pow_add]; congr 1; omega
  have hp : 0 < 2 ^ sh := Nat.two_pow_pos sh
  have hq : 0 < 2 ^ (64 - sh) := Nat.two_pow_pos _
  rw [e, Nat.mul_le_mul_right_iff hp]
  have hu : x.u = x.high.toNat * 2 ^ 64 + x.low.toNat := rfl
  have hl := x.low.isLt
  generalize 2 ^ (64 - sh) = q at *
  rw [hu]
  omega

/-- The digit loop of the power-of-two bases. -/
theorem scanPow_body (b : Base) (sh : Nat) (conv : Char → Int) (hsh : sh ≤ 64) (hr : b.radix = 2 ^ sh)
    (hconv : ∀ c ∈ hexChars, ∀ d, digitValue c = some d → d < b.radix → conv c = d)
    (body suf : List Char) (hb : ∀ c ∈ body, IsDigit b c ∨ c = '_') :
    ∀ (s : Scan) (n : Nat), s.i.u = n % 2 ^ 128 → s.wrapped = decide (2 ^ 128 ≤ n) →
    ∃ (i : Int128) (k : Nat) (w : Bool),
      i.u = (digitsOf body).foldl (fun acc d => acc * b.radix + d) n % 2 ^ 128 ∧
      k = s.count + (digitsOf body).length ∧
      w = decide (2 ^ 128 ≤ (digitsOf body).foldl (fun acc d => acc * b.radix + d) n) ∧
      scanPow sh conv s (body ++ suf) =
        scanPow sh conv { s with i := i, count := k, wrapped := w } suf := by
  induction body with
  | nil =>
    intro s n h1 h2
    exact ⟨s.i, s.count, s.wrapped, h1, rfl, h2, rfl⟩
  | cons c cs ih =>
    intro s n h1 h2
    have ih := ih (fun c hc => hb c (List.mem_cons_of_mem _ hc))
    rcases hb c List.mem_cons_self with ⟨d, hd, hlt⟩ | rfl
    · have hmem := mem_hexChars hd
      obtain ⟨l1, l2, l3, l4⟩ := hexChars_low c hmem
      have hcv := hconv c hmem d hd hlt
      rw [digitsOf_cons_digit hd]
      simp only [List.foldl_cons, List.length_cons]
      obtain ⟨j, hj, hju⟩ := shl64_u s.i (BitVec.ofNat 64 sh)
      rw [ofNat_toNat64 (by omega)] at hju
      have hdn : (BitVec.ofInt 64 (conv c)).toNat = d := by
        rw [hcv, BitVec.ofInt_natCast, ofNat_toNat64]
        have : b.radix ≤ 16 := by cases b <;> decide
        omega
      have hu : (i128_add64 j (BitVec.ofInt 64 (conv c))).u = (n * b.radix + d) % 2 ^ 128 := by
        rw [u_add64, hju, h1, hdn, hr]
        simp only [Nat.mod_add_mod, Nat.mod_mul_mod]
      have hw : (if s.i.high > UINT64_MAX >>> sh then true else s.wrapped)
          = decide (2 ^ 128 ≤ n * b.radix + d) := by
        have hg := high_gt s.i sh hsh
        by_cases hn : 2 ^ 128 ≤ n
        · have e1 : 2 ^ 128 ≤ n * b.radix + d := by
            have : 1 ≤ b.radix := by cases b <;> decide
            nlinarith
          rw [h2, decide_eq_true hn, decide_eq_true e1]; exact ite_self _
        · have e2 : s.i.u = n := by rw [h1, Nat.mod_eq_of_lt (by omega)]
          rw [e2, ← hr] at hg
          have e3 : (2 ^ 128 ≤ n * b.radix + d) ↔ 2 ^ 128 ≤ n * b.radix := by
            have hdv : (2 : Nat) ^ 128 = 2 ^ (128 - sh) * b.radix := by
              rw [hr, ← pow_add]; congr 1; omega
            rw [hdv]
            generalize 2 ^ (128 - sh) = q
            constructor
            · intro h
              apply Nat.mul_le_mul_right
              by_contra hcon
              have : (n + 1) * b.radix ≤ q * b.radix := Nat.mul_le_mul_right _ (by omega)
              rw [Nat.add_mul] at this
              omega
            · intro h; omega
          rw [h2]
          simp only [e3]
          by_cases hx : s.i.high > UINT64_MAX >>> sh
          · rw [if_pos hx]; symm; rw [decide_eq_true_iff]; exact hg.1 hx
          · rw [if_neg hx, decide_eq_false hn]
            symm; rw [decide_eq_false_iff_not]; exact fun h => hx (hg.2 h)
      obtain ⟨i, k, w, hi, hk, hw', hs⟩ := ih { s with
          i := i128_add64 j (BitVec.ofInt 64 (conv c)),
          wrapped := (if s.i.high > UINT64_MAX >>> sh then true else s.wrapped),
          count := s.count + 1 } (n * b.radix + d) hu hw
      refine ⟨i, k, w, hi, by rw [hk]; simp only; omega, hw', ?_⟩
      rw [List.cons_append, scanPow, if_neg l1, if_neg (by simp only [not_or]; exact ⟨l2, l3⟩), if_neg l4]
      exact bind_of hj hs
    · obtain ⟨i, k, w, hi, hk, hw', hs⟩ := ih s n h1 h2
      rw [digitsOf_cons_under]
      refine ⟨i, k, w, hi, hk, hw', ?_⟩
      obtain ⟨l1, l2, l3, l4⟩ := under_low
      rw [List.cons_append, scanPow, if_neg l1, if_neg (by simp only [not_or]; exact ⟨l2, l3⟩), if_pos l4]
      exact hs

/-- The decimal digit loop.  Only one direction of the wrap test holds. -/
theorem scanDec_body (body suf : List Char) (hb : ∀ c ∈ body, IsDigit .dec c ∨ c = '_') :
    ∀ (s : Scan) (n : Nat), s.i.u = n % 2 ^ 128 → (n < 2 ^ 128 → s.wrapped = false) →
    ∃ (i : Int128) (w : Bool),
      i.u = (digitsOf body).foldl (fun acc d => acc * 10 + d) n % 2 ^ 128 ∧
      ((digitsOf body).foldl (fun acc d => acc * 10 + d) n < 2 ^ 128 → w = false) ∧
      scanDec s (body ++ suf) = scanDec { s with i := i, wrapped := w } suf := by
  induction body with
  | nil =>
    intro s n h1 h2
    exact ⟨s.i, s.wrapped, h1, h2, rfl⟩
  | cons c cs ih =>
    intro s n h1 h2
    have ih := ih (fun c hc => hb c (List.mem_cons_of_mem _ hc))
    rcases hb c List.mem_cons_self with ⟨d, hd, hlt⟩ | rfl
    · have hmem := mem_hexChars hd
      obtain ⟨l1, l2, l3, l4⟩ := hexChars_low c hmem
      obtain ⟨d', e1, e2, e3, e4⟩ := hexChars_conv c hmem
      rw [hd, Option.some.injEq] at e1
      subst e1
      have hlt' : d < 10 := hlt
      have hcv := e4 hlt'
      rw [digitsOf_cons_digit hd]
      simp only [List.foldl_cons]
      have hdn : (BitVec.ofInt 64 (char_minus_zero c)).toNat = d := by
        rw [hcv, BitVec.ofInt_natCast, ofNat_toNat64 (by omega)]
      have h10 : (10 : BitVec 64).toNat = 10 := rfl
      have hu : (i128_add64 (i128_mult64 s.i 10) (BitVec.ofInt 64 (char_minus_zero c))).u
          = (n * 10 + d) % 2 ^ 128 := by
        rw [u_add64, u_mult64', h1, hdn, h10]
        omega
      generalize hj : i128_add64 (i128_mult64 s.i 10) (BitVec.ofInt 64 (char_minus_zero c)) = j at hu
      obtain ⟨i, w, hi, hw, hs⟩ := ih { s with
          i := j, wrapped := if !s.wrapped && s.i.high > j.high then true else s.wrapped }
          (n * 10 + d) hu (by
            intro hn
            have hn' : n < 2 ^ 128 := by omega
            rw [h2 hn']
            have e5 : s.i.u = n := by rw [h1, Nat.mod_eq_of_lt hn']
            have e6 : j.u = n * 10 + d := by rw [hu, Nat.mod_eq_of_lt hn]
            have : ¬ s.i.high > j.high := by
              show ¬ j.high.toNat < s.i.high.toNat
              have q1 : s.i.u = s.i.high.toNat * 2 ^ 64 + s.i.low.toNat := rfl
              have q2 : j.u = j.high.toNat * 2 ^ 64 + j.low.toNat := rfl
              have := s.i.low.isLt
              have := j.low.isLt
              omega
            simp [this])
      refine ⟨i, w, hi, hw, ?_⟩
      rw [List.cons_append, scanDec, if_neg l1, if_neg (by simp only [not_or]; exact ⟨l2, l3⟩), if_neg l4]
      simp only [hj]
      exact hs
    · obtain ⟨i, w, hi, hw, hs⟩ := ih s n h1 h2
      rw [digitsOf_cons_under]
      refine ⟨i, w, hi, hw, ?_⟩
      obtain ⟨l1, l2, l3, l4⟩ := under_low
      rw [List.cons_append, scanDec, if_neg l1, if_neg (by simp only [not_or]; exact ⟨l2, l3⟩), if_pos l4]
      exact hs

theorem go_spec (ds : List Char) (hd : ∀ c ∈ ds, '0' ≤ c ∧ c ≤ '9') (i : Nat) :
    let w := (ds.map fun c => c.toNat - '0'.toNat).foldl (fun acc d => acc * 10 + d) i
    read_num_type.go i ds = w ∨ (read_num_type.go i ds > 1024 ∧ w > 1024) := by
  induction ds generalizing i with
  | nil => left; rfl
  | cons c cs ih =>
    have hc := hd c List.mem_cons_self
    rw [char_le_iff, char_le_iff] at hc
    have k0 : '0'.toNat = 48 := rfl
    have k9 : '9'.toNat = 57 := rfl
    rw [k0, k9] at hc
    simp only [List.map_cons, List.foldl_cons]
    rw [read_num_type.go]
    by_cases hi : (i : Int) * 10 > 1024
    · rw [if_pos hi]
      right
      refine ⟨hi, ?_⟩
      have := foldl_mono 10 (by omega) (cs.map fun c => c.toNat - '0'.toNat) (i * 10 + (c.toNat - '0'.toNat))
      omega
    · rw [if_neg hi]
      have ih := ih (fun c hc => hd c (List.mem_cons_of_mem _ hc)) (i * 10 + (c.toNat - '0'.toNat))
      have e : (i : Int) * 10 + ((c.toNat : Int) - 48) = ((i * 10 + (c.toNat - '0'.toNat) : Nat) : Int) := by
        rw [k0]; omega
      rw [e]
      exact ih

/-- What reading a suffix leaves in `type_bits`: the written width (0 for none), or something
above 128 when the written width is. -/
def SuffixBits (s : Suffix) (r : Int) : Prop :=
  match suffixWidth s with
  | Option.none => r = 0
  | some w => r = w ∨ (r > 128 ∧ w > 128)

theorem read_num_spec (w : Nat) (ds : List Char) (h1 : ds ≠ []) (h2 : ds.head? ≠ some '0')
    (h3 : ∀ c ∈ ds, '0' ≤ c ∧ c ≤ '9')
    (h4 : positional 10 (ds.map fun c => c.toNat - '0'.toNat) = w) :
    read_num_type ds = w ∨ (read_num_type ds > 128 ∧ w > 128) := by
  unfold read_num_type
  rw [if_neg]
  · have := go_spec ds h3 0
    unfold positional at h4
    simp only [h4] at this
    rcases this with h | h
    · left; exact h
    · right; exact ⟨by have := h.1; simp only [Nat.cast_zero] at this; omega, by omega⟩
  · intro h
    cases ds with
    | nil => exact h1 rfl
    | cons c cs => simp at h h2; exact h2 h

theorem sized_bits (a : Char) (ds : List Char) (u : Bool) (w : Option Nat)
    (ha : if u then a = 'u' ∨ a = 'U' else a = 'i' ∨ a = 'I')
    (hw : match w with
       | Option.none => ds = []
       | some w => ds ≠ [] ∧ ds.head? ≠ some '0' ∧ (∀ c ∈ ds, '0' ≤ c ∧ c ≤ '9') ∧
          positional 10 (ds.map fun c => c.toNat - '0'.toNat) = w) :
    SuffixBits (.sized u w) (read_int_suffix a ds) := by
  have hr : read_int_suffix a ds = read_num_type ds := by
    unfold read_int_suffix
    cases u
    · rw [if_pos]
      rcases ha with h | h <;> subst h <;> decide
    · have k1 : low a ≠ 'i'.toNat ∧ low a ≠ 'l'.toNat ∧ low a = 'u'.toNat := by
        rcases ha with h | h <;> subst h <;> decide
      rw [if_neg k1.1, if_neg k1.2.1, if_pos k1.2.2]
      split
      · rename_i d
        rw [if_neg]
        cases w with
        | none => simp at hw
        | some w =>
          have := hw.2.2.1 d List.mem_cons_self
          rw [char_le_iff, char_le_iff] at this
          have hm : d ∈ hexChars := mem_hexChars (d := d.toNat - 48) (by
            unfold digitValue; rw [if_pos (by rw [char_le_iff, char_le_iff]; exact this)]; rfl)
          exact (hexChars_low d hm).2.1
      · rfl
  rw [hr]
  cases w with
  | none =>
    show _ = (0 : Int)
    have hw' : ds = [] := hw
    subst hw'; rfl
  | some w => exact read_num_spec w ds hw.1 hw.2.1 hw.2.2.1 hw.2.2.2

/-- Every suffix spelling is empty or begins with a letter that decides the sign. -/
theorem suffix_shape (b : Base) (s : Suffix) (suf : List Char) (h : s.Spells suf) :
    (suf = [] ∧ s = .none) ∨
    ∃ a rest, suf = a :: rest ∧ SuffixBits s (read_int_suffix a rest) ∧
      ((low a = 'u'.toNat ∧ isUnsigned b s = true) ∨
       (low a ≠ 'u'.toNat ∧ (low a = 'l'.toNat ∨ low a = 'i'.toNat) ∧ isUnsigned b s = false)) := by
  cases s with
  | none => left; exact ⟨h, rfl⟩
  | l =>
    right
    rcases h with h | h <;> subst h
    · exact ⟨'l', [], rfl, Or.inl (by decide), Or.inr ⟨by decide, by decide, rfl⟩⟩
    · exact ⟨'L', [], rfl, Or.inl (by decide), Or.inr ⟨by decide, by decide, rfl⟩⟩
  | ul =>
    right
    obtain ⟨a, c, rfl, ha, hc⟩ := h
    refine ⟨a, [c], rfl, Or.inl ?_, Or.inl ?_⟩
    · rcases ha with h | h <;> rcases hc with h' | h' <;> subst h h' <;> decide
    · rcases ha with h | h <;> subst h <;> exact ⟨by decide, rfl⟩
  | sized u w =>
    right
    obtain ⟨a, ds, rfl, ha, hw⟩ := h
    refine ⟨a, ds, rfl, sized_bits a ds u w ha hw, ?_⟩
    cases u
    · right
      refine ⟨?_, ?_, rfl⟩ <;> rcases ha with h | h <;> subst h <;> decide
    · left
      refine ⟨?_, rfl⟩
      rcases ha with h | h <;> subst h <;> decide

theorem scanPow_suffix (b : Base) (hb : b ≠ .dec) (sh conv) (s : Suffix) (suf : List Char)
    (h : s.Spells suf)
    (st : Scan) (h0 : st.type_bits = 0) (h1 : st.is_unsigned = true) :
    ∃ r, SuffixBits s r ∧ scanPow sh conv st suf =
      some { st with type_bits := r, is_unsigned := isUnsigned b s } := by
  rcases suffix_shape b s suf h with ⟨rfl, rfl⟩ | ⟨a, rest, rfl, hr, hu⟩
  · refine ⟨0, rfl, ?_⟩
    rw [scanPow]
    have : isUnsigned b .none = true := by simp [isUnsigned, hb]
    rw [this]
    cases st; simp_all
  · refine ⟨_, hr, ?_⟩
    rw [scanPow]
    rcases hu with ⟨e1, e2⟩ | ⟨e1, e2, e3⟩
    · rw [if_pos e1, e2]
    · rw [if_neg e1, if_pos e2, e3]

theorem scanDec_suffix (s : Suffix) (suf : List Char) (h : s.Spells suf)
    (st : Scan) (h0 : st.type_bits = 0) (h1 : st.is_unsigned = false) :
    ∃ r, SuffixBits s r ∧ scanDec st suf =
      { st with type_bits := r, is_unsigned := isUnsigned .dec s } := by
  rcases suffix_shape .dec s suf h with ⟨rfl, rfl⟩ | ⟨a, rest, rfl, hr, hu⟩
  · refine ⟨0, rfl, ?_⟩
    rw [scanDec]
    have : isUnsigned .dec .none = false := by simp [isUnsigned]
    rw [this]
    cases st; simp_all
  · refine ⟨_, hr, ?_⟩
    rw [scanDec]
    rcases hu with ⟨e1, e2⟩ | ⟨e1, e2, e3⟩
    · rw [if_pos e1, e2]
    · rw [if_neg e1, if_pos e2, e3]

theorem body_length (b : Base) (body : List Char) (h : IsBody b body) : 1 ≤ (digitsOf body).length := by
  obtain ⟨⟨c, cs, rfl, d, hd, -⟩, -⟩ := h
  rw [digitsOf_cons_digit hd]; simp

/-- What the scanning loops leave behind. -/
theorem parse_spec (cint : Nat) (b : Base) (pre body suf : List Char) (s : Suffix)
    (hpre : pre ∈ b.prefixes) (hbody : IsBody b body) (hs : s.Spells suf) :
    ∃ st : Scan, parse_integer cint (pre ++ body ++ suf) = some (finish cint b.digitBits st) ∧
      st.i.u = spelled b body % 2 ^ 128 ∧ st.is_unsigned = isUnsigned b s ∧
      SuffixBits s st.type_bits ∧
      (b ≠ .dec → st.count = (digitsOf body).length ∧
        st.wrapped = decide (2 ^ 128 ≤ spelled b body)) ∧
      (b = .dec → st.count = 0 ∧ (spelled b body < 2 ^ 128 → st.wrapped = false)) := by
  obtain ⟨⟨c, cs, hc, hdig⟩, hall⟩ := hbody
  by_cases hb : b = .dec
  · subst hb
    have hp : pre = [] := by simpa [Base.prefixes] using hpre
    subst hp
    rw [List.nil_append]
    obtain ⟨i, w, h1, h2, h3⟩ := scanDec_body body suf hall { is_unsigned := false } 0 rfl (fun _ => rfl)
    obtain ⟨r, h4, h5⟩ := scanDec_suffix s suf hs
      { i := i, is_unsigned := false, wrapped := w } rfl rfl
    have hsp : (digitsOf body).foldl (fun acc d => acc * 10 + d) 0 = spelled .dec body := rfl
    rw [hsp] at h1 h2
    refine ⟨{ i := i, is_unsigned := isUnsigned .dec s, type_bits := r, wrapped := w },
      ?_, h1, rfl, h4, fun h => absurd rfl h, fun _ => ⟨rfl, h2⟩⟩
    unfold parse_integer
    rw [h3, h5]
    have hsel : (if (body ++ suf).length > 2 then low ((body ++ suf).getD 1 (Char.ofNat 0)) else '0'.toNat)
        ∉ ['x'.toNat, 'o'.toNat, 'b'.toNat] := by
      split
      · rename_i hlen
        have hdec : ∀ e, IsDigit .dec e ∨ e = '_' → low e ∉ ['x'.toNat, 'o'.toNat, 'b'.toNat] := by
          rintro e (⟨d, hd, hlt⟩ | rfl)
          · have hm := mem_hexChars hd
            have : ∀ e ∈ hexChars, ∀ d, digitValue e = some d → d < 10 →
                low e ∉ ['x'.toNat, 'o'.toNat, 'b'.toNat] := by decide
            exact this e hm d hd hlt
          · decide
        cases cs with
        | nil =>
          subst hc
          rcases suffix_shape .dec s suf hs with ⟨rfl, -⟩ | ⟨a, rest, rfl, -, hu⟩
          · simp at hlen
          · show low a ∉ _
            rcases hu with ⟨e, -⟩ | ⟨-, e | e, -⟩ <;> rw [e] <;> decide
        | cons e es =>
          subst hc
          exact hdec e (hall e (by simp))
      · decide
    simp only [List.mem_cons, List.not_mem_nil, or_false, not_or] at hsel
    rw [if_neg hsel.1, if_neg hsel.2.1, if_neg hsel.2.2]
    rfl
  · have hlen : (pre ++ body ++ suf).length > 2 := by
      have hp2 : pre.length = 2 := by
        revert hpre hb; cases b <;> simp [Base.prefixes] <;> rintro (rfl | rfl) <;> rfl
      subst hc
      simp only [List.length_append, hp2, List.length_cons]; omega
    have main : ∀ (sh : Nat) (conv : Char → Int), sh ≤ 64 → b.radix = 2 ^ sh →
        (∀ c ∈ hexChars, ∀ d, digitValue c = some d → d < b.radix → conv c = d) →
        ∃ st : Scan, scanPow sh conv { is_unsigned := true } (body ++ suf) = some st ∧
          st.i.u = spelled b body % 2 ^ 128 ∧ st.is_unsigned = isUnsigned b s ∧
          SuffixBits s st.type_bits ∧ st.count = (digitsOf body).length ∧
          st.wrapped = decide (2 ^ 128 ≤ spelled b body) := by
      intro sh conv h1 h2 h3
      obtain ⟨i, k, w, e1, e2, e3, e4⟩ := scanPow_body b sh conv h1 h2 h3 body suf hall
        { is_unsigned := true } 0 rfl (decide_eq_false (by omega)).symm
      obtain ⟨r, e5, e6⟩ := scanPow_suffix b hb sh conv s suf hs
        { i := i, is_unsigned := true, count := k, wrapped := w } rfl rfl
      have hsp : (digitsOf body).foldl (fun acc d => acc * b.radix + d) 0 = spelled b body := rfl
      rw [hsp] at e1 e3
      refine ⟨_, e4.trans e6, e1, rfl, e5, ?_, e3⟩
      rw [e2]; exact Nat.zero_add _
    unfold parse_integer
    rw [if_pos hlen]
    cases b with
    | dec => exact absurd rfl hb
    | hex =>
      obtain ⟨st, h1, h2, h3, h4, h5, h6⟩ := main 4 char_hex_to_nibble (by omega) rfl (by
        intro c hc d hd _
        obtain ⟨d', e1, -, e2, -⟩ := hexChars_conv c hc
        rw [hd, Option.some.injEq] at e1
        rw [e2, e1])
      refine ⟨st, ?_, h2, h3, h4, fun _ => ⟨h5, h6⟩, fun h => by simp at h⟩
      have hsel : low ((pre ++ body ++ suf).getD 1 (Char.ofNat 0)) = 'x'.toNat ∧
          (pre ++ body ++ suf).drop 2 = body ++ suf := by
        simp only [Base.prefixes, List.mem_cons, List.not_mem_nil, or_false] at hpre
        rcases hpre with rfl | rfl
        · exact ⟨by show low 'x' = _; decide, rfl⟩
        · exact ⟨by show low 'X' = _; decide, rfl⟩
      rw [hsel.1, hsel.2, if_pos rfl, h1]; rfl
    | oct =>
      obtain ⟨st, h1, h2, h3, h4, h5, h6⟩ := main 3 char_minus_zero (by omega) rfl (by
        intro c hc d hd hlt
        obtain ⟨d', e1, -, -, e2⟩ := hexChars_conv c hc
        rw [hd, Option.some.injEq] at e1
        subst e1
        exact e2 (by have : d < 8 := hlt; omega))
      refine ⟨st, ?_, h2, h3, h4, fun _ => ⟨h5, h6⟩, fun h => by simp at h⟩
      have hsel : low ((pre ++ body ++ suf).getD 1 (Char.ofNat 0)) = 'o'.toNat ∧
          (pre ++ body ++ suf).drop 2 = body ++ suf := by
        simp only [Base.prefixes, List.mem_cons, List.not_mem_nil, or_false] at hpre
        rcases hpre with rfl | rfl
        · exact ⟨by show low 'o' = _; decide, rfl⟩
        · exact ⟨by show low 'O' = _; decide, rfl⟩
      rw [hsel.1, hsel.2, if_neg (by decide), if_pos rfl, h1]; rfl
    | bin =>
      obtain ⟨st, h1, h2, h3, h4, h5, h6⟩ := main 1 char_minus_zero (by omega) rfl (by
        intro c hc d hd hlt
        obtain ⟨d', e1, -, -, e2⟩ := hexChars_conv c hc
        rw [hd, Option.some.injEq] at e1
        subst e1
        exact e2 (by have : d < 2 := hlt; omega))
      refine ⟨st, ?_, h2, h3, h4, fun _ => ⟨h5, h6⟩, fun h => by simp at h⟩
      have hsel : low ((pre ++ body ++ suf).getD 1 (Char.ofNat 0)) = 'b'.toNat ∧
          (pre ++ body ++ suf).drop 2 = body ++ suf := by
        simp only [Base.prefixes, List.mem_cons, List.not_mem_nil, or_false] at hpre
        rcases hpre with rfl | rfl
        · exact ⟨by show low 'b' = _; decide, rfl⟩
        · exact ⟨by show low 'B' = _; decide, rfl⟩
      rw [hsel.1, hsel.2, if_neg (by decide), if_neg (by decide), if_pos rfl, h1]; rfl

theorem by_bitsize (u : Bool) (w : Int) (t : TypeKind) :
    type_int_by_bitsize u w = some t ↔ (t.bits : Int) = w ∧ t.signed = !u := by
  unfold type_int_by_bitsize
  split
  case h_6 h1 h2 h3 h4 h5 =>
    constructor
    · intro h; exact absurd h (by simp)
    · rintro ⟨h, -⟩
      exfalso
      cases t <;> simp only [TypeKind.bits] at h <;>
        first | exact h1 h.symm | exact h2 h.symm | exact h3 h.symm | exact h4 h.symm | exact h5 h.symm
  all_goals cases u <;> cases t <;> simp [TypeKind.bits, TypeKind.signed]

/-- The width the parser computes from the number of digits. -/
def digitWidth (k : Nat) : Int :=
  let tb : Int := (k : Nat)
  let tb := if tb ≠ 0 ∧ tb < 8 then 8 else tb
  if tb ≠ 0 ∧ is_power_of_two (BitVec.ofInt 64 tb) = false then
    (next_highest_power_of_2 (BitVec.ofInt 32 tb)).toNat
  else tb

theorem digitWidth_table : ∀ k ≤ 128, 1 ≤ k → ∃ w ∈ [8, 16, 32, 64, 128], digitWidth k = ((w : Nat) : Int) ∧
    k ≤ w ∧ ∀ w' ∈ [8, 16, 32, 64, 128], k ≤ w' → w ≤ w' := by decide +kernel

theorem digitWidth_spec (k : Nat) (h1 : 1 ≤ k) (h : k ≤ 128) :
    ∃ w, SmallestWidth k w ∧ digitWidth k = (w : Int) := by
  obtain ⟨w, hw, e, e1, e2⟩ := digitWidth_table k h h1
  exact ⟨w, ⟨hw, e1, e2⟩, e⟩

theorem pow2_table : ∀ w ≤ 128, w ≠ 0 → is_power_of_two (BitVec.ofInt 64 (w : Nat)) = true →
    w ∈ [1, 2, 4, 8, 16, 32, 64, 128] := by decide +kernel

theorem pow2_table' : ∀ w ∈ [8, 16, 32, 64, 128], is_power_of_two (BitVec.ofInt 64 (w : Nat)) = true := by
  decide +kernel

theorem bits_mem (t : TypeKind) : t.bits ∈ [8, 16, 32, 64, 128] := by cases t <;> decide

theorem fits_iff (i : Int128) (k : TypeKind) : int_fits ⟨i, k⟩ k = true ↔ CInt.WF ⟨i, k⟩ := fits_spec _ _

end C3.IntLiteral
