import Verif.RandGen.Model
import Verif.RandGen.Spec
import Mathlib.Tactic.Ring
import Mathlib.Data.Fintype.Card
import Mathlib.Data.Fintype.EquivFin
import Mathlib.Algebra.Ring.Parity

/-! # Linear recurrences modulo a power of two -/

set_option autoImplicit false

namespace C3.RandGen

/-- `1 + a + … + a^(n-1)`. -/
def geo (a : Nat) : Nat → Nat
  | 0 => 0
  | n + 1 => geo a n + a ^ n

theorem geo_add (a m n : Nat) : geo a (m + n) = geo a m + a ^ m * geo a n := by
  induction n with
  | zero => simp [geo]
  | succ n ih => rw [← Nat.add_assoc, geo, ih, geo, pow_add]; ring

theorem geo_pow (b n : Nat) : (b + 1) ^ n = 1 + b * geo (b + 1) n := by
  induction n with
  | zero => simp [geo]
  | succ n ih => rw [geo, pow_succ, ih]; ring

theorem pow_mod4 {a : Nat} (h : a % 4 = 1) (n : Nat) : a ^ n % 4 = 1 := by
  rw [Nat.pow_mod, h]; simp

theorem geo_parity {a : Nat} (h : a % 4 = 1) (n : Nat) : geo a n % 2 = n % 2 := by
  induction n with
  | zero => rfl
  | succ n ih => have := pow_mod4 h n; rw [geo]; omega

theorem odd_dvd {k u v : Nat} (h : u % 2 = 1) : 2 ^ k ∣ u * v ↔ 2 ^ k ∣ v := by
  refine ⟨fun hd => ?_, fun hd => Dvd.dvd.mul_left hd u⟩
  have hc : Nat.Coprime 2 u := by
    rw [Nat.coprime_iff_gcd_eq_one, Nat.gcd_rec, h]; rfl
  exact (Nat.Coprime.pow_left k hc).dvd_of_dvd_mul_left hd

theorem dvd_geo {a : Nat} (h : a % 4 = 1) (k : Nat) : ∀ n, 2 ^ k ∣ geo a n ↔ 2 ^ k ∣ n := by
  induction k with
  | zero => intro n; simp
  | succ k ih =>
    intro n
    have hp := geo_parity h n
    rcases Nat.even_or_odd' n with ⟨m, rfl | rfl⟩
    · have h4 := pow_mod4 h m
      obtain ⟨q, hq⟩ : ∃ q, a ^ m = 4 * q + 1 := ⟨a ^ m / 4, by omega⟩
      have e : geo a (2 * m) = 2 * ((2 * q + 1) * geo a m) := by
        rw [two_mul, geo_add, hq]; ring
      rw [e, pow_succ', Nat.mul_dvd_mul_iff_left (by decide), Nat.mul_dvd_mul_iff_left (by decide), ← ih m]
      exact odd_dvd (by omega)
    · have d2 : ∀ x, 2 ^ (k + 1) ∣ x → x % 2 = 0 := fun x hx =>
        Nat.mod_eq_zero_of_dvd (Dvd.dvd.trans (by rw [pow_succ]; exact Nat.dvd_mul_left _ _) hx)
      constructor
      · intro hx; have := d2 _ hx; omega
      · intro hx; have := d2 _ hx; omega

/-- One step, on numbers. -/
def lin (a c k x : Nat) : Nat := (x * a + c) % 2 ^ k

/-- `n` steps. -/
def lins (a c k : Nat) : Nat → Nat → Nat
  | 0, x => x
  | n + 1, x => lins a c k n (lin a c k x)

theorem lins_add (a c k : Nat) (m n : Nat) : ∀ x, lins a c k (m + n) x = lins a c k n (lins a c k m x) := by
  induction m with
  | zero => intro x; simp [lins]
  | succ m ih => intro x; rw [Nat.succ_add]; exact ih _

theorem lins_lt {a c k x : Nat} (h : x < 2 ^ k) (n : Nat) : lins a c k n x < 2 ^ k := by
  induction n generalizing x with
  | zero => exact h
  | succ n ih => exact ih (Nat.mod_lt _ (Nat.pow_pos (by decide)))

/-- The state after `n` steps, in a closed form. -/
theorem lins_eq {b c k x : Nat} (h : x < 2 ^ k) (n : Nat) :
    lins (b + 1) c k n x = (x + (b * x + c) * geo (b + 1) n) % 2 ^ k := by
  induction n with
  | zero => simp [lins, geo, Nat.mod_eq_of_lt h]
  | succ n ih =>
    rw [lins_add _ _ _ n 1 x, ih]
    show ((x + (b * x + c) * geo (b + 1) n) % 2 ^ k * (b + 1) + c) % 2 ^ k = _
    rw [Nat.add_mod, Nat.mul_mod, Nat.mod_mod, ← Nat.mul_mod, ← Nat.add_mod, geo, geo_pow b n]
    congr 1; ring

theorem add_mod_self {x y m : Nat} (h : x < m) : (x + y) % m = x ↔ m ∣ y := by
  constructor
  · intro e
    have := Nat.div_add_mod (x + y) m
    exact ⟨(x + y) / m, by omega⟩
  · rintro ⟨q, rfl⟩; rw [Nat.add_mul_mod_self_left, Nat.mod_eq_of_lt h]

theorem lcg_back {a c k x : Nat} (ha : a % 4 = 1) (hc : c % 2 = 1) (hx : x < 2 ^ k) (n : Nat) :
    lins a c k n x = x ↔ 2 ^ k ∣ n := by
  obtain ⟨b, rfl⟩ : ∃ b, a = b + 1 := ⟨a - 1, by omega⟩
  rw [lins_eq hx, add_mod_self hx, ← dvd_geo ha k n]
  have hb : b % 2 = 0 := by omega
  have hodd : (b * x + c) % 2 = 1 := by
    rw [Nat.add_mod, Nat.mul_mod, hb]; simp [hc]
  exact odd_dvd hodd

theorem mcg_back {a k x : Nat} (ha : a % 8 = 5) (ho : x % 2 = 1) (hx : x < 2 ^ (k + 2)) (n : Nat) :
    lins a 0 (k + 2) n x = x ↔ 2 ^ k ∣ n := by
  obtain ⟨q, rfl⟩ : ∃ q, a = 4 * (2 * q + 1) + 1 := ⟨a / 8, by omega⟩
  rw [lins_eq hx, add_mod_self hx, ← dvd_geo (a := 4 * (2 * q + 1) + 1) (by omega) k n]
  have e : (4 * (2 * q + 1) * x + 0) * geo (4 * (2 * q + 1) + 1) n = 4 * ((2 * q + 1) * x * geo (4 * (2 * q + 1) + 1) n) := by ring
  rw [e, show 2 ^ (k + 2) = 4 * 2 ^ k by ring, Nat.mul_dvd_mul_iff_left (by decide)]
  exact odd_dvd (by rw [Nat.mul_mod, ho, show (2 * q + 1) % 2 = 1 by omega])

/-- Functions on the numbers below `p` that are injective are onto. -/
theorem onto {p : Nat} (f : Nat → Nat) (hf : ∀ n, n < p → f n < p) (hi : ∀ i j, i < j → j < p → f i ≠ f j) {y : Nat} (hy : y < p) :
    ∃ n, n < p ∧ f n = y := by
  let g : Fin p → Fin p := fun i => ⟨f i, hf i i.2⟩
  have hg : Function.Injective g := by
    intro i j h
    have h' : f i = f j := congrArg Fin.val h
    rcases Nat.lt_trichotomy i.1 j.1 with h1 | h1 | h1
    · exact absurd h' (hi _ _ h1 j.2)
    · exact Fin.ext h1
    · exact absurd h'.symm (hi _ _ h1 i.2)
  obtain ⟨i, hi⟩ := (Finite.injective_iff_surjective.1 hg) ⟨y, hy⟩
  exact ⟨i, i.2, congrArg Fin.val hi⟩

theorem lcg_onto {a c k x : Nat} (ha : a % 4 = 1) (hc : c % 2 = 1) (hx : x < 2 ^ k) {y : Nat} (hy : y < 2 ^ k) :
    ∃ n, n < 2 ^ k ∧ lins a c k n x = y := by
  refine onto (fun n => lins a c k n x) (fun n _ => lins_lt hx n) ?_ hy
  intro i j hij hj e
  obtain ⟨d, rfl⟩ : ∃ d, j = i + d := ⟨j - i, by omega⟩
  rw [lins_add] at e
  have := Nat.le_of_dvd (by omega) ((lcg_back ha hc (lins_lt hx i) d).1 e.symm)
  omega

theorem mcg_mod4 {a k x : Nat} (ha : a % 8 = 5) (n : Nat) : lins a 0 (k + 2) n x % 4 = x % 4 := by
  induction n generalizing x with
  | zero => rfl
  | succ n ih =>
    rw [lins, ih, lin, Nat.mod_mod_of_dvd _ ⟨2 ^ k, by ring⟩]
    obtain ⟨q, rfl⟩ : ∃ q, a = 8 * q + 5 := ⟨a / 8, by omega⟩
    rw [show x * (8 * q + 5) + 0 = x + 4 * (x * (2 * q + 1)) by ring]; omega

theorem mcg_onto {a k x : Nat} (ha : a % 8 = 5) (ho : x % 2 = 1) (hx : x < 2 ^ (k + 2)) {y : Nat} (hy : y < 2 ^ (k + 2))
    (h4 : x % 4 = y % 4) : ∃ n, n < 2 ^ k ∧ lins a 0 (k + 2) n x = y := by
  have e4 : 2 ^ (k + 2) = 2 ^ k * 4 := by ring
  obtain ⟨n, h1, h2⟩ := onto (p := 2 ^ k) (fun n => lins a 0 (k + 2) n x / 4)
    (fun n _ => by have := lins_lt (a := a) (c := 0) hx n; rw [e4] at this; exact Nat.div_lt_of_lt_mul (by omega)) (by
      intro i j hij hj e
      have m1 := mcg_mod4 (k := k) (x := x) ha i
      have m2 := mcg_mod4 (k := k) (x := x) ha j
      have e' : lins a 0 (k + 2) i x = lins a 0 (k + 2) j x := by omega
      obtain ⟨d, rfl⟩ : ∃ d, j = i + d := ⟨j - i, by omega⟩
      rw [lins_add] at e'
      have := Nat.le_of_dvd (by omega) ((mcg_back ha (by omega) (lins_lt hx i) d).1 e'.symm)
      omega) (y := y / 4) (by rw [e4] at hy; exact Nat.div_lt_of_lt_mul (by omega))
  refine ⟨n, h1, ?_⟩
  have := mcg_mod4 (k := k) (x := x) ha n
  omega

/-! ## States -/

variable {ρ : Type} {w : Nat}

theorem after_lcg {next : BitVec w → ρ × BitVec w} {m c : BitVec w} (h : ∀ s, (next s).2 = s * m + c) (n : Nat) :
    ∀ s, (after next n s).toNat = lins m.toNat c.toNat w n s.toNat := by
  induction n with
  | zero => intro s; rfl
  | succ n ih =>
    intro s
    rw [after, ih, h, lins, lin, BitVec.toNat_add, BitVec.toNat_mul, Nat.mod_add_mod]

theorem lcg_period {next : BitVec w → ρ × BitVec w} {m c : BitVec w} (h : ∀ s, (next s).2 = s * m + c)
    (hm : m.toNat % 4 = 1) (hc : c.toNat % 2 = 1) :
    Period (fun _ => True) (fun _ _ => True) (2 ^ w) next := by
  intro s _
  refine ⟨fun _ => trivial, fun n => ?_, fun t _ _ => ?_⟩
  · rw [← lcg_back hm hc s.isLt n, ← after_lcg h, BitVec.toNat_inj]
  · obtain ⟨n, h1, h2⟩ := lcg_onto hm hc s.isLt t.isLt
    exact ⟨n, h1, BitVec.eq_of_toNat_eq (by rw [after_lcg h, h2])⟩

theorem mcg_period {k : Nat} {next : BitVec (k + 2) → ρ × BitVec (k + 2)} {m : BitVec (k + 2)} (h : ∀ s, (next s).2 = s * m)
    (hm : m.toNat % 8 = 5) :
    Period (fun s => s.toNat % 2 = 1) (fun s t => s.toNat % 4 = t.toNat % 4) (2 ^ k) next := by
  have h' : ∀ s, (next s).2 = s * m + 0#(k + 2) := fun s => by rw [h, BitVec.add_zero]
  have ha : ∀ n s, (after next n s).toNat = lins m.toNat 0 (k + 2) n s.toNat := fun n s => by
    rw [after_lcg h' n s]; simp
  intro s hs
  refine ⟨fun n => ?_, fun n => ?_, fun t _ hr => ?_⟩
  · have := mcg_mod4 (k := k) (x := s.toNat) hm n
    show (after next n s).toNat % 2 = 1
    rw [ha]; omega
  · rw [← mcg_back hm hs s.isLt n, ← ha, BitVec.toNat_inj]
  · obtain ⟨n, h1, h2⟩ := mcg_onto hm hs s.isLt t.isLt hr
    exact ⟨n, h1, BitVec.eq_of_toNat_eq (by rw [ha, h2])⟩

theorem after_masked {next : BitVec w → ρ × BitVec w} {m c k : Nat} (hk : k ≤ w)
    (h : ∀ s, (next s).2.toNat = (s.toNat * m % 2 ^ w + c) % 2 ^ w % 2 ^ k) (n : Nat) :
    ∀ s, (after next n s).toNat = lins m c k n s.toNat := by
  induction n with
  | zero => intro s; rfl
  | succ n ih =>
    intro s
    rw [after, ih, h, lins, lin, Nat.mod_add_mod, Nat.mod_mod_of_dvd _ (Nat.pow_dvd_pow 2 hk)]

theorem masked_period {next : BitVec w → ρ × BitVec w} {m c k : Nat} (hk : k ≤ w)
    (h : ∀ s, (next s).2.toNat = (s.toNat * m % 2 ^ w + c) % 2 ^ w % 2 ^ k) (hm : m % 4 = 1) (hc : c % 2 = 1) :
    Period (fun s => s.toNat < 2 ^ k) (fun _ _ => True) (2 ^ k) next := by
  have ha := after_masked hk h
  intro s hs
  refine ⟨fun n => by show (after next n s).toNat < 2 ^ k; rw [ha]; exact lins_lt hs n, fun n => ?_, fun t ht _ => ?_⟩
  · rw [← lcg_back hm hc hs n, ← ha, BitVec.toNat_inj]
  · obtain ⟨n, h1, h2⟩ := lcg_onto hm hc hs ht
    exact ⟨n, h1, BitVec.eq_of_toNat_eq (by rw [ha, h2])⟩

theorem mask_toNat {a b c m : BitVec w} {k : Nat} (hm : m.toNat = 2 ^ k - 1) :
    ((a * b + c) &&& m).toNat = (a.toNat * b.toNat % 2 ^ w + c.toNat) % 2 ^ w % 2 ^ k := by
  rw [BitVec.toNat_and, BitVec.toNat_add, BitVec.toNat_mul, hm, Nat.and_two_pow_sub_one_eq_mod]

/-! ## The four words -/

theorem xorshift_inj {k : Nat} (hk : 0 < k) {x y : BitVec w} (h : x ^^^ x >>> k = y ^^^ y >>> k) : x = y := by
  have hb : ∀ n i, w ≤ i + n → x.getLsbD i = y.getLsbD i := by
    intro n
    induction n with
    | zero => intro i hi; rw [BitVec.getLsbD_of_ge _ _ (by omega), BitVec.getLsbD_of_ge _ _ (by omega)]
    | succ n ih =>
      intro i hi
      have e := congrArg (fun z => z.getLsbD i) h
      simp only [BitVec.getLsbD_xor, BitVec.getLsbD_ushiftRight] at e
      rw [ih (k + i) (by omega)] at e
      revert e
      cases x.getLsbD i <;> cases y.getLsbD i <;> cases y.getLsbD (k + i) <;> simp
  exact BitVec.eq_of_getLsbD_eq fun i hi => hb w i (by omega)

theorem mulshift_inj {k : Nat} (hk : 0 < k) {x y : BitVec w} (h : x + x <<< k = y + y <<< k) : x = y := by
  have e := congrArg BitVec.toNat h
  simp only [BitVec.toNat_add, BitVec.toNat_shiftLeft, Nat.shiftLeft_eq, Nat.add_mod_mod] at e
  have g : ∀ z : Nat, z + z * 2 ^ k = (1 + 2 ^ k) * z := fun z => by ring
  rw [g, g] at e
  have hodd : (1 + 2 ^ k) % 2 = 1 := by
    obtain ⟨j, rfl⟩ : ∃ j, k = j + 1 := ⟨k - 1, by omega⟩
    rw [pow_succ]; omega
  have key : ∀ a b : Nat, a ≤ b → (1 + 2 ^ k) * a % 2 ^ w = (1 + 2 ^ k) * b % 2 ^ w → b < 2 ^ w → a = b := by
    intro a b hab he hb
    have hd := Nat.dvd_of_mod_eq_zero (Nat.sub_mod_eq_zero_of_mod_eq he.symm)
    rw [← Nat.mul_sub] at hd
    have := (odd_dvd hodd).1 hd
    rcases Nat.eq_zero_or_pos (b - a) with h0 | h0
    · omega
    · have := Nat.le_of_dvd h0 this; omega
  apply BitVec.eq_of_toNat_eq
  rcases Nat.le_total x.toNat y.toNat with hl | hl
  · exact key _ _ hl e y.isLt
  · exact (key _ _ hl e.symm x.isLt).symm

theorem sfc_inj {a b r : Nat} {phi : BitVec w} (ha : 0 < a) (hb : 0 < b) {s t : Sfc w}
    (h : (sfc a b r phi s).2 = (sfc a b r phi t).2) : s = t := by
  obtain ⟨s0, s1, s2, s3⟩ := s
  obtain ⟨t0, t1, t2, t3⟩ := t
  simp only [sfc, Sfc.mk.injEq] at h
  obtain ⟨h1, h2, h3, h4⟩ := h
  have e1 := xorshift_inj ha h1
  have e2 := mulshift_inj hb h2
  have e3 : s3 = t3 := (BitVec.add_left_inj _).1 h4
  subst e1; subst e2; subst e3
  have h5 := (BitVec.add_right_inj _).1 h3
  have h6 := (BitVec.add_left_inj _).1 h5
  have h7 := (BitVec.add_left_inj _).1 h6
  rw [h7]

theorem sfc_count {a b r : Nat} {phi : BitVec w} (n : Nat) : ∀ s : Sfc w,
    (after (sfc a b r phi) n s).s3.toNat = (s.s3.toNat + phi.toNat * n) % 2 ^ w := by
  induction n with
  | zero => intro s; simp [after, Nat.mod_eq_of_lt s.s3.isLt]
  | succ n ih =>
    intro s
    rw [after, ih]
    show ((s.s3 + phi).toNat + phi.toNat * n) % 2 ^ w = _
    rw [BitVec.toNat_add, Nat.mod_add_mod]
    congr 1; ring

theorem sfc_back {a b r : Nat} {phi : BitVec w} (hphi : phi.toNat % 2 = 1) (n : Nat) (s : Sfc w)
    (h : after (sfc a b r phi) n s = s) : 2 ^ w ∣ n := by
  have e := sfc_count (a := a) (b := b) (r := r) (phi := phi) n s
  rw [h] at e
  exact (odd_dvd hphi).1 ((add_mod_self s.s3.isLt).1 e.symm)

end C3.RandGen
