import Verif.Inet.Model
import Verif.Inet.Spec
import Mathlib.Tactic.ByContra
/-
Helper lemmas: reading addresses.
-/
set_option autoImplicit false

namespace C3.Inet
open C3.Fmt (Byte ch)
open Std

theorem wrap_small (x : Int) (h1 : -2147483648 ≤ x) (h2 : x < 2147483648) : wrap x = x := by
  unfold wrap
  rw [Int.bmod_eq_of_le] <;> omega

/-! ### Values of digit sequences -/

theorem value_snoc (d : Byte → Option Nat) (base : Nat) (s : List Byte) (c : Byte) :
    value d base (s ++ [c]) = value d base s * base + (d c).getD 0 := by
  simp [value, List.foldl_append]

theorem value_bound (d : Byte → Option Nat) (base : Nat) (hd : ∀ c, (d c).getD 0 < base) (s : List Byte) :
    value d base s < base ^ s.length := by
  have key : ∀ (s : List Byte) (n : Nat), s.foldl (fun n c => n * base + (d c).getD 0) n < (n + 1) * base ^ s.length := by
    intro s
    induction s with
    | nil => intro n; simp
    | cons c r ih =>
      intro n
      refine Nat.lt_of_lt_of_le (ih _) ?_
      rw [List.length_cons, Nat.pow_succ, ← Nat.mul_assoc, Nat.mul_right_comm]
      apply Nat.mul_le_mul_right
      have := hd c
      show n * base + (d c).getD 0 + 1 ≤ (n + 1) * base
      rw [Nat.add_mul, Nat.one_mul]; omega
  have := key s 0
  simpa [value] using this

theorem decDigit_lt (c : Byte) : (decDigit c).getD 0 < 10 := by
  unfold decDigit
  split
  · simp; omega
  · simp

theorem hexDigit_lt (c : Byte) : (hexDigit c).getD 0 < 16 := by
  unfold hexDigit
  split
  · simp; omega
  · split
    · simp; omega
    · split
      · simp; omega
      · simp

theorem Std.AllDigits.cons {d : Byte → Option Nat} {c : Byte} {s : List Byte} :
    AllDigits d (c :: s) ↔ d c ≠ none ∧ AllDigits d s := by simp [AllDigits]

/-! ### IPv4 -/

theorem dec_ne_dot {c : Byte} (h : decDigit c ≠ none) : c ≠ ch '.' := by
  rintro rfl; exact h (by decide)

theorem decDigit_some {c : Byte} (h : decDigit c ≠ none) :
    48 ≤ c.toNat ∧ c.toNat ≤ 57 ∧ (decDigit c).getD 0 = c.toNat - 48 := by
  unfold decDigit at h ⊢
  split at h
  · rename_i g; rw [if_pos g]; exact ⟨g.1, g.2, rfl⟩
  · exact absurd rfl h

theorem decDigit_none {c : Byte} (h : decDigit c = none) : c.toNat < 48 ∨ c.toNat > 57 := by
  unfold decDigit at h
  split at h
  · cases h
  · omega

/-- Digits after digits. -/
theorem v4_digits (e : Nat) (he : e ≤ 3) (addr : InetAddress) (rest : List Byte) :
    ∀ (g p : List Byte), AllDigits decDigit g → p ≠ [] → (p ++ g).length ≤ 9 →
      v4Loop (g ++ rest) e (value decDigit 10 p) addr = v4Loop rest e (value decDigit 10 (p ++ g)) addr := by
  intro g
  induction g with
  | nil => intro p _ _ _; simp
  | cons c g ih =>
    intro p hg hp hl
    obtain ⟨hc, hg⟩ := AllDigits.cons.1 hg
    obtain ⟨h1, h2, h3⟩ := decDigit_some hc
    have hb := value_bound decDigit 10 decDigit_lt p
    have hlp : p.length ≤ 8 := by simp at hl; omega
    have hb' : value decDigit 10 p < 10 ^ 8 := Nat.lt_of_lt_of_le hb (Nat.pow_le_pow_right (by decide) hlp)
    rw [List.cons_append, v4Loop, if_neg (dec_ne_dot hc), if_neg (by omega), if_neg (by omega)]
    have e1 : wrap (wrap (wrap ((value decDigit 10 p : Int) * 10) + c.toNat) - 48) =
        ((value decDigit 10 (p ++ [c]) : Nat) : Int) := by
      rw [value_snoc, h3, wrap_small ((value decDigit 10 p : Int) * 10) (by omega) (by omega),
        wrap_small ((value decDigit 10 p : Int) * 10 + c.toNat) (by omega) (by omega),
        wrap_small _ (by omega) (by omega)]
      omega
    rw [e1]
    have := ih (p ++ [c]) hg (by simp) (by simpa using hl)
    rw [this]; simp

/-- A whole group without dots. -/
theorem v4_group (e : Nat) (he : e ≤ 3) (addr : InetAddress) (rest g : List Byte) (hg : AllDigits decDigit g)
    (hne : g ≠ []) (hl : g.length ≤ 9) :
    v4Loop (g ++ rest) e (-1) addr = v4Loop rest e (value decDigit 10 g) addr := by
  cases g with
  | nil => exact absurd rfl hne
  | cons c g =>
    obtain ⟨hc, hg⟩ := AllDigits.cons.1 hg
    obtain ⟨h1, h2, h3⟩ := decDigit_some hc
    rw [List.cons_append, v4Loop, if_neg (dec_ne_dot hc), if_neg (by omega), if_pos (by decide)]
    have e1 : ((c.toNat : Int) - 48) = ((value decDigit 10 [c] : Nat) : Int) := by
      have : value decDigit 10 [c] = c.toNat - 48 := by simp [value, h3]
      rw [this]; omega
    rw [e1]
    have := v4_digits e he addr rest g [c] hg (by simp) (by simpa using hl)
    rw [this]; simp

theorem v4_bad (e : Nat) (addr : InetAddress) (rest : List Byte) : ∀ (g : List Byte) (cur : Int),
    ch '.' ∉ g → ¬ AllDigits decDigit g → v4Loop (g ++ rest) e cur addr = .error .invalid := by
  intro g
  induction g with
  | nil => intro cur _ h; exact absurd (by simp [AllDigits]) h
  | cons c g ih =>
    intro cur hd hb
    rw [AllDigits.cons] at hb
    simp only [List.mem_cons, not_or] at hd
    rw [List.cons_append, v4Loop, if_neg (Ne.symm hd.1)]
    by_cases hc : decDigit c = none
    · have := decDigit_none hc
      rw [if_pos (by omega)]
    · have hg : ¬ AllDigits decDigit g := fun h => hb ⟨hc, h⟩
      split
      · rfl
      · split
        · exact ih _ hd.2 hg
        · exact ih _ hd.2 hg

/-- A text is a group without the separator, and perhaps more behind a separator. -/
theorem split_at (sep : Byte) (s : List Byte) :
    (sep ∉ s) ∨ ∃ g r, s = g ++ sep :: r ∧ sep ∉ g := by
  induction s with
  | nil => left; simp
  | cons c s ih =>
    by_cases h : c = sep
    · right; exact ⟨[], s, by simp [h], by simp⟩
    · rcases ih with h2 | ⟨g, r, h2, h3⟩
      · left; simp [h2, Ne.symm h]
      · right; exact ⟨c :: g, r, by simp [h2], by simp [h3, Ne.symm h]⟩

theorem Std.NoLong.left {n : Nat} {sep : Byte} {g r : List Byte} (h : NoLong n sep (g ++ sep :: r)) (hg : sep ∉ g) :
    g.length ≤ n := h [] g (sep :: r) (by simp) hg

theorem Std.NoLong.right {n : Nat} {sep : Byte} {g r : List Byte} (h : NoLong n sep (g ++ sep :: r)) :
    NoLong n sep r := by
  intro a x b e hx
  exact h (g ++ sep :: a) x b (by rw [e]; simp) hx

theorem Std.NoLong.self {n : Nat} {sep : Byte} {g : List Byte} (h : NoLong n sep g) (hg : sep ∉ g) :
    g.length ≤ n := h [] g [] (by simp) hg

theorem Std.AllDigits.no_dot {g : List Byte} (h : AllDigits decDigit g) : ch '.' ∉ g :=
  fun hm => dec_ne_dot (h _ hm) rfl

/-- What the loop does with one group and the dot behind it. -/
theorem v4_step (e : Nat) (he : e ≤ 3) (addr : InetAddress) (g r : List Byte) (hd : ch '.' ∉ g) (hl : g.length ≤ 9)
    (a : InetAddress) :
    v4Loop (g ++ ch '.' :: r) e (-1) addr = .ok a ↔
      ∃ v : Byte, Octet g v ∧ e < 3 ∧ v4Loop r (e + 1) (-1) { addr with bytes := addr.bytes.set (12 + e) v } = .ok a := by
  by_cases hg : AllDigits decDigit g
  · by_cases hne : g = []
    · subst hne
      rw [List.nil_append, v4Loop, if_pos rfl, if_pos (by decide)]
      simp [Octet]
    · rw [v4_group e he addr _ g hg hne hl, v4Loop, if_pos rfl, if_neg (by omega)]
      by_cases hv : value decDigit 10 g > 255
      · rw [if_pos (by omega)]
        constructor
        · intro h; cases h
        · rintro ⟨v, ⟨-, -, h⟩, -⟩
          have := v.isLt; omega
      · rw [if_neg (by omega)]
        have hov : ∀ v : Byte, Octet g v ↔ BitVec.ofInt 8 (value decDigit 10 g : Int) = v := by
          intro v
          have e1 : BitVec.ofInt 8 (value decDigit 10 g : Int) = BitVec.ofNat 8 (value decDigit 10 g) := by
            simp
          constructor
          · rintro ⟨-, -, h⟩
            rw [e1, h]; simp
          · rintro rfl
            refine ⟨hne, hg, ?_⟩
            rw [e1, BitVec.toNat_ofNat]; omega
        simp only [hov, exists_eq_left']
        have : e = 0 ∨ e = 1 ∨ e = 2 ∨ e = 3 := by omega
        rcases this with rfl | rfl | rfl | rfl <;> simp
  · rw [v4_bad e addr _ g (-1) hd hg]
    constructor
    · intro h; cases h
    · rintro ⟨v, ⟨-, h, -⟩, -⟩; exact absurd h hg

theorem v4_last (e : Nat) (he : e ≤ 3) (addr : InetAddress) (g : List Byte) (hd : ch '.' ∉ g) (hl : g.length ≤ 9)
    (a : InetAddress) :
    v4Loop g e (-1) addr = .ok a ↔
      ∃ v : Byte, Octet g v ∧ e = 3 ∧ a = { addr with bytes := addr.bytes.set 15 v } := by
  by_cases hg : AllDigits decDigit g
  · by_cases hne : g = []
    · subst hne
      rw [v4Loop, if_pos (by omega)]
      simp [Octet]
    · have := v4_group e he addr [] g hg hne hl
      rw [List.append_nil] at this
      rw [this, v4Loop]
      by_cases hv : value decDigit 10 g > 255
      · rw [if_pos (by omega)]
        constructor
        · intro h; cases h
        · rintro ⟨v, ⟨-, -, h⟩, -⟩
          have := v.isLt; omega
      · have hov : ∀ v : Byte, Octet g v ↔ BitVec.ofInt 8 (value decDigit 10 g : Int) = v := by
          intro v
          have e1 : BitVec.ofInt 8 (value decDigit 10 g : Int) = BitVec.ofNat 8 (value decDigit 10 g) := by
            simp
          constructor
          · rintro ⟨-, -, h⟩
            rw [e1, h]; simp
          · rintro rfl
            refine ⟨hne, hg, ?_⟩
            rw [e1, BitVec.toNat_ofNat]; omega
        simp only [hov, exists_eq_left']
        by_cases h3 : e = 3
        · rw [if_neg (by omega)]
          simp [h3, eq_comm]
        · rw [if_pos (by omega)]
          simp [h3]
  · have := v4_bad e addr [] g (-1) hd hg
    rw [List.append_nil] at this
    rw [this]
    constructor
    · intro h; cases h
    · rintro ⟨v, ⟨-, h, -⟩, -⟩; exact absurd h hg

theorem Std.Octet.no_dot {g : List Byte} {v : Byte} (h : Octet g v) : ch '.' ∉ g := AllDigits.no_dot h.2.1

theorem v4_complete {A B C D : List Byte} {a b c d : Byte} (ha : Octet A a) (hb : Octet B b) (hc : Octet C c)
    (hd : Octet D d) (la : A.length ≤ 9) (lb : B.length ≤ 9) (lc : C.length ≤ 9) (ld : D.length ≤ 9) :
    v4Loop (A ++ ch '.' :: (B ++ ch '.' :: (C ++ ch '.' :: D))) 0 (-1) (zero false) =
      .ok ⟨false, List.replicate 12 0 ++ [a, b, c, d]⟩ := by
  rw [v4_step 0 (by decide) _ A _ ha.no_dot la]
  refine ⟨a, ha, by decide, ?_⟩
  rw [v4_step _ (by decide) _ B _ hb.no_dot lb]
  refine ⟨b, hb, by decide, ?_⟩
  rw [v4_step _ (by decide) _ C _ hc.no_dot lc]
  refine ⟨c, hc, by decide, ?_⟩
  rw [v4_last _ (by decide) _ D hd.no_dot ld]
  exact ⟨d, hd, by decide, rfl⟩

theorem v4_iff (s : List Byte) (hs : NoLong 9 (ch '.') s) (r : InetAddress) :
    ipv4_from_str s = .ok r ↔ ∃ a b c d, Quad s a b c d ∧ r = ⟨false, List.replicate 12 0 ++ [a, b, c, d]⟩ := by
  have fin : ∀ a b c d : Byte, ({ is_ipv6 := false, bytes := ((((zero false).bytes.set (12 + 0) a).set (12 + 1) b).set (12 + 2) c).set 15 d } : InetAddress) =
      ⟨false, List.replicate 12 0 ++ [a, b, c, d]⟩ := fun _ _ _ _ => rfl
  unfold ipv4_from_str
  constructor
  · intro h
    rcases split_at (ch '.') s with h0 | ⟨A, s1, rfl, hA⟩
    · rw [v4_last 0 (by decide) _ s h0 (hs.self h0)] at h
      obtain ⟨v, -, h, -⟩ := h; cases h
    rw [v4_step 0 (by decide) _ A s1 hA (hs.left hA)] at h
    obtain ⟨a, ha, -, h⟩ := h
    have hs := hs.right
    rcases split_at (ch '.') s1 with h0 | ⟨B, s2, rfl, hB⟩
    · rw [v4_last _ (by decide) _ s1 h0 (hs.self h0)] at h
      obtain ⟨v, -, h, -⟩ := h; cases h
    rw [v4_step _ (by decide) _ B s2 hB (hs.left hB)] at h
    obtain ⟨b, hb, -, h⟩ := h
    have hs := hs.right
    rcases split_at (ch '.') s2 with h0 | ⟨C, s3, rfl, hC⟩
    · rw [v4_last _ (by decide) _ s2 h0 (hs.self h0)] at h
      obtain ⟨v, -, h, -⟩ := h; cases h
    rw [v4_step _ (by decide) _ C s3 hC (hs.left hC)] at h
    obtain ⟨c, hc, -, h⟩ := h
    have hs := hs.right
    rcases split_at (ch '.') s3 with h0 | ⟨D, s4, rfl, hD⟩
    · rw [v4_last _ (by decide) _ s3 h0 (hs.self h0)] at h
      obtain ⟨d, hd, -, h⟩ := h
      exact ⟨a, b, c, d, ⟨A, B, C, s3, ha, hb, hc, hd, rfl⟩, h.trans (fin a b c d)⟩
    rw [v4_step _ (by decide) _ D s4 hD (hs.left hD)] at h
    obtain ⟨d, hd, h, -⟩ := h
    omega
  · rintro ⟨a, b, c, d, ⟨A, B, C, D, ha, hb, hc, hd, rfl⟩, rfl⟩
    exact v4_complete ha hb hc hd (hs.left ha.no_dot) (hs.right.left hb.no_dot)
      (hs.right.right.left hc.no_dot) (hs.right.right.right.self hd.no_dot)

theorem v4_no_panic : ∀ (s : List Byte) (e : Nat) (cur : Int) (addr : InetAddress),
    v4Loop s e cur addr ≠ .error .panic := by
  intro s
  induction s with
  | nil =>
    intro e cur addr h
    rw [v4Loop] at h
    split at h <;> cases h
  | cons c s ih =>
    intro e cur addr h
    rw [v4Loop] at h
    repeat' split at h
    all_goals first | cases h | exact ih _ _ _ h

end C3.Inet
