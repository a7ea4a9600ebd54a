import Verif.Inet.Lemmas
/-
Helper lemmas: reading IPv6 addresses.
-/
set_option autoImplicit false

namespace C3.Inet
open C3.Fmt (Byte ch)
open Std

theorem isXdigit_iff (c : Byte) : isXdigit c = true ↔ hexDigit c ≠ none := by
  revert c; decide +kernel

theorem xdigit_eq (c : Byte) (h : hexDigit c ≠ none) : xdigit c = ((hexDigit c).getD 0 : Nat) := by
  revert h; revert c; decide +kernel

theorem hex_ne_colon {c : Byte} (h : hexDigit c ≠ none) : c ≠ ch ':' := by
  rintro rfl; exact h (by decide)

theorem v6_digits (z : Int) (idx : Nat) (hi : idx ≤ 7) (fz : Bool) (addr : InetAddress) (rest : List Byte) :
    ∀ (g p : List Byte), AllDigits hexDigit g → p ≠ [] → (p ++ g).length ≤ 7 →
      v6Loop z (g ++ rest) idx false fz (value hexDigit 16 p) addr =
        v6Loop z rest idx false fz (value hexDigit 16 (p ++ g)) addr := by
  intro g
  induction g with
  | nil => intro p _ _ _; simp
  | cons c g ih =>
    intro p hg hp hl
    obtain ⟨hc, hg⟩ := AllDigits.cons.1 hg
    have hb := value_bound hexDigit 16 hexDigit_lt p
    have hlp : p.length ≤ 6 := by simp at hl; omega
    have hb' : value hexDigit 16 p < 16 ^ 6 := Nat.lt_of_lt_of_le hb (Nat.pow_le_pow_right (by decide) hlp)
    have hd := hexDigit_lt c
    have hx : isXdigit c = true := (isXdigit_iff c).2 hc
    rw [List.cons_append, v6Loop, if_neg (hex_ne_colon hc), if_neg (by simp [hx]; omega)]
    have e0 : (if (value hexDigit 16 p : Int) < 0 then 0 else (value hexDigit 16 p : Int)) = value hexDigit 16 p :=
      if_neg (by omega)
    have e1 : wrap (wrap ((value hexDigit 16 p : Int) * 16) + xdigit c) =
        ((value hexDigit 16 (p ++ [c]) : Nat) : Int) := by
      rw [value_snoc, xdigit_eq c hc, wrap_small ((value hexDigit 16 p : Int) * 16) (by omega) (by omega),
        wrap_small _ (by omega) (by omega)]
      omega
    simp only [e0, e1]
    have := ih (p ++ [c]) hg (by simp) (by simpa using hl)
    rw [this]; simp

theorem v6_group (z : Int) (idx : Nat) (hi : idx ≤ 7) (lw fz : Bool) (addr : InetAddress) (rest g : List Byte)
    (hg : AllDigits hexDigit g) (hne : g ≠ []) (hl : g.length ≤ 7) :
    v6Loop z (g ++ rest) idx lw fz (-1) addr = v6Loop z rest idx false fz (value hexDigit 16 g) addr := by
  cases g with
  | nil => exact absurd rfl hne
  | cons c g =>
    obtain ⟨hc, hg⟩ := AllDigits.cons.1 hg
    have hd := hexDigit_lt c
    have hx : isXdigit c = true := (isXdigit_iff c).2 hc
    rw [List.cons_append, v6Loop, if_neg (hex_ne_colon hc), if_neg (by simp [hx]; omega)]
    have e1 : wrap (wrap ((if (-1 : Int) < 0 then 0 else (-1 : Int)) * 16) + xdigit c) =
        ((value hexDigit 16 [c] : Nat) : Int) := by
      have : value hexDigit 16 [c] = (hexDigit c).getD 0 := by simp [value]
      rw [this, xdigit_eq c hc, if_pos (by decide), wrap_small (0 * 16) (by omega) (by omega),
        wrap_small _ (by omega) (by omega)]
      omega
    simp only [e1]
    have := v6_digits z idx hi fz addr rest g [c] hg (by simp) (by simpa using hl)
    rw [this]; simp

theorem v6_bad (z : Int) (idx : Nat) (fz : Bool) (addr : InetAddress) (rest : List Byte) : ∀ (g : List Byte) (lw : Bool) (cur : Int),
    ch ':' ∉ g → ¬ (idx ≤ 7 ∧ AllDigits hexDigit g) → g ≠ [] → v6Loop z (g ++ rest) idx lw fz cur addr = .error .invalid := by
  intro g
  induction g with
  | nil => intro lw cur _ _ h; exact absurd rfl h
  | cons c g ih =>
    intro lw cur hd hb _
    rw [AllDigits.cons] at hb
    simp only [List.mem_cons, not_or] at hd
    rw [List.cons_append, v6Loop, if_neg (Ne.symm hd.1)]
    by_cases hi : idx > 7
    · rw [if_pos (Or.inl hi)]
    · by_cases hc : isXdigit c = true
      · rw [if_neg (by simp [hc]; omega)]
        have hg : ¬ (idx ≤ 7 ∧ AllDigits hexDigit g) := fun h => hb ⟨h.1, (isXdigit_iff c).1 hc, h.2⟩
        have hne : g ≠ [] := by
          rintro rfl; exact hg ⟨by omega, by simp [AllDigits]⟩
        exact ih _ _ hd.2 hg hne
      · rw [if_pos (Or.inr hc)]

/-- The bytes of a list of groups. -/
def enc (vs : List (BitVec 16)) : List Byte := vs.flatMap fun v => [v.extractLsb' 8 8, v.extractLsb' 0 8]

/-- An address whose first groups are `vs` and whose other groups are zero. -/
def addrOf (vs : List (BitVec 16)) : InetAddress := ⟨true, enc vs ++ List.replicate (16 - 2 * vs.length) 0⟩

theorem enc_length (vs : List (BitVec 16)) : (enc vs).length = 2 * vs.length := by
  induction vs with
  | nil => rfl
  | cons v r ih => simp [enc] at ih ⊢; omega

theorem enc_append (a b : List (BitVec 16)) : enc (a ++ b) = enc a ++ enc b := by simp [enc]

theorem addrOf_nil : addrOf [] = zero true := rfl

theorem set_addrOf (vs : List (BitVec 16)) (h : vs.length ≤ 7) (v : BitVec 16) :
    { addrOf vs with bytes := setWord (addrOf vs).bytes vs.length v } = addrOf (vs ++ [v]) := by
  have e : 16 - 2 * vs.length = (16 - 2 * (vs.length + 1)) + 1 + 1 := by omega
  have hl := enc_length vs
  unfold addrOf
  simp only [enc_append, List.length_append, List.length_singleton, InetAddress.mk.injEq, true_and]
  rw [e, List.replicate_succ, List.replicate_succ]
  unfold setWord
  rw [List.set_append_right (s := enc vs) (h := by omega), List.set_append_right (s := enc vs) (h := by omega)]
  rw [hl, show 2 * vs.length - 2 * vs.length = 0 by omega, show 2 * vs.length + 1 - 2 * vs.length = 1 by omega]
  simp [enc]

theorem addrOf_zeros (vs : List (BitVec 16)) (z : Nat) (h : vs.length + z ≤ 8) :
    addrOf (vs ++ List.replicate z 0) = addrOf vs := by
  have : ∀ z, enc (List.replicate z 0) = List.replicate (2 * z) 0 := by
    intro z
    induction z with
    | zero => rfl
    | succ z ih =>
      rw [List.replicate_succ, show 2 * (z + 1) = 2 * z + 1 + 1 by omega, List.replicate_succ, List.replicate_succ, ← ih]
      simp [enc]
  unfold addrOf
  rw [enc_append, this, List.append_assoc, ← List.replicate_append_replicate.symm]
  simp only [List.length_append, List.length_replicate, List.replicate_append_replicate]
  rw [show 2 * z + (16 - 2 * (vs.length + z)) = 16 - 2 * vs.length by omega]

theorem ofInt16 {v : BitVec 16} {g : List Byte} (h : value hexDigit 16 g = v.toNat) :
    BitVec.ofInt 16 (value hexDigit 16 g : Int) = v := by
  rw [h]; simp

/-- One group and the colon behind it. -/
theorem v6_step (z : Int) (ps : List (BitVec 16)) (lw fz : Bool) (g r : List Byte) (hd : ch ':' ∉ g) (hne : g ≠ [])
    (hl : g.length ≤ 7) (a : InetAddress) :
    v6Loop z (g ++ ch ':' :: r) ps.length lw fz (-1) (addrOf ps) = .ok a ↔
      ∃ v, Group 7 g v ∧ ps.length ≤ 7 ∧ v6Loop z r (ps ++ [v]).length true fz (-1) (addrOf (ps ++ [v])) = .ok a := by
  by_cases hg : ps.length ≤ 7 ∧ AllDigits hexDigit g
  · rw [v6_group z _ hg.1 lw fz _ _ g hg.2 hne hl, v6Loop, if_pos rfl]
    simp only [Bool.not_false, if_true]
    rw [if_neg (by omega)]
    by_cases hv : value hexDigit 16 g > 65535
    · rw [if_pos (by omega)]
      constructor
      · intro h; cases h
      · rintro ⟨v, ⟨-, -, -, h⟩, -⟩
        have := v.isLt; omega
    · rw [if_neg (by omega), if_neg (by omega)]
      have hgv : Group 7 g (BitVec.ofNat 16 (value hexDigit 16 g)) :=
        ⟨hne, hl, hg.2, by rw [BitVec.toNat_ofNat]; omega⟩
      have huniq : ∀ v, Group 7 g v → v = BitVec.ofNat 16 (value hexDigit 16 g) := by
        rintro v ⟨-, -, -, h⟩; rw [h]; simp
      rw [ofInt16 hgv.2.2.2, set_addrOf ps hg.1]
      constructor
      · intro h
        refine ⟨_, hgv, hg.1, ?_⟩
        rw [List.length_append]; exact h
      · rintro ⟨v, h1, h2, h3⟩
        rw [huniq v h1, List.length_append] at h3
        exact h3
  · rw [v6_bad z _ fz _ _ g lw (-1) hd hg hne]
    constructor
    · intro h; cases h
    · rintro ⟨v, ⟨-, -, h, -⟩, h2, -⟩; exact absurd ⟨h2, h⟩ hg

theorem v6_last (z : Int) (ps : List (BitVec 16)) (lw fz : Bool) (g : List Byte) (hd : ch ':' ∉ g) (hne : g ≠ [])
    (hl : g.length ≤ 7) (a : InetAddress) :
    v6Loop z g ps.length lw fz (-1) (addrOf ps) = .ok a ↔
      ∃ v, Group 7 g v ∧ ps.length = 7 ∧ a = addrOf (ps ++ [v]) := by
  by_cases hg : ps.length ≤ 7 ∧ AllDigits hexDigit g
  · have := v6_group z _ hg.1 lw fz (addrOf ps) [] g hg.2 hne hl
    rw [List.append_nil] at this
    rw [this, v6Loop, if_neg (by omega)]
    by_cases hv : value hexDigit 16 g > 65535
    · rw [if_pos (by omega)]
      constructor
      · intro h; cases h
      · rintro ⟨v, ⟨-, -, -, h⟩, -⟩
        have := v.isLt; omega
    · have hgv : Group 7 g (BitVec.ofNat 16 (value hexDigit 16 g)) :=
        ⟨hne, hl, hg.2, by rw [BitVec.toNat_ofNat]; omega⟩
      have huniq : ∀ v, Group 7 g v → v = BitVec.ofNat 16 (value hexDigit 16 g) := by
        rintro v ⟨-, -, -, h⟩; rw [h]; simp
      by_cases h7 : ps.length = 7
      · rw [if_neg (by omega), ofInt16 hgv.2.2.2]
        have := set_addrOf ps hg.1 (BitVec.ofNat 16 (value hexDigit 16 g))
        rw [h7] at this
        rw [this]
        constructor
        · intro h; cases h; exact ⟨_, hgv, h7, rfl⟩
        · rintro ⟨v, h1, -, rfl⟩; rw [huniq v h1]
      · rw [if_pos (by omega)]
        constructor
        · intro h; cases h
        · rintro ⟨v, -, h, -⟩; exact absurd h h7
  · have := v6_bad z ps.length fz (addrOf ps) [] g lw (-1) hd hg hne
    rw [List.append_nil] at this
    rw [this]
    constructor
    · intro h; cases h
    · rintro ⟨v, ⟨-, -, h, -⟩, h2, -⟩; exact absurd ⟨by omega, h⟩ hg

theorem v6_nil (z : Int) (idx : Nat) (lw fz : Bool) (addr a : InetAddress) :
    v6Loop z [] idx lw fz (-1) addr = .ok a ↔ idx = 8 ∧ a = addr := by
  rw [v6Loop]
  by_cases h : idx = 8
  · rw [if_pos ⟨h, rfl⟩]; simp [h, eq_comm]
  · rw [if_neg (by omega), if_pos (by omega)]; simp [h]

theorem v6_colon1 (z : Int) (r : List Byte) (idx : Nat) (fz : Bool) (addr : InetAddress) :
    v6Loop z (ch ':' :: r) idx false fz (-1) addr = v6Loop z r idx true fz (-1) addr := by
  rw [v6Loop, if_pos rfl]; simp

theorem v6_colon2 (z : Int) (r : List Byte) (idx : Nat) (fz : Bool) (addr a : InetAddress) :
    v6Loop z (ch ':' :: r) idx true fz (-1) addr = .ok a ↔
      fz = false ∧ 2 ≤ z ∧ v6Loop z r (idx + z.toNat) false true (-1) addr = .ok a := by
  rw [v6Loop, if_pos rfl]
  simp only [Bool.not_true, Bool.false_eq_true, if_false, ne_eq, not_true_eq_false]
  cases fz
  · by_cases hz : z < 2
    · simp [hz]
    · simp only [Bool.false_eq_true, if_false, if_neg hz, true_and]
      constructor
      · intro h; exact ⟨by omega, h⟩
      · exact fun h => h.2
  · simp

theorem v6_le (z : Int) : ∀ (s : List Byte) (idx : Nat) (lw fz : Bool) (cur : Int) (addr a : InetAddress),
    v6Loop z s idx lw fz cur addr = .ok a → idx ≤ 8 := by
  intro s
  induction s with
  | nil =>
    intro idx lw fz cur addr a h
    rw [v6Loop] at h
    repeat' split at h
    all_goals first | omega | cases h
  | cons c s ih =>
    intro idx lw fz cur addr a h
    rw [v6Loop] at h
    repeat' split at h
    all_goals first | cases h | (have := ih _ _ _ _ _ _ h; omega)

/-! ### Texts -/

theorem Std.Group.no_colon {n : Nat} {g : List Byte} {v : BitVec 16} (h : Group n g v) : ch ':' ∉ g :=
  fun hm => hex_ne_colon (h.2.2.1 _ hm) rfl

theorem Std.Groups.count {n : Nat} {s : List Byte} {vs : List (BitVec 16)} (h : Groups n s vs) :
    s.count (ch ':') + 1 = vs.length := by
  induction h with
  | one s v hg => rw [List.count_eq_zero.2 hg.no_colon]; rfl
  | more s t v vs hg _ ih =>
    rw [List.count_append, List.count_cons_self, List.count_eq_zero.2 hg.no_colon, List.length_cons]; omega

theorem Std.Groups.head {n : Nat} {s : List Byte} {vs : List (BitVec 16)} (h : Groups n s vs) :
    ∃ c t, s = c :: t ∧ c ≠ ch ':' := by
  have key : ∀ (g r : List Byte) (v : BitVec 16), Group n g v → ∃ c t, g ++ r = c :: t ∧ c ≠ ch ':' := by
    intro g r v hg
    cases g with
    | nil => exact absurd rfl hg.1
    | cons c t => exact ⟨c, t ++ r, rfl, hex_ne_colon (hg.2.2.1 c (by simp))⟩
  cases h with
  | one s v hg => have := key s [] v hg; rwa [List.append_nil] at this
  | more s t v vs hg _ => exact key s _ v hg

theorem Std.Groups.last {n : Nat} {s : List Byte} {vs : List (BitVec 16)} (h : Groups n s vs) :
    ∃ t c, s = t ++ [c] ∧ c ≠ ch ':' := by
  induction h with
  | one s v hg =>
    rcases List.eq_nil_or_concat s with rfl | ⟨t, c, rfl⟩
    · exact absurd rfl hg.1
    · exact ⟨t, c, by simp, hex_ne_colon (hg.2.2.1 c (by simp))⟩
  | more s t v vs hg _ ih =>
    obtain ⟨t', c, rfl, hc⟩ := ih
    exact ⟨s ++ ch ':' :: t', c, by simp, hc⟩

/-- A single colon at the end. -/
def BadEnd (r : List Byte) : Prop := ∃ t c, r = t ++ [c, ch ':'] ∧ c ≠ ch ':'

theorem BadEnd.prepend {r : List Byte} (h : BadEnd r) (p : List Byte) : BadEnd (p ++ r) := by
  obtain ⟨t, c, rfl, hc⟩ := h
  exact ⟨p ++ t, c, by simp, hc⟩

theorem Std.Group.badEnd {n : Nat} {g : List Byte} {v : BitVec 16} (h : Group n g v) : BadEnd (g ++ [ch ':']) := by
  obtain ⟨t, c, rfl, hc⟩ := (Groups.one g v h).last
  exact ⟨t, c, by simp, hc⟩

/-- Reading groups where a `::` is no longer possible. -/
theorem v6_after (z : Int) : ∀ (n : Nat) (r : List Byte), r.length ≤ n → NoLong 7 (ch ':') r →
    ∀ (ps : List (BitVec 16)) (lw : Bool) (a : InetAddress),
      (lw = true ∨ r.head? ≠ some (ch ':')) →
      v6Loop z r ps.length lw true (-1) (addrOf ps) = .ok a →
      (∃ vs, Groups 7 r vs ∧ ps.length + vs.length = 8 ∧ a = addrOf (ps ++ vs)) ∨
        (r = [] ∧ ps.length = 8 ∧ a = addrOf ps) ∨ BadEnd r := by
  intro n
  induction n with
  | zero =>
    intro r hr _ ps lw a _ h
    have : r = [] := List.length_eq_zero_iff.1 (by omega)
    subst this
    right; left
    obtain ⟨h1, h2⟩ := (v6_nil _ _ _ _ _ _).1 h
    exact ⟨rfl, h1, h2⟩
  | succ n ih =>
    intro r hr hl ps lw a hlw h
    rcases split_at (ch ':') r with h0 | ⟨g, r1, rfl, hg⟩
    · by_cases hne : r = []
      · subst hne
        right; left
        obtain ⟨h1, h2⟩ := (v6_nil _ _ _ _ _ _).1 h
        exact ⟨rfl, h1, h2⟩
      · obtain ⟨v, hv, h1, h2⟩ := (v6_last z ps lw true r h0 hne (hl.self h0) a).1 h
        left
        exact ⟨[v], .one r v hv, by simp [h1], h2⟩
    · by_cases hne : g = []
      · subst hne
        rw [List.nil_append] at h
        have : lw = true := by
          rcases hlw with h | h
          · exact h
          · exact absurd (by simp) h
        subst this
        obtain ⟨h1, -⟩ := (v6_colon2 _ _ _ _ _ _).1 h
        cases h1
      · obtain ⟨v, hv, h1, h2⟩ := (v6_step z ps lw true g r1 hg hne (hl.left hg) a).1 h
        have hr1 : r1.length ≤ n := by simp at hr; omega
        rcases ih r1 hr1 hl.right (ps ++ [v]) true a (Or.inl rfl) h2 with ⟨vs, g1, g2, g3⟩ | ⟨rfl, g2, g3⟩ | g1
        · left
          refine ⟨v :: vs, .more g r1 v vs hv g1, ?_, ?_⟩
          · simp at g2 ⊢; omega
          · rw [g3]; simp
        · right; right; exact hv.badEnd
        · right; right
          have := g1.prepend (g ++ [ch ':'])
          simpa using this

/-- Reading groups up to a `::`. -/
theorem v6_before (z : Int) : ∀ (n : Nat) (r : List Byte), r.length ≤ n → NoLong 7 (ch ':') r →
    ∀ (ps : List (BitVec 16)) (lw : Bool) (a : InetAddress),
      (lw = true ∨ r.head? ≠ some (ch ':')) →
      v6Loop z r ps.length lw false (-1) (addrOf ps) = .ok a →
      (∃ vs, Groups 7 r vs ∧ ps.length + vs.length = 8 ∧ a = addrOf (ps ++ vs)) ∨
        (r = [] ∧ ps.length = 8 ∧ a = addrOf ps) ∨ BadEnd r ∨
        (∃ vs p r1, r = p ++ ch ':' :: r1 ∧ ((p = [] ∧ vs = []) ∨ ∃ q, p = q ++ [ch ':'] ∧ Groups 7 q vs) ∧ 2 ≤ z ∧
          NoLong 7 (ch ':') r1 ∧
          v6Loop z r1 ((ps ++ vs).length + z.toNat) false true (-1) (addrOf (ps ++ vs)) = .ok a) := by
  intro n
  induction n with
  | zero =>
    intro r hr _ ps lw a _ h
    have : r = [] := List.length_eq_zero_iff.1 (by omega)
    subst this
    right; left
    obtain ⟨h1, h2⟩ := (v6_nil _ _ _ _ _ _).1 h
    exact ⟨rfl, h1, h2⟩
  | succ n ih =>
    intro r hr hl ps lw a hlw h
    rcases split_at (ch ':') r with h0 | ⟨g, r1, rfl, hg⟩
    · by_cases hne : r = []
      · subst hne
        right; left
        obtain ⟨h1, h2⟩ := (v6_nil _ _ _ _ _ _).1 h
        exact ⟨rfl, h1, h2⟩
      · obtain ⟨v, hv, h1, h2⟩ := (v6_last z ps lw false r h0 hne (hl.self h0) a).1 h
        left
        exact ⟨[v], .one r v hv, by simp [h1], h2⟩
    · by_cases hne : g = []
      · subst hne
        rw [List.nil_append] at h
        have : lw = true := by
          rcases hlw with h | h
          · exact h
          · exact absurd (by simp) h
        subst this
        obtain ⟨-, h1, h2⟩ := (v6_colon2 _ _ _ _ _ _).1 h
        right; right; right
        exact ⟨[], [], r1, by simp, Or.inl ⟨rfl, rfl⟩, h1, hl.right, by simpa using h2⟩
      · obtain ⟨v, hv, h1, h2⟩ := (v6_step z ps lw false g r1 hg hne (hl.left hg) a).1 h
        have hr1 : r1.length ≤ n := by simp at hr; omega
        rcases ih r1 hr1 hl.right (ps ++ [v]) true a (Or.inl rfl) h2 with ⟨vs, g1, g2, g3⟩ | ⟨rfl, g2, g3⟩ | g1 |
          ⟨vs, p, r2, rfl, g2, g3, g4, g5⟩
        · left
          refine ⟨v :: vs, .more g r1 v vs hv g1, ?_, ?_⟩
          · simp at g2 ⊢; omega
          · rw [g3]; simp
        · right; right; left; exact hv.badEnd
        · right; right; left
          have := g1.prepend (g ++ [ch ':'])
          simpa using this
        · right; right; right
          refine ⟨v :: vs, g ++ ch ':' :: p, r2, by simp, ?_, g3, g4, ?_⟩
          · right
            rcases g2 with ⟨rfl, rfl⟩ | ⟨q, rfl, hq⟩
            · exact ⟨g, by simp, .one g v hv⟩
            · exact ⟨g ++ ch ':' :: q, by simp, .more g q v vs hv hq⟩
          · rw [List.append_cons]; exact g5

/-- What may follow the `::`. -/
theorem v6_rest (z : Int) (ps : List (BitVec 16)) (r : List Byte) (hl : NoLong 7 (ch ':') r) (a : InetAddress)
    (h : v6Loop z r (ps.length + z.toNat) false true (-1) (addrOf ps) = .ok a) (hb : ¬ BadEnd r) :
    ps.length + z.toNat ≤ 8 ∧
    ((∃ ws, Groups0 7 r ws ∧ ps.length + z.toNat + ws.length = 8 ∧
      a = addrOf (ps ++ List.replicate z.toNat 0 ++ ws)) ∨
    (∃ r1 ws, r = ch ':' :: r1 ∧ Groups0 7 r1 ws ∧ ps.length + z.toNat + ws.length = 8)) := by
  have h8 := v6_le _ _ _ _ _ _ _ _ h
  refine ⟨h8, ?_⟩
  have el : (ps ++ List.replicate z.toNat (0 : BitVec 16)).length = ps.length + z.toNat := by simp
  rw [← addrOf_zeros ps z.toNat h8] at h
  by_cases hh : r.head? = some (ch ':')
  · right
    cases r with
    | nil => cases hh
    | cons c r1 =>
      simp only [List.head?_cons, Option.some.injEq] at hh
      subst hh
      rw [v6_colon1, ← el] at h
      have hl1 : NoLong 7 (ch ':') r1 := by
        have : NoLong 7 (ch ':') ([] ++ ch ':' :: r1) := hl
        exact this.right
      rcases v6_after z r1.length r1 (Nat.le_refl _) hl1 _ true a (Or.inl rfl) h with ⟨vs, g1, g2, g3⟩ | ⟨rfl, g2, g3⟩ | g1
      · exact ⟨r1, vs, rfl, Or.inr g1, by rw [el] at g2; exact g2⟩
      · exact ⟨[], [], rfl, Or.inl ⟨rfl, rfl⟩, by rw [el] at g2; simpa using g2⟩
      · exact absurd (g1.prepend [ch ':']) hb
  · left
    rw [← el] at h
    rcases v6_after z r.length r (Nat.le_refl _) hl _ false a (Or.inr hh) h with ⟨vs, g1, g2, g3⟩ | ⟨rfl, g2, g3⟩ | g1
    · exact ⟨vs, Or.inr g1, by rw [el] at g2; exact g2, g3⟩
    · exact ⟨[], Or.inl ⟨rfl, rfl⟩, by rw [el] at g2; simpa using g2, by rw [g3]; simp⟩
    · exact absurd g1 hb

/-! ### The other direction -/

theorem groups_write (z : Int) {s : List Byte} {vs : List (BitVec 16)} (h : Groups 7 s vs) :
    ∀ (ps : List (BitVec 16)) (lw fz : Bool), ps.length + vs.length = 8 →
      v6Loop z s ps.length lw fz (-1) (addrOf ps) = .ok (addrOf (ps ++ vs)) := by
  induction h with
  | one s v hg =>
    intro ps lw fz hl
    rw [v6_last z ps lw fz s hg.no_colon hg.1 hg.2.1]
    exact ⟨v, hg, by simpa using hl, rfl⟩
  | more s t v vs hg _ ih =>
    intro ps lw fz hl
    simp only [List.length_cons] at hl
    rw [v6_step z ps lw fz s t hg.no_colon hg.1 hg.2.1]
    refine ⟨v, hg, by omega, ?_⟩
    rw [ih (ps ++ [v]) true fz (by simp; omega)]
    simp

theorem groups_colon (z : Int) {s : List Byte} {vs : List (BitVec 16)} (h : Groups 7 s vs) (r : List Byte) (a : InetAddress) :
    ∀ (ps : List (BitVec 16)) (lw fz : Bool), ps.length + vs.length ≤ 8 →
      v6Loop z r (ps ++ vs).length true fz (-1) (addrOf (ps ++ vs)) = .ok a →
      v6Loop z (s ++ ch ':' :: r) ps.length lw fz (-1) (addrOf ps) = .ok a := by
  induction h with
  | one s v hg =>
    intro ps lw fz hl h
    rw [v6_step z ps lw fz s r hg.no_colon hg.1 hg.2.1]
    exact ⟨v, hg, by simp at hl; omega, h⟩
  | more s t v vs hg _ ih =>
    intro ps lw fz hl h
    simp only [List.length_cons] at hl
    rw [List.append_assoc, List.cons_append, v6_step z ps lw fz s _ hg.no_colon hg.1 hg.2.1]
    refine ⟨v, hg, by omega, ?_⟩
    apply ih (ps ++ [v]) true fz (by simp; omega)
    simpa using h

theorem Std.Groups0.count {n : Nat} {s : List Byte} {vs : List (BitVec 16)} (h : Groups0 n s vs) :
    s.count (ch ':') + (if vs = [] then 0 else 1) = vs.length := by
  rcases h with ⟨rfl, rfl⟩ | h
  · rfl
  · have := h.count
    have hne : vs ≠ [] := by rintro rfl; simp at this
    rw [if_neg hne]; omega

/-- `zero_segment_len` of a text with few colons. -/
theorem z_small (s : List Byte) (h : s.count (ch ':') ≤ 100) (k : Int) (hk : 0 ≤ k ∧ k ≤ 9) :
    wrap (k - sections s) = k - s.count (ch ':') := by
  have : sections s = s.count (ch ':') := Nat.mod_eq_of_lt (by omega)
  rw [this, wrap_small _ (by omega) (by omega)]

end C3.Inet
