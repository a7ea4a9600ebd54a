import Verif.Fmt.Props
import Verif.Time.Lemmas

/-! Lemmas about the texts of durations and dates. -/

set_option autoImplicit false

namespace C3.Time
open C3.Fmt (Byte ch txt Stop vprintf tableChar numeral_small numeral_step)
open C3.Fmt.Std (numeral zeros spaces Item Dir Flag Clean val)
open Std

theorem table : ∀ d < 10, (tableChar false d).toNat = 48 + d := by decide +kernel

theorem numeral_digits (n : Nat) : (∀ c ∈ numeral 10 false n, 48 ≤ c.toNat ∧ c.toNat ≤ 57) ∧ value (numeral 10 false n) = n := by
  induction n using Nat.strongRecOn with
  | _ n ih =>
    by_cases h : n < 10
    · rw [numeral_small n h]
      have := table n h
      constructor
      · intro c hc
        rw [List.mem_singleton] at hc
        subst hc; omega
      · simp [value, this]
    · obtain ⟨h1, h2⟩ := ih (n / 10) (by omega)
      have := table (n % 10) (by omega)
      rw [numeral_step n (by omega)]
      constructor
      · intro c hc
        rcases List.mem_append.1 hc with hc | hc
        · exact h1 c hc
        · rw [List.mem_singleton] at hc
          subst hc; omega
      · have e : value (numeral 10 false (n / 10) ++ [tableChar false (n % 10)]) =
            10 * value (numeral 10 false (n / 10)) + ((tableChar false (n % 10)).toNat - 48) := by
          simp [value, List.foldl_append]
        rw [e, h2, this]; omega

theorem numeral_length1 (n : Nat) (h : n < 10) : (numeral 10 false n).length = 1 := by rw [numeral_small n h]; rfl
theorem numeral_length2 (n : Nat) (h : 10 ≤ n) (h' : n < 100) : (numeral 10 false n).length = 2 := by
  rw [numeral_step n h, List.length_append, numeral_length1 _ (by omega)]; rfl
theorem numeral_length3 (n : Nat) (h : 100 ≤ n) (h' : n < 1000) : (numeral 10 false n).length = 3 := by
  rw [numeral_step n (by omega), List.length_append, numeral_length2 _ (by omega) (by omega)]; rfl
theorem numeral_length4 (n : Nat) (h : 1000 ≤ n) (h' : n < 10000) : (numeral 10 false n).length = 4 := by
  rw [numeral_step n (by omega), List.length_append, numeral_length3 _ (by omega) (by omega)]; rfl

/-- No percent sign. -/
def Plain (s : List Byte) : Prop := ∀ c ∈ s, c ≠ ch '%'

theorem Plain.append {s t : List Byte} (hs : Plain s) (ht : Plain t) : Plain (s ++ t) := by
  intro c hc
  rcases List.mem_append.1 hc with h | h
  · exact hs c h
  · exact ht c h

theorem plain_numeral (n : Nat) : Plain (numeral 10 false n) := by
  intro c hc h
  have := (numeral_digits n).1 c hc
  rw [h] at this
  revert this; decide

theorem plain_unit (n : Nat) {u : List Byte} (hu : Plain u) : Plain (unit n u) := by
  unfold unit
  split
  · intro c hc; cases hc
  · exact (plain_numeral n).append hu

theorem lits_text (s : List Byte) : (s.map Item.lit).flatMap Item.text = s := by
  induction s with
  | nil => rfl
  | cons c s ih => simp [Item.text, ih]

theorem lits_args (s : List Byte) : (s.map Item.lit).flatMap Item.args = [] := by
  induction s with
  | nil => rfl
  | cons c s ih => simp [Item.args, ih]

theorem lits_out (s : List Byte) : (s.map Item.lit).flatMap Item.out = s := by
  induction s with
  | nil => rfl
  | cons c s ih => simp [Item.out, ih]

theorem lits_good {s : List Byte} (h : Plain s) : ∀ i ∈ s.map Item.lit, i.Good := by
  intro i hi
  obtain ⟨c, hc, rfl⟩ := List.mem_map.1 hi
  exact h c hc

theorem lits_counted (s : List Byte) : ∀ i ∈ s.map Item.lit, i.Counted := by
  intro i hi
  obtain ⟨c, hc, rfl⟩ := List.mem_map.1 hi
  trivial

theorem print_plain {s : List Byte} (h : Plain s) : vprintf s [] = .ok (s, s.length) := by
  have := C3.Fmt.C118_count_partial (s.map .lit) (lits_good h) (lits_counted s)
  rwa [lits_text, lits_args, lits_out] at this

/-! ### Directives -/

def D0 : Dir := ⟨[], 0, none⟩

theorem D0_good (s : Bool) (w : Nat) (hw : w ≤ 128) (x : BitVec w) : (Item.int D0 .d s w x).Good :=
  ⟨⟨by decide, by intro p hp; cases hp⟩, hw,
    ⟨by decide, (by intro h; exact absurd h (by decide)), (by intro p h; exact absurd h (by decide)),
      (by intro h; exact absurd h (by decide)), (by intro _ h; cases h)⟩⟩

theorem D0_out (s : Bool) (w : Nat) (x : BitVec w) (n : Nat) (h : val s x = n) : (Item.int D0 .d s w x).out = numeral 10 false n := by
  have hn : ¬ ((n : Int) < 0) := by omega
  simp [Item.out, D0, Dir.int, Dir.digits, Dir.sign, Dir.pre, Dir.field, h, zeros, spaces, C3.Fmt.Std.Conv.base,
    C3.Fmt.Std.Conv.upper, hn]

theorem val64 (k : Int) (h1 : 0 ≤ k) (h2 : k < 2 ^ 63) : val true (BitVec.ofInt 64 k) = k.toNat := by
  unfold val
  simp only [if_true]
  rw [BitVec.toInt_ofInt, Int.bmod_eq_of_le (by omega) (by omega)]
  omega

theorem appendf_one (k : Int) (h1 : 0 ≤ k) (h2 : k < 2 ^ 63) {u : List Byte} (hu : Plain u) :
    appendf (txt ['%', 'd'] ++ u) [k] = numeral 10 false k.toNat ++ u := by
  obtain ⟨n, hn⟩ := C3.Fmt.C122_pieces (.int D0 .d true 64 (BitVec.ofInt 64 k) :: u.map .lit)
    (by
      intro i hi
      rcases List.mem_cons.1 hi with rfl | hi
      · exact D0_good _ _ (by decide) _
      · exact lits_good hu i hi) []
  rw [List.flatMap_cons, List.flatMap_cons, List.flatMap_cons, lits_text, lits_args, lits_out,
    D0_out _ _ _ _ (val64 k h1 h2)] at hn
  unfold appendf
  have e : vprintf (txt ['%', 'd'] ++ u) (List.map (fun x => C3.Fmt.Arg.int true 64 (BitVec.ofInt 64 x)) [k]) =
      .ok (numeral 10 false k.toNat ++ u, n) := hn
  rw [e]

theorem appendf_two (k l : Int) (h1 : 0 ≤ k) (h2 : k < 2 ^ 63) (h3 : 0 ≤ l) (h4 : l < 2 ^ 63) :
    appendf (txt ['%', 'd', '.', '%', 'd', 's']) [k, l] =
      numeral 10 false k.toNat ++ ch '.' :: (numeral 10 false l.toNat ++ [ch 's']) := by
  obtain ⟨n, hn⟩ := C3.Fmt.C122_pieces [.int D0 .d true 64 (BitVec.ofInt 64 k), .lit (ch '.'),
      .int D0 .d true 64 (BitVec.ofInt 64 l), .lit (ch 's')]
    (by
      intro i hi
      simp only [List.mem_cons, List.not_mem_nil, or_false] at hi
      rcases hi with rfl | rfl | rfl | rfl
      · exact D0_good _ _ (by decide) _
      · show ch '.' ≠ ch '%'; decide
      · exact D0_good _ _ (by decide) _
      · show ch 's' ≠ ch '%'; decide) []
  simp only [List.flatMap_cons, List.flatMap_nil, D0_out _ _ _ _ (val64 k h1 h2), D0_out _ _ _ _ (val64 l h3 h4)] at hn
  unfold appendf
  have e : vprintf (txt ['%', 'd', '.', '%', 'd', 's']) (List.map (fun x => C3.Fmt.Arg.int true 64 (BitVec.ofInt 64 x)) [k, l]) =
      .ok (numeral 10 false k.toNat ++ ch '.' :: (numeral 10 false l.toNat ++ [ch 's']), n) := hn
  rw [e]

/-! ### Durations -/

theorem unit_append (k : Int) (h1 : 0 ≤ k) (h2 : k < 2 ^ 63) {u : List Byte} (hu : Plain u) :
    (if k > 0 then appendf (txt ['%', 'd'] ++ u) [k] else []) = unit k.toNat u := by
  unfold unit
  by_cases h : k > 0
  · rw [if_pos h, if_neg (by omega), appendf_one k h1 h2 hu]
  · rw [if_neg h, if_pos (by omega)]

theorem plain_lits : Plain (txt ['m', 's']) ∧ Plain [0xC2, 0xB5, ch 's'] ∧ Plain (txt ['n', 's']) ∧ Plain [ch 'h'] ∧ Plain [ch 'm'] ∧
    Plain [ch 's'] := by
  refine ⟨?_, ?_, ?_, ?_, ?_, ?_⟩ <;> (intro c hc; revert c; decide)

theorem short_text (nd : Int) (h1 : 0 < nd) (h2 : nd < 1000000000) :
    nanoText nd = unit (nd.toNat / 1000000) (txt ['m', 's']) ++ unit (nd.toNat / 1000 % 1000) [0xC2, 0xB5, ch 's'] ++
      unit (nd.toNat % 1000) (txt ['n', 's']) := by
  obtain ⟨p1, p2, p3, -⟩ := plain_lits
  have a1 : nd.tdiv 1000000 = nd / 1000000 := Int.tdiv_eq_ediv_of_nonneg (by omega)
  unfold nanoText
  simp only [if_neg (show ¬ nd < 0 by omega), if_pos h2, a1]
  have b1 : (if nd / 1000000 > 0 then nd - nd / 1000000 * 1000000 else nd) = nd % 1000000 := by split <;> omega
  have a2 : (nd % 1000000).tdiv 1000 = nd % 1000000 / 1000 := Int.tdiv_eq_ediv_of_nonneg (by omega)
  simp only [b1, a2]
  have b2 : (if nd % 1000000 / 1000 > 0 then nd % 1000000 - nd % 1000000 / 1000 * 1000 else nd % 1000000) = nd % 1000 := by
    split <;> omega
  simp only [b2]
  have c1 := unit_append (nd / 1000000) (by omega) (by omega) p1
  have c2 := unit_append (nd % 1000000 / 1000) (by omega) (by omega) p2
  have c3 := unit_append (nd % 1000) (by omega) (by omega) p3
  have e1 : (nd / 1000000).toNat = nd.toNat / 1000000 := by omega
  have e2 : (nd % 1000000 / 1000).toNat = nd.toNat / 1000 % 1000 := by omega
  have e3 : (nd % 1000).toNat = nd.toNat % 1000 := by omega
  rw [e1] at c1; rw [e2] at c2; rw [e3] at c3
  rw [← c1, ← c2, ← c3]
  rfl

/-- What is printed for the fraction of a second. -/
def frac (ms : Nat) : List Byte :=
  if ms = 0 then [] else ch '.' :: numeral 10 false (strip 20 ms).toNat

theorem strip_bounds : ∀ ms < 1000, 0 ≤ strip 20 ((ms : Nat) : Int) ∧ strip 20 ((ms : Nat) : Int) < 1000 := by decide +kernel

theorem long_text (nd : Int) (h1 : 1000000000 ≤ nd) (h2 : nd < 2 ^ 63) :
    nanoText nd = unit (nd.toNat / 1000000000 / 3600) [ch 'h'] ++ unit (nd.toNat / 1000000000 / 60 % 60) [ch 'm'] ++
      numeral 10 false (nd.toNat / 1000000000 % 60) ++ frac (nd.toNat / 1000000 % 1000) ++ [ch 's'] := by
  obtain ⟨-, -, -, p1, p2, p3⟩ := plain_lits
  have a1 : nd.tdiv 1000000000 = nd / 1000000000 := Int.tdiv_eq_ediv_of_nonneg (by omega)
  unfold nanoText
  simp only [if_neg (show ¬ nd < 0 by omega), if_neg (show ¬ nd < 1000000000 by omega), a1]
  have a0 : (nd - nd / 1000000000 * 1000000000).tdiv 1000000 = ((nd.toNat / 1000000 % 1000 : Nat) : Int) := by
    rw [Int.tdiv_eq_ediv_of_nonneg (by omega)]; omega
  generalize hs : nd / 1000000000 = s
  have hs0 : 0 ≤ s := by omega
  have hsl : s < 2 ^ 63 := by omega
  have a2 : s.tdiv 3600 = s / 3600 := Int.tdiv_eq_ediv_of_nonneg (by omega)
  have b1 : (if s / 3600 > 0 then s - s / 3600 * 3600 else s) = s % 3600 := by split <;> omega
  have a3 : (s % 3600).tdiv 60 = s % 3600 / 60 := Int.tdiv_eq_ediv_of_nonneg (by omega)
  have b2 : (if s % 3600 / 60 > 0 then s % 3600 - s % 3600 / 60 * 60 else s % 3600) = s % 60 := by split <;> omega
  rw [hs] at a0
  simp only [a0, a2, b1, a3, b2]
  have c1 := unit_append (s / 3600) (by omega) (by omega) p1
  have c2 := unit_append (s % 3600 / 60) (by omega) (by omega) p2
  have e1 : (s / 3600).toNat = nd.toNat / 1000000000 / 3600 := by omega
  have e2 : (s % 3600 / 60).toNat = nd.toNat / 1000000000 / 60 % 60 := by omega
  have e3 : (s % 60).toNat = nd.toNat / 1000000000 % 60 := by omega
  rw [e1] at c1; rw [e2] at c2
  generalize hm : nd.toNat / 1000000 % 1000 = ms
  have hm1 : ms < 1000 := by omega
  obtain ⟨q1, q2⟩ := strip_bounds ms hm1
  have c3 : (if (ms : Int) > 0 then appendf (txt ['%', 'd', '.', '%', 'd', 's']) [s % 60, strip 20 ms] else appendf (txt ['%', 'd', 's']) [s % 60])
      = numeral 10 false (nd.toNat / 1000000000 % 60) ++ frac ms ++ [ch 's'] := by
    unfold frac
    by_cases h : ms = 0
    · rw [if_neg (by omega), if_pos h]
      have := appendf_one (s % 60) (by omega) (by omega) p3
      rw [e3] at this
      rw [List.append_nil]
      exact this
    · rw [if_pos (by omega), if_neg h, appendf_two _ _ (by omega) (by omega) q1 (by omega), e3]
      simp
  rw [show txt ['%', 'd', 'h'] = txt ['%', 'd'] ++ [ch 'h'] from rfl, show txt ['%', 'd', 'm'] = txt ['%', 'd'] ++ [ch 'm'] from rfl,
    c1, c2, c3]
  simp only [List.append_assoc]

theorem plain_text (nd : Int) (h1 : 0 < nd) (h2 : nd < 2 ^ 63) : Plain (nanoText nd) := by
  obtain ⟨p1, p2, p3, p4, p5, p6⟩ := plain_lits
  by_cases h : nd < 1000000000
  · rw [short_text nd h1 h]
    exact ((plain_unit _ p1).append (plain_unit _ p2)).append (plain_unit _ p3)
  · rw [long_text nd (by omega) h2]
    refine ((((plain_unit _ p4).append (plain_unit _ p5)).append (plain_numeral _)).append ?_).append p6
    unfold frac
    split
    · intro c hc; cases hc
    · intro c hc
      rcases List.mem_cons.1 hc with rfl | hc
      · decide
      · exact plain_numeral _ c hc

theorem nano_format (nd : Int) (h1 : 0 < nd) (h2 : nd < 2 ^ 63) :
    nano_to_format nd = .ok (nanoText nd, (nanoText nd).length) := by
  unfold nano_to_format
  rw [if_neg (by omega), print_plain (plain_text nd h1 h2)]

/-- A fraction of at least a tenth of a second. -/
theorem frac_ok (ms : Nat) (h1 : 100 ≤ ms) (h2 : ms < 1000) : Fraction (numeral 10 false (strip 20 ms).toNat) ms := by
  have key : ∀ ms < 1000, 100 ≤ ms → ∃ v < 1000, strip 20 ((ms : Nat) : Int) = ((v : Nat) : Int) ∧
      (100 ≤ v ∧ ms = v ∨ (10 ≤ v ∧ v < 100 ∧ ms = v * 10) ∨ (v < 10 ∧ ms = v * 100)) := by
    have : ∀ ms < 1000, 100 ≤ ms → strip 20 ((ms : Nat) : Int) = ((strip 20 ((ms : Nat) : Int)).toNat : Int) ∧
      (100 ≤ (strip 20 ((ms : Nat) : Int)).toNat ∧ ms = (strip 20 ((ms : Nat) : Int)).toNat ∨
        (10 ≤ (strip 20 ((ms : Nat) : Int)).toNat ∧ (strip 20 ((ms : Nat) : Int)).toNat < 100 ∧ ms = (strip 20 ((ms : Nat) : Int)).toNat * 10) ∨
        ((strip 20 ((ms : Nat) : Int)).toNat < 10 ∧ ms = (strip 20 ((ms : Nat) : Int)).toNat * 100)) := by decide +kernel
    intro ms h h'
    obtain ⟨g1, g2⟩ := this ms h h'
    exact ⟨_, by omega, g1, g2⟩
  obtain ⟨v, -, hv, hc⟩ := key ms h2 h1
  rw [hv, Int.toNat_natCast]
  obtain ⟨d1, d2⟩ := numeral_digits v
  have hne : numeral 10 false v ≠ [] := by
    intro h
    have := C3.Fmt.numeral_length_pos 10 false v
    rw [h] at this; simp at this
  rcases hc with ⟨g1, g2⟩ | ⟨g1, g2, g3⟩ | ⟨g1, g2⟩
  · have hl := numeral_length3 v g1 (by omega)
    exact ⟨hne, by omega, d1, by rw [d2, hl]; omega⟩
  · have hl := numeral_length2 v g1 g2
    exact ⟨hne, by omega, d1, by rw [d2, hl]; omega⟩
  · have hl := numeral_length1 v g1
    exact ⟨hne, by omega, d1, by rw [d2, hl]; omega⟩

end C3.Time
