import Verif.Inet.Lemmas6
/-
Helper lemmas: the texts of IPv6 addresses that are accepted.
-/
set_option autoImplicit false

namespace C3.Inet
open C3.Fmt (Byte ch)
open Std

theorem head_of {s t : List Byte} {c : Byte} (h : s = c :: t) (hc : c ≠ ch ':') (r : List Byte) :
    ¬ (s ++ r).head? = some (ch ':') := by
  subst h; simp [hc]

theorem last_of {s t : List Byte} {c : Byte} (h : s = t ++ [c]) (hc : c ≠ ch ':') (r : List Byte) :
    ¬ (r ++ s).getLast? = some (ch ':') := by
  subst h
  rw [← List.append_assoc, List.getLast?_concat]
  simpa using hc

/-- The loop is reached with a known number of zero groups. -/
theorem v6_enter (s : List Byte) (z : Int) (a : InetAddress) (hl : 2 ≤ s.length) (hc : s.count (ch ':') ≤ 100)
    (hz : (if s.head? = some (ch ':') ∨ s.getLast? = some (ch ':') then (9 : Int) else 8) - s.count (ch ':') = z)
    (h7 : ¬ (z = 7 ∧ s.length = 2)) (h8 : ¬ z > 7)
    (h : v6Loop z s 0 false false (-1) (zero true) = .ok a) : ipv6_from_str s = .ok a := by
  unfold ipv6_from_str
  rw [if_neg (by omega)]
  have e : (if s.head? = some (ch ':') ∨ s.getLast? = some (ch ':') then wrap (9 - sections s) else wrap (8 - sections s)) = z := by
    rw [← hz]
    split
    · exact z_small s hc 9 (by decide)
    · exact z_small s hc 8 (by decide)
  simp only [e, if_neg h7, if_neg h8]
  exact h

theorem addrOf_full (vs : List (BitVec 16)) (h : vs.length = 8) : addrOf vs = ⟨true, enc vs⟩ := by
  simp [addrOf, h]

theorem v6_complete (s : List Byte) (vs : List (BitVec 16)) (h : Text6 7 2 s vs) :
    ipv6_from_str s = .ok ⟨true, enc vs⟩ := by
  cases h with
  | full _ _ hg h8 =>
    have hc := hg.count
    obtain ⟨c, t, e1, hc1⟩ := hg.head
    obtain ⟨t', c', e2, hc2⟩ := hg.last
    have n1 := head_of e1 hc1 []
    have n2 := last_of e2 hc2 []
    rw [List.append_nil] at n1
    rw [List.nil_append] at n2
    have hcl : s.count (ch ':') ≤ s.length := List.count_le_length
    apply v6_enter s 1 _ (by omega) (by omega)
    · rw [if_neg (by rintro (h | h); exact n1 h; exact n2 h)]; omega
    · omega
    · omega
    · have := groups_write 1 hg [] false false (by simpa using h8)
      rw [List.nil_append, addrOf_full vs h8] at this
      exact this
  | short p q vs ws z hp hq hz h8 =>
    have hlen : (vs ++ List.replicate z (0 : BitVec 16) ++ ws).length = 8 := by simp; omega
    rcases hp with ⟨rfl, rfl⟩ | hp
    · rcases hq with ⟨rfl, rfl⟩ | hq
      · have : z = 8 := by simpa using h8
        subst this
        decide +kernel
      · have hc := hq.count
        simp only [List.length_nil] at h8
        obtain ⟨c, t, e1, hc1⟩ := hq.head
        apply v6_enter _ z _ (by simp) (by simp [List.count_cons]; omega)
        · rw [if_pos (Or.inl (by simp))]
          simp [List.count_cons]; omega
        · subst e1; simp
        · omega
        · rw [List.nil_append, v6_colon1, v6_colon2]
          refine ⟨rfl, by omega, ?_⟩
          have := groups_write z hq (List.replicate z 0) false true (by simp; omega)
          rw [addrOf_full (List.replicate z 0 ++ ws) (by simp; omega), List.length_replicate] at this
          rw [Int.toNat_natCast, Nat.zero_add, List.nil_append, ← addrOf_nil, ← addrOf_zeros [] z (by simp; omega)]
          exact this
    · have hc := hp.count
      obtain ⟨c, t, e1, hc1⟩ := hp.head
      have n1 := head_of e1 hc1 (ch ':' :: ch ':' :: q)
      have hpl : 1 ≤ p.length := by subst e1; simp
      have start : ∀ a, v6Loop z q (vs.length + z) false true (-1) (addrOf vs) = .ok a →
          v6Loop z (p ++ ch ':' :: ch ':' :: q) 0 false false (-1) (zero true) = .ok a := by
        intro a h
        apply groups_colon z hp (ch ':' :: q) a [] false false (by simp; omega)
        rw [v6_colon2]
        refine ⟨rfl, by omega, ?_⟩
        simpa using h
      rcases hq with ⟨rfl, rfl⟩ | hq
      · simp only [List.length_nil, Nat.add_zero] at h8
        apply v6_enter _ z _ (by simp) (by simp [List.count_append, List.count_cons]; omega)
        · rw [if_pos (Or.inr (by simp))]
          simp [List.count_append, List.count_cons]; omega
        · rintro ⟨-, h⟩
          simp at h
          rw [h] at hpl
          simp at hpl
        · omega
        · apply start
          rw [v6_nil]
          refine ⟨by omega, ?_⟩
          rw [List.append_nil, ← addrOf_full _ (by simp; omega), addrOf_zeros vs z (by omega)]
      · have hcq := hq.count
        obtain ⟨t', c', e2, hc2⟩ := hq.last
        have n2 := last_of e2 hc2 (p ++ [ch ':', ch ':'])
        rw [List.append_assoc] at n2
        apply v6_enter _ z _ (by simp; omega) (by simp [List.count_append, List.count_cons]; omega)
        · rw [if_neg (by rintro (h | h); exact n1 h; exact n2 h)]
          simp [List.count_append, List.count_cons]; omega
        · omega
        · omega
        · apply start
          have := groups_write z hq (vs ++ List.replicate z 0) false true (by simp; omega)
          rw [addrOf_full (vs ++ List.replicate z 0 ++ ws) hlen, addrOf_zeros vs z (by omega)] at this
          simpa using this

theorem v6_sound (s : List Byte) (a : InetAddress) (hl : NoLong 7 (ch ':') s)
    (hlead : ∀ c t, s = ch ':' :: c :: t → c = ch ':') (htrail : ¬ BadEnd s)
    (h : ipv6_from_str s = .ok a) : ∃ vs, Text6 7 2 s vs ∧ a = ⟨true, enc vs⟩ := by
  unfold ipv6_from_str at h
  by_cases h2 : s.length < 2
  · rw [if_pos h2] at h; cases h
  rw [if_neg h2] at h
  generalize hz : (if s.head? = some (ch ':') ∨ s.getLast? = some (ch ':') then wrap (9 - sections s) else wrap (8 - sections s)) = z at h
  simp only at h
  have zeq : s.count (ch ':') ≤ 100 →
      z = (if s.head? = some (ch ':') ∨ s.getLast? = some (ch ':') then (9 : Int) else 8) - s.count (ch ':') := by
    intro hc
    rw [← hz]
    split
    · exact z_small s hc 9 (by decide)
    · exact z_small s hc 8 (by decide)
  by_cases h7 : z = 7 ∧ s.length = 2
  · rw [if_pos h7] at h
    obtain ⟨h7, hs2⟩ := h7
    have hs : s = [ch ':', ch ':'] := by
      match s, hs2 with
      | [x, y], _ =>
        by_cases hx : x = ch ':'
        · subst hx; rw [hlead y [] rfl]
        · by_cases hy : y = ch ':'
          · subst hy; exact absurd ⟨[], x, rfl, hx⟩ htrail
          · exfalso
            have := zeq (by simp [List.count_cons, hx, hy])
            rw [if_neg (by simp [hx, hy])] at this
            simp [List.count_cons, hx, hy] at this
            omega
    cases h
    subst hs
    exact ⟨_, .short [] [] [] [] 8 (Or.inl ⟨rfl, rfl⟩) (Or.inl ⟨rfl, rfl⟩) (by decide) rfl, by decide⟩
  rw [if_neg h7] at h
  by_cases h8 : z > 7
  · rw [if_pos h8] at h; cases h
  rw [if_neg h8] at h
  by_cases hh : s.head? = some (ch ':')
  · match s, h2, hh with
    | x :: y :: r, _, hh =>
      simp only [List.head?_cons, Option.some.injEq] at hh
      subst hh
      have hy := hlead y r rfl
      subst hy
      rw [v6_colon1, v6_colon2] at h
      obtain ⟨-, hz2, h⟩ := h
      have hlr : NoLong 7 (ch ':') r := by
        have h1 : NoLong 7 (ch ':') ([] ++ ch ':' :: ([] ++ ch ':' :: r)) := hl
        exact h1.right.right
      have hb : ¬ BadEnd r := fun hb => htrail (hb.prepend [ch ':', ch ':'])
      obtain ⟨hle, ⟨ws, hw, e8, ea⟩ | ⟨r1, ws, rfl, hw, e8⟩⟩ := v6_rest z [] r hlr a h hb
      · simp only [List.length_nil, Nat.zero_add] at e8
        refine ⟨_, .short [] r [] ws z.toNat (Or.inl ⟨rfl, rfl⟩) hw (by omega) (by simpa using e8), ?_⟩
        rw [ea, addrOf_full _ (by simpa using e8)]
      · exfalso
        have hc := hw.count
        simp only [List.length_nil, Nat.zero_add] at e8
        have := zeq (by
          simp only [List.count_cons_self]
          split at hc <;> omega)
        rw [if_pos (Or.inl (by simp))] at this
        simp only [List.count_cons_self] at this
        split at hc <;> omega
  · rcases v6_before z s.length s (Nat.le_refl _) hl [] false a (Or.inr hh) h with ⟨vs, g1, g2, g3⟩ | ⟨rfl, -, -⟩ | g1 |
      ⟨vs, p, r1, rfl, g2, g3, g4, g5⟩
    · have h8 : vs.length = 8 := by simpa using g2
      exact ⟨vs, .full s vs g1 h8, by rw [g3, List.nil_append, addrOf_full _ h8]⟩
    · simp at h2
    · exact absurd g1 htrail
    · rcases g2 with ⟨rfl, rfl⟩ | ⟨q, rfl, hq⟩
      · exact absurd (by simp) hh
      · have hb : ¬ BadEnd r1 := fun hb => htrail (by
          have := hb.prepend (q ++ [ch ':'] ++ [ch ':'])
          rw [List.append_assoc] at this
          exact this)
        have hcq := hq.count
        rw [List.nil_append] at g5
        obtain ⟨hle, ⟨ws, hw, e8, ea⟩ | ⟨r2, ws, rfl, hw, e8⟩⟩ := v6_rest z vs r1 g4 a g5 hb
        · have := Text6.short (len := 7) (least := 2) q r1 vs ws z.toNat (Or.inr hq) hw (by omega) e8
          refine ⟨_, by simpa using this, ?_⟩
          rw [ea, addrOf_full _ (by simp; omega)]
          simp
        · exfalso
          have hc := hw.count
          have hcs : (q ++ [ch ':'] ++ ch ':' :: ch ':' :: r2).count (ch ':') = vs.length - 1 + 3 + r2.count (ch ':') := by
            simp [List.count_append, List.count_cons]; omega
          have hz' := zeq (by rw [hcs]; split at hc <;> omega)
          rw [hcs] at hz'
          rcases hw with ⟨rfl, rfl⟩ | hw
          · rw [if_pos (Or.inr (by simp))] at hz'
            simp at hz' hc e8; omega
          · obtain ⟨t', c', e2, hc2⟩ := hw.last
            have n2 := last_of e2 hc2 (q ++ [ch ':'] ++ [ch ':', ch ':'])
            rw [List.append_assoc] at n2
            rw [if_neg (by rintro (h | h); exact hh h; exact n2 h)] at hz'
            have := hw.count
            omega

theorem v6_no_panic (z : Int) : ∀ (s : List Byte) (idx : Nat) (lw fz : Bool) (cur : Int) (addr : InetAddress),
    (lw = true → cur = -1) → (cur ≠ -1 → idx ≤ 7) → v6Loop z s idx lw fz cur addr ≠ .error .panic := by
  intro s
  induction s with
  | nil =>
    intro idx lw fz cur addr _ _ h
    rw [v6Loop] at h
    repeat' split at h
    all_goals cases h
  | cons c s ih =>
    intro idx lw fz cur addr h1 h2 h
    rw [v6Loop] at h
    by_cases hc : c = ch ':'
    · rw [if_pos hc] at h
      cases lw
      · simp only [Bool.not_false, if_true] at h
        by_cases hm : cur = -1
        · rw [if_pos hm] at h
          exact ih _ _ _ _ _ (fun _ => hm) h2 h
        · rw [if_neg hm] at h
          have := h2 hm
          split at h
          · cases h
          · rw [if_neg (by omega)] at h
            exact ih _ _ _ _ _ (fun _ => rfl) (fun h => absurd rfl h) h
      · have hm := h1 rfl
        simp only [Bool.not_true, Bool.false_eq_true, if_false, hm, ne_eq, not_true_eq_false] at h
        split at h
        · cases h
        · split at h
          · cases h
          · exact ih _ _ _ _ _ (fun h => by cases h) (fun h => absurd rfl h) h
    · rw [if_neg hc] at h
      split at h
      · cases h
      · rename_i hi
        exact ih _ _ _ _ _ (fun h => by cases h) (fun _ => by omega) h

end C3.Inet
