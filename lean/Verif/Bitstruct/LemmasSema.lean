import Verif.Bitstruct.SpecSema
import Verif.Bigint.LemmasVal
import Verif.Bigint.Props

/-!
# The analysis of the members
-/

set_option autoImplicit false

namespace C3.Bitstruct

open C3.Bigint (CInt Int128 TypeKind int_is_neg int_comp CmpOp)

/-- A source as a declaration. -/
def toDecl (d : Source × Nat) : Decl :=
  ⟨d.1.type, match d.1.range with | .none => .inferred d.2 | .single a => .single a | .range a b => .range a b, d.1.erased⟩

theorem parse_true : ∀ (s : List Source) (ms : List Decl), parseLoop true ms s =
    if ∀ d ∈ s, d.range = .none then some (true, ms ++ (s.zipIdx ms.length).map toDecl) else none := by
  intro s
  induction s with
  | nil => intro ms; simp [parseLoop]
  | cons d s ih =>
    intro ms
    rcases d with ⟨t, r, e⟩
    cases r with
    | none =>
      simp only [parseLoop, Bool.not_true, Bool.false_and, Bool.false_eq_true, if_false]
      rw [ih]
      simp [toDecl]
    | single a => simp [parseLoop]
    | range a b => simp [parseLoop]

theorem parse_false : ∀ (s : List Source) (ms : List Decl), ms ≠ [] → parseLoop false ms s =
    if ∀ d ∈ s, d.range ≠ .none then some (false, ms ++ (s.zipIdx ms.length).map toDecl) else none := by
  intro s
  induction s with
  | nil => intro ms _; simp [parseLoop]
  | cons d s ih =>
    intro ms hms
    rcases d with ⟨t, r, e⟩
    cases r with
    | none => simp [parseLoop, hms]
    | single a =>
      simp only [parseLoop, Bool.false_eq_true, if_false]
      rw [ih _ (by simp)]
      simp [toDecl]
    | range a b =>
      simp only [parseLoop, Bool.false_eq_true, if_false]
      rw [ih _ (by simp)]
      simp [toDecl]

theorem parse_eq (s : List Source) (c : Bool) (ds : List Decl) : parse_bitstruct_body s = some (c, ds) →
    Uniform s ∧ ds = s.zipIdx.map toDecl ∧ ∀ d ∈ s, (d.range = .none ↔ c = true) := by
  intro h
  unfold parse_bitstruct_body at h
  cases s with
  | nil =>
    simp only [parseLoop, Option.some.injEq, Prod.mk.injEq] at h
    exact ⟨Or.inl (by simp), by simp [← h.2], by simp⟩
  | cons d s =>
    rcases d with ⟨t, r, e⟩
    cases r with
    | none =>
      simp only [parseLoop, Bool.not_false, List.isEmpty_nil, Bool.not_true, Bool.and_false, Bool.false_eq_true, if_false] at h
      rw [parse_true] at h
      split at h
      · rename_i hn
        simp only [Option.some.injEq, Prod.mk.injEq] at h
        obtain ⟨h1, h2⟩ := h
        subst h1
        refine ⟨Or.inl (by simpa using hn), by simp [← h2, toDecl], fun d hd => ?_⟩
        rcases List.mem_cons.1 hd with rfl | hd
        · simp
        · simp [hn d hd]
      · cases h
    | single a =>
      simp only [parseLoop, Bool.false_eq_true, if_false] at h
      rw [parse_false _ _ (by simp)] at h
      split at h
      · rename_i hn
        simp only [Option.some.injEq, Prod.mk.injEq] at h
        obtain ⟨h1, h2⟩ := h
        subst h1
        refine ⟨Or.inr (by simpa using hn), by simp [← h2, toDecl], fun d hd => ?_⟩
        rcases List.mem_cons.1 hd with rfl | hd
        · simp
        · simp [hn d hd]
      · cases h
    | range a b =>
      simp only [parseLoop, Bool.false_eq_true, if_false] at h
      rw [parse_false _ _ (by simp)] at h
      split at h
      · rename_i hn
        simp only [Option.some.injEq, Prod.mk.injEq] at h
        obtain ⟨h1, h2⟩ := h
        subst h1
        refine ⟨Or.inr (by simpa using hn), by simp [← h2, toDecl], fun d hd => ?_⟩
        rcases List.mem_cons.1 hd with rfl | hd
        · simp
        · simp [hn d hd]
      · cases h

theorem parse_some (s : List Source) (h : Uniform s) : ∃ c ds, parse_bitstruct_body s = some (c, ds) := by
  unfold parse_bitstruct_body
  cases s with
  | nil => exact ⟨_, _, rfl⟩
  | cons d s =>
    rcases d with ⟨t, r, e⟩
    rcases h with h | h
    · have h0 := h ⟨t, r, e⟩ (by simp)
      simp only at h0
      subst h0
      simp only [parseLoop, Bool.not_false, List.isEmpty_nil, Bool.not_true, Bool.and_false, Bool.false_eq_true, if_false]
      rw [parse_true, if_pos (fun d hd => h d (by simp [hd]))]
      exact ⟨_, _, rfl⟩
    · have h0 := h ⟨t, r, e⟩ (by simp)
      cases r with
      | none => exact absurd rfl h0
      | single a =>
        simp only [parseLoop, Bool.false_eq_true, if_false]
        rw [parse_false _ _ (by simp), if_pos (fun d hd => h d (by simp [hd]))]
        exact ⟨_, _, rfl⟩
      | range a b =>
        simp only [parseLoop, Bool.false_eq_true, if_false]
        rw [parse_false _ _ (by simp), if_pos (fun d hd => h d (by simp [hd]))]
        exact ⟨_, _, rfl⟩

/-! ## One member -/

theorem val_small {c : CInt} {k : Nat} (h : c.val = k) (hk : k < 2 ^ 32) : c.i.low.toNat = k := by
  have hl := c.i.low.isLt
  have hu : c.i.u = k := by
    unfold CInt.val Int128.s at h
    have := c.i.u_lt
    split at h
    · split at h <;> omega
    · omega
  unfold Int128.u at hu
  omega

theorem bitOfExpr_eq {bits : Nat} (hb : bits ≤ MAX_BITSTRUCT) (e : BitExpr) (k : Nat) : bitOfExpr bits e = some k ↔ e.Is k ∧ k < bits := by
  have hb' : bits ≤ 4096 := hb
  cases e with
  | other => simp [bitOfExpr, BitExpr.Is]
  | const c =>
    have hmax : CInt.val ⟨⟨0, BitVec.ofNat 64 bits⟩, .I64⟩ = bits := by
      unfold CInt.val Int128.s Int128.u
      simp only [TypeKind.signed, if_true, BitVec.toNat_ofNat, BitVec.ofNat_eq_ofNat, Nat.zero_mod, Nat.zero_mul, Nat.zero_add]
      rw [Nat.mod_eq_of_lt (by omega), if_pos (by omega)]
    have hge : int_comp c ⟨⟨0, BitVec.ofNat 64 bits⟩, .I64⟩ .GE = true ↔ (bits : Int) ≤ c.val := by
      rw [Bigint.C06_compare, hmax]
      exact Iff.rfl
    have hneg := Bigint.is_neg_iff c
    simp only [bitOfExpr, BitExpr.Is]
    by_cases h1 : int_is_neg c = true
    · rw [if_pos h1]
      refine ⟨fun h => (by cases h), ?_⟩
      rintro ⟨⟨c', h2, h3⟩, h4⟩
      cases h2
      have := hneg.1 h1
      omega
    · rw [if_neg h1]
      by_cases h2 : int_comp c ⟨⟨0, BitVec.ofNat 64 bits⟩, .I64⟩ .GE = true
      · rw [if_pos h2]
        refine ⟨fun h => (by cases h), ?_⟩
        rintro ⟨⟨c', h3, h4⟩, h5⟩
        cases h3
        have := hge.1 h2
        omega
      · rw [if_neg h2]
        have hn : ¬ c.val < 0 := fun h => h1 (hneg.2 h)
        have hl : ¬ (bits : Int) ≤ c.val := fun h => h2 (hge.2 h)
        obtain ⟨v, hv⟩ : ∃ v : Nat, c.val = v := ⟨c.val.toNat, by omega⟩
        have hlow := val_small hv (by omega)
        rw [hlow, Nat.mod_eq_of_lt (by omega), Option.some.injEq]
        constructor
        · rintro rfl
          exact ⟨⟨c, rfl, hv⟩, by omega⟩
        · rintro ⟨⟨c', h3, h4⟩, h5⟩
          cases h3
          omega

theorem overlaps_eq {a b : Nat} (h : a ≤ b) (o : Member) (x : Nat) (y z : Bool) : overlaps a b o = false ↔ o.Disjoint ⟨a, b, x, y, z⟩ := by
  simp only [overlaps, Member.Disjoint, Bool.and_eq_false_iff, Bool.or_eq_false_iff, decide_eq_false_iff_not]
  omega

theorem bytes_le (t : MemberType) : t.bytes ≤ 16 := by
  cases t with
  | int k => cases k <;> decide
  | _ => decide

/-- The range that a source says. -/
def SaysRange (s : Source) (i a b : Nat) : Prop :=
  match s.range with
    | .none => s.type = .bool ∧ a = i ∧ b = i
    | .single x => s.type = .bool ∧ x.Is a ∧ b = a
    | .range x y => x.Is a ∧ y.Is b

theorem rangeOf_none (bits : Nat) (t : MemberType) (e : Bool) (i : Nat) : rangeOf true bits (toDecl (⟨t, .none, e⟩, i)) =
    if t = .bool then if bits ≤ i then none else some (i, i, false) else none := by
  cases t <;> simp [rangeOf, toDecl]

theorem rangeOf_single (bits : Nat) (t : MemberType) (e : Bool) (i : Nat) (x : BitExpr) : rangeOf false bits (toDecl (⟨t, .single x, e⟩, i)) =
    (bitOfExpr bits x).bind fun a => if t = .bool then some (a, a, true) else none := by
  cases t <;> simp [rangeOf, toDecl]

theorem rangeOf_range (bits : Nat) (t : MemberType) (e : Bool) (i : Nat) (x y : BitExpr) : rangeOf false bits (toDecl (⟨t, .range x y, e⟩, i)) =
    (bitOfExpr bits x).bind fun a => (bitOfExpr bits y).bind fun b => if b < a then none else some (a, b, true) := rfl

theorem rangeOf_eq {bits : Nat} (hb : bits ≤ MAX_BITSTRUCT) {c : Bool} (d : Source × Nat) (hc : d.1.range = .none ↔ c = true) (a b : Nat) :
    (∃ k, rangeOf c bits (toDecl d) = some (a, b, k) ∧ (k = false → d.1.type = .bool ∧ a = b)) ↔ SaysRange d.1 d.2 a b ∧ a ≤ b ∧ b < bits := by
  rcases d with ⟨⟨t, r, e⟩, i⟩
  cases r with
  | none =>
    have : c = true := hc.1 rfl
    subst this
    rw [rangeOf_none]
    simp only [SaysRange]
    constructor
    · rintro ⟨k, h, hk⟩
      split at h
      · rename_i h1
        split at h
        · cases h
        · cases h
          exact ⟨⟨h1, rfl, rfl⟩, Nat.le_refl _, by omega⟩
      · cases h
    · rintro ⟨⟨h1, rfl, rfl⟩, h2, h3⟩
      exact ⟨false, by rw [if_pos h1, if_neg (by omega)], fun _ => ⟨h1, rfl⟩⟩
  | single x =>
    have : c = false := by
      cases c with
      | false => rfl
      | true => exact absurd (hc.2 rfl) (by simp)
    subst this
    rw [rangeOf_single]
    simp only [SaysRange]
    constructor
    · rintro ⟨k, h, hk⟩
      obtain ⟨y, h1, h2⟩ := Option.bind_eq_some_iff.1 h
      obtain ⟨h3, h4⟩ := (bitOfExpr_eq hb x y).1 h1
      split at h2
      · rename_i ht
        cases h2
        exact ⟨⟨ht, h3, rfl⟩, Nat.le_refl _, h4⟩
      · cases h2
    · rintro ⟨⟨h1, h2, rfl⟩, h3, h4⟩
      refine ⟨true, Option.bind_eq_some_iff.2 ⟨b, (bitOfExpr_eq hb x b).2 ⟨h2, h4⟩, ?_⟩, by simp⟩
      rw [if_pos h1]
  | range x y =>
    have : c = false := by
      cases c with
      | false => rfl
      | true => exact absurd (hc.2 rfl) (by simp)
    subst this
    rw [rangeOf_range]
    simp only [SaysRange]
    constructor
    · rintro ⟨k, h, hk⟩
      obtain ⟨u, h1, h2⟩ := Option.bind_eq_some_iff.1 h
      obtain ⟨v, h3, h4⟩ := Option.bind_eq_some_iff.1 h2
      obtain ⟨h5, h6⟩ := (bitOfExpr_eq hb x u).1 h1
      obtain ⟨h7, h8⟩ := (bitOfExpr_eq hb y v).1 h3
      split at h4
      · cases h4
      · cases h4
        exact ⟨⟨h5, h7⟩, by omega, h8⟩
    · rintro ⟨⟨h1, h2⟩, h3, h4⟩
      refine ⟨true, Option.bind_eq_some_iff.2 ⟨a, (bitOfExpr_eq hb x a).2 ⟨h1, by omega⟩, Option.bind_eq_some_iff.2
        ⟨b, (bitOfExpr_eq hb y b).2 ⟨h2, h4⟩, ?_⟩⟩, by simp⟩
      rw [if_neg (by omega)]

theorem rangeOf_check {bits : Nat} {c : Bool} (d : Source × Nat) (hc : d.1.range = .none ↔ c = true) {a b : Nat}
    (h : rangeOf c bits (toDecl d) = some (a, b, false)) : d.1.type = .bool ∧ a = b := by
  rcases d with ⟨⟨t, r, e⟩, i⟩
  cases r with
  | none =>
    have : c = true := hc.1 rfl
    subst this
    rw [rangeOf_none] at h
    split at h
    · rename_i h1
      split at h
      · cases h
      · cases h
        exact ⟨h1, rfl⟩
    · cases h
  | single x =>
    have : c = false := by
      cases c with
      | false => rfl
      | true => exact absurd (hc.2 rfl) (by simp)
    subst this
    rw [rangeOf_single] at h
    obtain ⟨y, h1, h2⟩ := Option.bind_eq_some_iff.1 h
    split at h2 <;> cases h2
  | range x y =>
    have : c = false := by
      cases c with
      | false => rfl
      | true => exact absurd (hc.2 rfl) (by simp)
    subst this
    rw [rangeOf_range] at h
    obtain ⟨y, h1, h2⟩ := Option.bind_eq_some_iff.1 h
    obtain ⟨z, h3, h4⟩ := Option.bind_eq_some_iff.1 h2
    split at h4 <;> cases h4

theorem member_eq {size : Nat} {ov c : Bool} {before : List Member} (d : Source × Nat) (hc : d.1.range = .none ↔ c = true) (m : Member) :
    sema_analyse_bitstruct_member size c ov before (toDecl d) = some m ↔
      8 * size ≤ MAX_BITSTRUCT ∧ Says d.1 d.2 m ∧ m.Ok size ∧ (ov = false → ∀ o ∈ before, o.Disjoint m) := by
  unfold sema_analyse_bitstruct_member
  have htd : (toDecl d).type = d.1.type := rfl
  rw [htd]
  constructor
  · intro h
    by_cases h1 : d.1.type = .other
    · rw [if_pos h1] at h; cases h
    rw [if_neg h1] at h
    by_cases h2 : size * 8 > MAX_BITSTRUCT
    · rw [if_pos h2] at h; cases h
    rw [if_neg h2] at h
    obtain ⟨⟨a, b, k⟩, h3, h4⟩ := Option.bind_eq_some_iff.1 h
    obtain ⟨h5, h6, h7⟩ := (rangeOf_eq (by omega) d hc a b).1 ⟨k, h3, fun hk => rangeOf_check d hc (hk ▸ h3)⟩
    simp only at h4
    by_cases h8 : (k && decide ((if d.1.type = .bool then 1 else d.1.type.bytes * 8) < b + 1 - a)) = true
    · rw [if_pos h8] at h4; cases h4
    rw [if_neg h8] at h4
    by_cases h9 : (!ov && before.any (overlaps a b)) = true
    · rw [if_pos h9] at h4; cases h4
    rw [if_neg h9] at h4
    cases h4
    have hfit : b - a + 1 ≤ (if d.1.type = .bool then 1 else d.1.type.bytes * 8) := by
      cases k with
      | false =>
        obtain ⟨g1, g2⟩ := rangeOf_check d hc h3
        rw [if_pos g1]
        omega
      | true =>
        simp only [Bool.true_and, decide_eq_true_eq] at h8
        omega
    refine ⟨by omega, ⟨h1, rfl, rfl, rfl, h5⟩, ⟨h6, by show b < 8 * size; omega, ?_, bytes_le _, ?_⟩, fun hov o ho => ?_⟩
    · show b - a + 1 ≤ 8 * d.1.type.bytes
      split at hfit
      · rename_i g
        rw [g]
        show b - a + 1 ≤ 8
        omega
      · omega
    · intro hb
      have hb : d.1.type = .bool := by simpa using hb
      rw [if_pos hb] at hfit
      rw [hb]
      exact ⟨rfl, rfl, by show a = b; omega⟩
    · subst hov
      simp only [Bool.not_false, Bool.true_and, Bool.not_eq_true, List.any_eq_false] at h9
      exact (overlaps_eq h6 o _ _ _).1 (by simpa using h9 o ho)
  · rintro ⟨h1, h2, h3, h4⟩
    rcases m with ⟨a, b, x, y, z⟩
    have hx : x = d.1.type.bytes := h2.bytes
    have hy : y = d.1.type.signed := h2.signed
    have hz : z = decide (d.1.type = .bool) := h2.bool
    subst hx hy hz
    have hle : a ≤ b := h3.le
    have hlt : b < 8 * size := h3.lt
    have hfit : b - a + 1 ≤ 8 * d.1.type.bytes := h3.fits
    obtain ⟨k, h5, h6⟩ := (rangeOf_eq (bits := size * 8) (by omega) d hc a b).2 ⟨h2.range, hle, by omega⟩
    rw [if_neg h2.type, if_neg (by omega)]
    refine Option.bind_eq_some_iff.2 ⟨(a, b, k), h5, ?_⟩
    simp only
    rw [if_neg, if_neg]
    · cases ov with
      | true => simp
      | false =>
        simp only [Bool.not_false, Bool.true_and, Bool.not_eq_true, List.any_eq_false]
        intro o ho
        simpa using (overlaps_eq hle o _ _ _).2 (h4 rfl o ho)
    · cases k with
      | false => simp
      | true =>
        simp only [Bool.true_and, decide_eq_true_eq]
        split
        · rename_i g
          have : a = b := (h3.bool (by simp [g])).2.2
          omega
        · omega

/-! ## All -/

theorem analyseAll_eq {size : Nat} {ov c : Bool} : ∀ (ds : List (Source × Nat)), (∀ d ∈ ds, (d.1.range = .none ↔ c = true)) →
    ∀ (before ms : List Member), analyseAll size c ov before (ds.map toDecl) = some ms ↔
      ∃ new, ms = before ++ new ∧ List.Forall₂ (fun d m => 8 * size ≤ MAX_BITSTRUCT ∧ Says d.1 d.2 m ∧ m.Ok size) (ds.filter fun d => !d.1.erased) new ∧
        (ov = false → (∀ m ∈ new, ∀ o ∈ before, o.Disjoint m) ∧ new.Pairwise Member.Disjoint) := by
  intro ds
  induction ds with
  | nil =>
    intro _ before ms
    simp only [List.map_nil, analyseAll, Option.some.injEq, List.filter_nil]
    constructor
    · rintro rfl
      exact ⟨[], by simp, List.Forall₂.nil, fun _ => ⟨by simp, List.Pairwise.nil⟩⟩
    · rintro ⟨new, rfl, h, _⟩
      cases h
      simp
  | cons d ds ih =>
    intro hc before ms
    have hc' : ∀ d ∈ ds, (d.1.range = .none ↔ c = true) := fun d hd => hc d (by simp [hd])
    rw [List.map_cons, analyseAll]
    have he : (toDecl d).erased = d.1.erased := rfl
    rw [he]
    by_cases h1 : d.1.erased = true
    · rw [if_pos h1, List.filter_cons_of_neg (by simp [h1])]
      exact ih hc' before ms
    · rw [if_neg h1, List.filter_cons_of_pos (by simpa using h1)]
      constructor
      · intro h
        obtain ⟨m, hm, hr⟩ := Option.bind_eq_some_iff.1 h
        obtain ⟨g1, g2, g3, g4⟩ := (member_eq d (hc d (by simp)) m).1 hm
        obtain ⟨new, rfl, h2, h3⟩ := (ih hc' _ _).1 hr
        refine ⟨m :: new, by simp, List.Forall₂.cons ⟨g1, g2, g3⟩ h2, fun hov => ⟨?_, ?_⟩⟩
        · intro m' hm' o ho
          rcases List.mem_cons.1 hm' with rfl | hm'
          · exact g4 hov o ho
          · exact (h3 hov).1 m' hm' o (by simp [ho])
        · exact List.pairwise_cons.2 ⟨fun m' hm' => (h3 hov).1 m' hm' m (by simp), (h3 hov).2⟩
      · rintro ⟨new, rfl, h2, h3⟩
        cases h2 with
        | @cons _ m _ new h4 h5 =>
          refine Option.bind_eq_some_iff.2 ⟨m, (member_eq d (hc d (by simp)) m).2 ⟨h4.1, h4.2.1, h4.2.2, fun hov o ho => (h3 hov).1 m (by simp) o ho⟩, ?_⟩
          refine (ih hc' _ _).2 ⟨new, by simp, h5, fun hov => ⟨?_, (List.pairwise_cons.1 (h3 hov).2).2⟩⟩
          intro m' hm' o ho
          rcases List.mem_append.1 ho with ho | ho
          · exact (h3 hov).1 m' (by simp [hm']) o ho
          · rw [List.mem_singleton.1 ho]
            exact (List.pairwise_cons.1 (h3 hov).2).1 m' hm'

end C3.Bitstruct
