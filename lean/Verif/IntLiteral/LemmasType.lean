import Verif.IntLiteral.Lemmas

/-! # Helper lemmas: the type of a literal -/

namespace C3.IntLiteral
open C3.Bigint

theorem searchType_spec (i : Int128) (m : Nat) (ks : List TypeKind)
    (hs : ks.Pairwise fun a b => a.bits < b.bits) (k : TypeKind) :
    searchType i m ks = some k ↔ k ∈ ks ∧ m ≤ k.bits ∧ CInt.WF ⟨i, k⟩ ∧
      ∀ k' ∈ ks, m ≤ k'.bits → CInt.WF ⟨i, k'⟩ → k.bits ≤ k'.bits := by
  induction ks with
  | nil => simp [searchType]
  | cons a ks ih =>
    rw [List.pairwise_cons] at hs
    obtain ⟨h1, h2⟩ := hs
    have ih := ih h2
    rw [searchType, bitsize_eq]
    by_cases hm : a.bits < m
    · rw [if_pos hm, ih]
      constructor
      · rintro ⟨e1, e2, e3, e4⟩
        refine ⟨List.mem_cons_of_mem _ e1, e2, e3, ?_⟩
        intro k' hk' h'
        rcases List.mem_cons.1 hk' with rfl | hk'
        · omega
        · exact e4 k' hk' h'
      · rintro ⟨e1, e2, e3, e4⟩
        rcases List.mem_cons.1 e1 with rfl | e1
        · omega
        · exact ⟨e1, e2, e3, fun k' hk' => e4 k' (List.mem_cons_of_mem _ hk')⟩
    · rw [if_neg hm]
      by_cases hf : int_fits ⟨i, a⟩ a = true
      · rw [if_pos hf, Option.some.injEq]
        rw [fits_iff] at hf
        constructor
        · rintro rfl
          refine ⟨List.mem_cons_self, by omega, hf, ?_⟩
          intro k' hk' _ _
          rcases List.mem_cons.1 hk' with rfl | hk'
          · exact le_refl _
          · exact le_of_lt (h1 k' hk')
        · rintro ⟨e1, e2, e3, e4⟩
          rcases List.mem_cons.1 e1 with rfl | e1
          · rfl
          · have := e4 a List.mem_cons_self (by omega) hf
            have := h1 k e1
            omega
      · rw [if_neg hf, ih]
        rw [fits_iff] at hf
        constructor
        · rintro ⟨e1, e2, e3, e4⟩
          refine ⟨List.mem_cons_of_mem _ e1, e2, e3, ?_⟩
          intro k' hk' h' h''
          rcases List.mem_cons.1 hk' with rfl | hk'
          · exact absurd h'' hf
          · exact e4 k' hk' h' h''
        · rintro ⟨e1, e2, e3, e4⟩
          rcases List.mem_cons.1 e1 with rfl | e1
          · exact absurd e3 hf
          · exact ⟨e1, e2, e3, fun k' hk' => e4 k' (List.mem_cons_of_mem _ hk')⟩

theorem wf_128 (i : Int128) (t : TypeKind) (h : t.bits = 128) : CInt.WF ⟨i, t⟩ := by
  rcases hs : t.signed with _ | _
  · rw [wf_unsigned _ hs]
    show i.u < 2 ^ t.bits
    rw [h]; exact i.u_lt
  · rw [wf_signed _ hs]
    show -2 ^ (t.bits - 1) ≤ i.s ∧ i.s < 2 ^ (t.bits - 1)
    rw [h]
    have := i.u_lt
    unfold Int128.s
    split <;> omega

theorem searchType_none (i : Int128) (m : Nat) (ks : List TypeKind)
    (h : searchType i m ks = none) : ∀ k ∈ ks, m ≤ k.bits → ¬ CInt.WF ⟨i, k⟩ := by
  induction ks with
  | nil => simp
  | cons a ks ih =>
    rw [searchType, bitsize_eq] at h
    intro k hk hm hw
    rcases List.mem_cons.1 hk with rfl | hk
    · rw [if_neg (by omega), if_pos ((fits_iff _ _).2 hw)] at h
      exact absurd h (by simp)
    · split at h
      · exact ih h k hk hm hw
      · split at h
        · exact absurd h (by simp)
        · exact ih h k hk hm hw

def candidates (u : Bool) : List TypeKind :=
  if u then [.U8, .U16, .U32, .U64, .U128] else [.I8, .I16, .I32, .I64, .I128]

theorem mem_candidates (u : Bool) (t : TypeKind) : t ∈ candidates u ↔ t.signed = !u := by
  cases u <;> cases t <;> decide

theorem candidates_sorted (u : Bool) : (candidates u).Pairwise fun a b => a.bits < b.bits := by
  cases u <;> decide

/-- The type the parser selects, in terms of what it has scanned. -/
def Chosen (cint : Nat) (b : Base) (s : Suffix) (st : Scan) (t : TypeKind) : Prop :=
  match suffixWidth s with
  | some w => typeOf st.is_unsigned w t
  | Option.none =>
    t.signed = !st.is_unsigned ∧
    if b = .dec then
      cint ≤ t.bits ∧ CInt.WF ⟨st.i, t⟩ ∧
        ∀ t' : TypeKind, t'.signed = !st.is_unsigned → cint ≤ t'.bits → CInt.WF ⟨st.i, t'⟩ →
          t.bits ≤ t'.bits
    else SmallestWidth (b.digitBits * st.count) t.bits

theorem smallest_unique {k w w' : Nat} (h : SmallestWidth k w) (h' : SmallestWidth k w') : w = w' :=
  Nat.le_antisymm (h.2.2 _ h'.1 h'.2.1) (h'.2.2 _ h.1 h.2.1)

theorem smallest_le {k w : Nat} (h : SmallestWidth k w) : k ≤ 128 := by
  have h1 := h.1
  have h2 := h.2.1
  simp only [List.mem_cons, List.not_mem_nil, or_false] at h1
  omega

theorem fin_tail (i : Int128) (o : Option TypeKind) (c : CInt) :
    ((match o with
    | none => Result.fatal
    | some k => if int_fits ⟨i, k⟩ k then .const ⟨i, k⟩ else .error) = .const c) ↔
      o = some c.type ∧ c.i = i ∧ c.WF := by
  cases o with
  | none => simp
  | some k =>
    obtain ⟨ci, ct⟩ := c
    simp only [Option.some.injEq]
    by_cases hf : int_fits ⟨i, k⟩ k = true
    · rw [if_pos hf]
      rw [fits_iff] at hf
      constructor
      · intro h
        simp only [Result.const.injEq, CInt.mk.injEq] at h
        obtain ⟨rfl, rfl⟩ := h
        exact ⟨rfl, rfl, hf⟩
      · rintro ⟨rfl, rfl, -⟩; rfl
    · rw [if_neg hf]
      rw [fits_iff] at hf
      constructor
      · intro h; simp at h
      · rintro ⟨rfl, rfl, h⟩; exact absurd h hf

theorem width_ne_zero (s : Suffix) (suf : List Char) (h : s.Spells suf) : suffixWidth s ≠ some 0 := by
  cases s with
  | none => simp [suffixWidth]
  | l => simp [suffixWidth]
  | ul => simp [suffixWidth]
  | sized u w =>
    obtain ⟨a, ds, -, -, hw⟩ := h
    rintro h0
    have h0 : w = some 0 := h0
    subst h0
    obtain ⟨h1, h2, h3, h4⟩ := hw
    cases ds with
    | nil => exact h1 rfl
    | cons d ds =>
      have hd := (h3 d List.mem_cons_self).1
      rw [char_le_iff] at hd
      have hne : d.toNat ≠ '0'.toNat := by
        intro e
        apply h2
        rw [char_eq_of_toNat d _ e]; rfl
      rw [List.map_cons] at h4
      unfold positional at h4
      rw [List.foldl_cons] at h4
      have := foldl_mono 10 (by omega) (ds.map fun c => c.toNat - '0'.toNat) (0 * 10 + (d.toNat - '0'.toNat))
      omega

theorem finish_spec (cint : Nat) (b : Base) (s : Suffix) (st : Scan)
    (hbits : SuffixBits s st.type_bits) (hz : suffixWidth s ≠ some 0) (hc : b ≠ .dec → 1 ≤ st.count) (hd : b = .dec → st.count = 0)
    (c : CInt) :
    finish cint b.digitBits st = .const c ↔
      st.wrapped = false ∧ c.i = st.i ∧ c.WF ∧ Chosen cint b s st c.type := by
  unfold finish
  cases hw : st.wrapped with
  | true => simp
  | false =>
  rw [if_neg Bool.false_ne_true]
  simp only [true_and]
  rcases hsw : suffixWidth s with _ | w
  · unfold SuffixBits at hbits
    rw [hsw] at hbits
    have hbits : st.type_bits = 0 := hbits
    unfold Chosen
    rw [hsw, hbits]
    rw [if_neg (by simp)]
    by_cases hb : b = .dec
    · subst hb
      rw [hd rfl]
      simp only [if_true]
      have hfc := fin_tail st.i (match searchType st.i cint (candidates st.is_unsigned) with
          | some k => some k
          | none => type_int_by_bitsize st.is_unsigned cint) c
      have key : (match searchType st.i cint (candidates st.is_unsigned) with
          | some k => some k
          | none => type_int_by_bitsize st.is_unsigned cint) = some c.type ↔
          c.type.signed = (!st.is_unsigned) ∧ cint ≤ c.type.bits ∧ CInt.WF ⟨st.i, c.type⟩ ∧
          ∀ t' : TypeKind, t'.signed = (!st.is_unsigned) → cint ≤ t'.bits → CInt.WF ⟨st.i, t'⟩ →
          c.type.bits ≤ t'.bits := by
        have hsp := searchType_spec st.i cint _ (candidates_sorted st.is_unsigned) c.type
        simp only [mem_candidates] at hsp
        rcases hse : searchType st.i cint (candidates st.is_unsigned) with _ | k
        · have hn := searchType_none _ _ _ hse
          simp only [mem_candidates] at hn
          constructor
          · intro h
            rw [by_bitsize] at h
            have hle := bits_mem c.type
            simp only [List.mem_cons, List.not_mem_nil, or_false] at hle
            exfalso
            cases hu : st.is_unsigned with
            | true => exact hn .U128 (by rw [hu]; rfl) (by show cint ≤ 128; omega) (wf_128 _ _ rfl)
            | false => exact hn .I128 (by rw [hu]; rfl) (by show cint ≤ 128; omega) (wf_128 _ _ rfl)
          · intro h
            exact absurd h.2.2.1 (hn _ h.1 h.2.1)
        · rw [hse] at hsp
          exact hsp
      rw [key] at hfc
      constructor
      · intro h
        have := hfc.1 h
        exact ⟨this.2.1, this.2.2, this.1⟩
      · rintro ⟨h1, h2, h3⟩
        exact hfc.2 ⟨h3, h1, h2⟩
    · have hk := hc hb
      have hbp : 1 ≤ b.digitBits := by cases b <;> simp_all [Base.digitBits]
      have hk1 : 1 ≤ b.digitBits * st.count := Nat.mul_pos hbp hk
      simp only [if_neg hb]
      generalize b.digitBits * st.count = k at *
      by_cases h128 : k > 128
      · rw [if_pos ⟨trivial, h128⟩]
        constructor
        · intro h; simp at h
        · rintro ⟨-, -, -, h⟩
          have := smallest_le h
          omega
      · rw [if_neg (fun h => h128 h.2)]
        obtain ⟨w, hw1, hw2⟩ := digitWidth_spec k hk1 (by omega)
        have hw0 : (w : Int) ≠ 0 := by
          have := hw1.2.1; omega
        have hfc := fin_tail st.i (type_int_by_bitsize st.is_unsigned w) c
        rw [by_bitsize] at hfc
        have hgoal : ((c.type.bits : Int) = w ∧ c.type.signed = !st.is_unsigned) ↔
            c.type.signed = (!st.is_unsigned) ∧ SmallestWidth k c.type.bits := by
          constructor
          · rintro ⟨h1, h2⟩
            have : c.type.bits = w := by omega
            exact ⟨h2, this ▸ hw1⟩
          · rintro ⟨h1, h2⟩
            exact ⟨by rw [smallest_unique h2 hw1], h1⟩
        rw [hgoal] at hfc
        simp only [ne_eq, not_true_eq_false, if_false]
        have hdw : (if ¬ (if ¬ (k : Int) = 0 ∧ (k : Int) < 8 then (8 : Int) else k) = 0 ∧
              is_power_of_two (BitVec.ofInt 64 (if ¬ (k : Int) = 0 ∧ (k : Int) < 8 then 8 else k)) = false then
              ((next_highest_power_of_2 (BitVec.ofInt 32 (if ¬ (k : Int) = 0 ∧ (k : Int) < 8 then 8 else k))).toNat : Int)
            else (if ¬ (k : Int) = 0 ∧ (k : Int) < 8 then 8 else k)) = (w : Int) := hw2
        simp only [hdw]
        simp only [if_pos hw0]
        refine Iff.trans hfc ?_
        tauto
  · unfold SuffixBits at hbits
    rw [hsw] at hbits
    have hbits : st.type_bits = w ∨ (st.type_bits > 128 ∧ w > 128) := hbits
    unfold Chosen
    rw [hsw]
    show _ ↔ c.i = st.i ∧ c.WF ∧ c.type.bits = w ∧ _
    have hmem := bits_mem c.type
    have hle : c.type.bits ≤ 128 := by
      simp only [List.mem_cons, List.not_mem_nil, or_false] at hmem; omega
    have hge : 8 ≤ c.type.bits := by
      simp only [List.mem_cons, List.not_mem_nil, or_false] at hmem; omega
    by_cases hbad : st.type_bits ≠ 0 ∧ (st.type_bits < 0 ∨
      is_power_of_two (BitVec.ofInt 64 st.type_bits) = false ∨ st.type_bits > 128)
    · rw [if_pos hbad]
      constructor
      · intro h; simp at h
      · rintro ⟨-, -, h, -⟩
        exfalso
        rcases hbits with e | e
        · have hp := pow2_table' _ hmem
          rw [h] at hp
          rw [e] at hbad
          rcases hbad.2 with h1 | h1 | h1
          · omega
          · rw [hp] at h1; exact absurd h1 (by simp)
          · omega
        · omega
    · rw [if_neg hbad]
      by_cases h0 : st.type_bits = 0
      · have hw0 : w = 0 := by omega
        exact absurd (hsw.trans (by rw [hw0])) hz
      · rw [if_neg (fun h => h0 h.1)]
        have e : st.type_bits = w := by
          rcases hbits with e | e
          · exact e
          · exact absurd ⟨h0, Or.inr (Or.inr e.1)⟩ hbad
        have hfc := fin_tail st.i (type_int_by_bitsize st.is_unsigned w) c
        rw [by_bitsize] at hfc
        simp only [ne_eq, h0, not_false_eq_true, if_true]
        rw [e]
        refine Iff.trans hfc ?_
        have : ((c.type.bits : Int) = w) ↔ c.type.bits = w := by omega
        rw [this]
        tauto

end C3.IntLiteral
