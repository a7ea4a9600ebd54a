import Verif.Bigint.LemmasConv

/-! Helper lemmas: printing and reading. -/

namespace C3.Bigint

theorem positional_append (b : Nat) (xs : List Nat) (d : Nat) :
    positional b (xs ++ [d]) = positional b xs * b + d := by
  simp [positional]

theorem digit_get (d : Nat) (h : d < 16) : "0123456789ABCDEF".toList[d]? = some (digitChar d) := by
  revert d
  decide

theorem toStringLoop_spec (b : BitVec 64) (h2 : 2 ≤ b.toNat) (h16 : b.toNat ≤ 16) :
    ∀ (room : Nat) (op : Int128), op.u < 2 ^ (room + 1) →
    ∃ ds : List Nat, toStringLoop (room + 1) op ⟨0, b⟩ = some (ds.map digitChar) ∧
      (∀ d ∈ ds, d < b.toNat) ∧ ds ≠ [] ∧ positional b.toNat ds.reverse = op.u ∧
      (ds.reverse.head? = some 0 → ds.reverse = [0]) ∧ ds.length ≤ room + 1 := by
  intro room
  have hbu : (⟨0, b⟩ : Int128).u = b.toNat := u_eq_low ⟨0, b⟩ rfl
  induction room with
  | zero =>
    intro op hop
    obtain ⟨q, hq, hq'⟩ := udiv_spec op ⟨0, b⟩ (by omega)
    obtain ⟨r, hr, hr'⟩ := urem_spec op ⟨0, b⟩ (by omega)
    rw [hbu] at hq' hr'
    have hru : r.u = op.u := by rw [hr', Nat.mod_eq_of_lt (by omega)]
    have hq0 : q.u = 0 := by rw [hq', Nat.div_eq_of_lt (by omega)]
    have hlow : r.low.toNat = op.u := by
      have : r.u = r.high.toNat * 2 ^ 64 + r.low.toNat := rfl
      omega
    refine ⟨[op.u], ?_, by simp; omega, by simp, by simp [positional], by simp, by simp⟩
    unfold toStringLoop
    refine bind_of hr (bind_of (digit_get _ (by omega)) (bind_of hq ?_))
    rw [if_pos (by rw [is_zero_spec]; simpa using hq0), hlow]
    rfl
  | succ room ih =>
    intro op hop
    obtain ⟨q, hq, hq'⟩ := udiv_spec op ⟨0, b⟩ (by omega)
    obtain ⟨r, hr, hr'⟩ := urem_spec op ⟨0, b⟩ (by omega)
    rw [hbu] at hq' hr'
    have hrlt : r.u < b.toNat := by rw [hr']; exact Nat.mod_lt _ (by omega)
    have hlow : r.low.toNat = r.u := by unfold Int128.u at hrlt ⊢; omega
    have hdm := Nat.div_add_mod op.u b.toNat
    by_cases h0 : q.u = 0
    · refine ⟨[r.u], ?_, by simp; omega, by simp, ?_, by simp, by simp⟩
      · rw [toStringLoop]
        refine bind_of hr (bind_of (digit_get _ (by omega)) (bind_of hq ?_))
        rw [if_pos (by rw [is_zero_spec]; simpa using h0), hlow]
        rfl
      · rw [← hq', h0, ← hr'] at hdm
        simp [positional]; omega
    · have hlt : q.u < 2 ^ (room + 1) := by
        rw [hq']
        refine lt_of_le_of_lt (Nat.div_le_div_left h2 (by omega)) ?_
        rw [Nat.div_lt_iff_lt_mul (by omega)]
        rw [Nat.pow_succ] at hop; omega
      obtain ⟨ds, e1, e2, e3, e4, e5, e6⟩ := ih q hlt
      refine ⟨r.u :: ds, ?_, ?_, by simp, ?_, ?_, by simp; omega⟩
      · rw [toStringLoop]
        refine bind_of hr (bind_of (digit_get _ (by omega)) (bind_of hq ?_))
        rw [if_neg (by rw [is_zero_spec]; simpa using h0), hlow]
        exact bind_of e1 rfl
      · intro d hd
        rcases List.mem_cons.1 hd with h | h
        · omega
        · exact e2 d h
      · rw [List.reverse_cons, positional_append, e4, hr', hq', Nat.mul_comm]; exact hdm
      · intro hh
        exfalso
        rw [List.reverse_cons, List.head?_append, Option.or_of_isSome (by simpa using e3)] at hh
        have := e5 hh
        rw [this] at e4
        simp [positional] at e4
        omega

theorem neg_abs (x : Int128) (h : x.s < 0) : ((i128_neg x).u : Int) = x.s.natAbs := by
  rw [u_neg]
  have := x.u_lt
  unfold Int128.s at h ⊢
  split at h
  · omega
  · rw [if_neg (by assumption)]; omega

theorem to_str_spec (c : CInt) (radix : BitVec 64) (h2 : 2 ≤ radix.toNat) (h16 : radix.toNat ≤ 16)
    (pre : Bool) :
    ∃ ds : List Nat, int_to_str c radix pre = some
        ((if c.val < 0 then ['-'] else []) ++ (if pre then radixPrefix radix.toNat else []) ++
          ds.map digitChar) ∧
      (∀ d ∈ ds, d < radix.toNat) ∧ ds ≠ [] ∧ (ds.head? = some 0 → ds = [0]) ∧
      positional radix.toNat ds = c.val.natAbs := by
  unfold int_to_str i128_to_string
  rw [is_signed_eq]
  have hneg : (c.type.signed && ISNEG c.i.high) = decide (c.val < 0) := by
    rw [isneg_high]
    cases hs : c.type.signed
    · rw [val_unsigned _ hs, Bool.false_and]; symm; rw [decide_eq_false_iff_not]; omega
    · rw [val_signed _ hs, Bool.true_and]
  rw [hneg]
  have habs : ∃ op : Int128, (if decide (c.val < 0) = true then i128_neg c.i else c.i) = op ∧
      op.u = c.val.natAbs := by
    refine ⟨_, rfl, ?_⟩
    by_cases h : c.val < 0
    · rw [if_pos (by simpa using h)]
      have hs : c.type.signed = true := by
        cases hs : c.type.signed
        · rw [val_unsigned _ hs] at h; omega
        · rfl
      rw [val_signed _ hs] at h ⊢
      have := neg_abs _ h
      omega
    · rw [if_neg (by simpa using h)]
      cases hs : c.type.signed
      · rw [val_unsigned _ hs]; rfl
      · rw [val_signed _ hs] at h ⊢
        rw [s_of_nonneg _ h]; rfl
  obtain ⟨op, hop, hopu⟩ := habs
  have hlt : op.u < 2 ^ (129 + 1) := lt_of_lt_of_le op.u_lt (Nat.pow_le_pow_right (by omega) (by omega))
  obtain ⟨ds, e1, e2, e3, e4, e5, e6⟩ := toStringLoop_spec radix h2 h16 129 op hlt
  refine ⟨ds.reverse, ?_, by simpa using e2, by simpa using e3, e5, by rw [e4, hopu]⟩
  have hpre : (if radix = 2 then ['0', 'b'] else if radix = 8 then ['0', 'o']
       else if radix = 16 then ['0', 'x'] else []) = radixPrefix radix.toNat := by
    have hk : ∀ k : Nat, k < 2 ^ 64 → (radix = BitVec.ofNat 64 k ↔ radix.toNat = k) := by
      intro k hk
      constructor
      · intro h; rw [h]; exact ofNat_toNat64 hk
      · intro h; apply BitVec.eq_of_toNat_eq; rw [h, ofNat_toNat64 hk]
    have k2 : (radix = 2) ↔ _ := hk 2 (by omega)
    have k8 : (radix = 8) ↔ _ := hk 8 (by omega)
    have k16 : (radix = 16) ↔ _ := hk 16 (by omega)
    unfold radixPrefix
    simp only [k2, k8, k16]
  have hpl : (radixPrefix radix.toNat).length ≤ 2 := by
    unfold radixPrefix; split <;> [simp; (split <;> [simp; (split <;> simp)])]
  simp only [hop, hpre]
  refine bind_of e1 ?_
  simp only [decide_eq_true_eq, List.map_reverse]
  rw [if_pos]
  · rfl
  · simp only [List.length_append, List.length_reverse]
    split <;> split <;> simp <;> omega

theorem from_str_foldl (ds : List Nat) (h : ∀ d ∈ ds, d < 10) (x : Int128) (n : Nat)
    (hx : x.u = n % 2 ^ 128) :
    ((ds.map digitChar).foldl (fun x c =>
      i128_add64 (i128_mult64 x 10) (BitVec.ofInt 64 ((c.toNat : Int) - 48))) x).u
      = ds.foldl (fun acc d => acc * 10 + d) n % 2 ^ 128 := by
  induction ds generalizing x n with
  | nil => exact hx
  | cons d ds ih =>
    simp only [List.map_cons, List.foldl_cons]
    refine ih (fun d hd => h d (List.mem_cons_of_mem _ hd)) _ _ ?_
    have hd : (BitVec.ofInt 64 (((digitChar d).toNat : Int) - 48)).toNat = d := by
      have := h d List.mem_cons_self
      clear h ih hx
      revert d
      decide
    rw [u_add64, u_mult64', hd, hx]
    have : (10 : BitVec 64).toNat = 10 := rfl
    rw [this]
    omega

theorem from_str_spec (ds : List Nat) (h : ∀ d ∈ ds, d < 10) :
    (i128_from_str (ds.map digitChar)).u = positional 10 ds % 2 ^ 128 :=
  from_str_foldl ds h ⟨0, 0⟩ 0 rfl

end C3.Bigint
