import Verif.Casts.Lemmas

set_option autoImplicit false

namespace C3.Casts
open C3.Bigint

theorem inRange_zero (t : TypeKind) : t.InRange 0 := by cases t <;> decide

theorem inRange_between {t : TypeKind} {a r : Int} (h : t.InRange a)
    (hr : (0 ≤ r ∧ r ≤ a) ∨ (a ≤ r ∧ r ≤ 0)) : t.InRange r := by
  have h0 := inRange_zero t
  unfold TypeKind.InRange at *
  omega

theorem tmod_between (a b : Int) : (0 ≤ a.tmod b ∧ a.tmod b ≤ a) ∨ (a ≤ a.tmod b ∧ a.tmod b ≤ 0) := by
  rcases Int.le_total 0 a with h | h
  · left
    refine ⟨Int.tmod_nonneg b h, ?_⟩
    have h1 := Int.natAbs_tmod a b
    have h2 := Int.tmod_nonneg b h
    have h3 := Nat.mod_le a.natAbs b.natAbs
    omega
  · right
    have h1 := Int.natAbs_tmod a b
    have h2 : 0 ≤ (-a).tmod b := Int.tmod_nonneg b (by omega)
    rw [Int.neg_tmod] at h2
    have h3 := Nat.mod_le a.natAbs b.natAbs
    omega

theorem shr_between (a : Int) (s : Nat) : (0 ≤ a / 2 ^ s ∧ a / 2 ^ s ≤ a) ∨ (a ≤ a / 2 ^ s ∧ a / 2 ^ s ≤ 0) := by
  have hp : (0 : Int) < 2 ^ s := by positivity
  rcases Int.le_total 0 a with h | h
  · left
    exact ⟨Int.ediv_nonneg h hp.le, Int.ediv_le_self _ h⟩
  · right
    constructor
    · rw [Int.le_ediv_iff_mul_le hp]
      have : (1 : Int) ≤ 2 ^ s := hp
      have := Int.mul_le_mul_of_nonpos_left h this
      omega
    · exact Int.ediv_nonpos_of_nonpos_of_neg h hp

theorem emitBin_inRange {t : TypeKind} {op : BinOp} {a b v : Int} (ha : t.InRange a)
    (h : emitBin t op a b = some v) : t.InRange v := by
  cases op <;> simp only [emitBin] at h
  case div =>
    split at h
    · cases h
    · split at h
      · next h1 => cases h; exact reg_eq_iff.1 h1
      · cases h
  case mod =>
    split at h
    · cases h
    · split at h
      · cases h; exact inRange_between ha (tmod_between a b)
      · cases h
  all_goals (cases h; exact reg_inRange t _)

theorem eval_inRange (env : Env) (henv : env.OK) : ∀ e : Expr, WT e → ∀ v, eval env e = some v →
    e.ty.InRange v := by
  intro e
  induction e with
  | leaf t i => intro _ v h; cases h; exact henv.1 t i
  | lit c => intro hw v h; rw [eval_lit env c hw] at h; cases h; exact hw
  | len i => intro _ v h; cases h; exact henv.2 i
  | bin op l r ihl ihr =>
    intro hw v h
    simp only [eval] at h
    cases hl : eval env l with
    | none => rw [hl] at h; cases h
    | some a =>
      cases hr : eval env r with
      | none => rw [hl, hr] at h; cases h
      | some b =>
        rw [hl, hr] at h
        exact emitBin_inRange (ihl hw.1 a hl) h
  | orElse i l r ihl ihr =>
    intro hw v h
    simp only [eval] at h
    split at h
    · show l.ty.InRange v
      rw [hw.2.2]; exact ihr hw.2.1 v h
    · exact ihl hw.1 v h
  | shl l r ihl ihr =>
    intro hw v h
    simp only [eval] at h
    split at h
    · rw [Option.map_eq_some_iff] at h
      obtain ⟨s, _, h⟩ := h
      exact h ▸ reg_inRange l.ty _
    · cases h
  | shr l r ihl ihr =>
    intro hw v h
    simp only [eval] at h
    split at h
    · next a b ha hb =>
      rw [Option.map_eq_some_iff] at h
      obtain ⟨s, _, h⟩ := h
      exact h ▸ inRange_between (ihl hw.1 a ha) (shr_between a s)
    · cases h
  | assign t i r ih =>
    intro hw v h
    exact hw.2 ▸ ih hw.1 v h
  | neg e ih =>
    intro hw v h
    simp only [eval, Option.map_eq_some_iff] at h
    obtain ⟨a, _, h⟩ := h
    exact h ▸ reg_inRange e.ty _
  | bitneg e ih =>
    intro hw v h
    simp only [eval, Option.map_eq_some_iff] at h
    obtain ⟨a, _, h⟩ := h
    exact h ▸ reg_inRange e.ty _
  | plus e ih => intro hw v h; exact ih hw v h
  | ext t e ih =>
    intro hw v h
    simp only [eval, Option.map_eq_some_iff] at h
    obtain ⟨a, _, h⟩ := h
    exact h ▸ reg_inRange t _
  | tern i a b iha ihb =>
    intro hw v h
    simp only [eval] at h
    split at h
    · exact iha hw.1 v h
    · show a.ty.InRange v
      rw [hw.2.2]; exact ihb hw.2.1 v h
  | unwrap e ih => intro hw v h; exact ih hw v h
  | rethrow e ih => intro hw v h; exact ih hw v h
  | last e ih => intro hw v h; exact ih hw v h

/-! ## Narrowing -/

/-- What is computed with fewer bits than the target counts with its own value. -/
theorem exact_small (w : Nat) (env : Env) : ∀ e : Expr, WT e → e.ty.bits < w →
    exact (narrowCut w) env e = eval env e := by
  intro e
  have hc : ∀ e : Expr, e.ty.bits < w → narrowCut w e = true := by
    intro e h; unfold narrowCut; simp [h]
  induction e with
  | leaf t i => intro _ _; rfl
  | lit c => intro hw _; rw [eval_lit env c hw]; rfl
  | len i => intro _ _; rfl
  | assign t i r ih => intro _ _; rfl
  | orElse i l r ihl ihr =>
    intro hw h
    simp only [exact, eval]
    rw [ihl hw.1 h, ihr hw.2.1 (hw.2.2 ▸ h)]
  | tern i a b iha ihb =>
    intro hw h
    simp only [exact, eval]
    rw [iha hw.1 h, ihb hw.2.1 (hw.2.2 ▸ h)]
  | plus e ih => intro hw h; exact ih hw h
  | unwrap e ih => intro hw h; exact ih hw h
  | rethrow e ih => intro hw h; exact ih hw h
  | last e ih => intro hw h; exact ih hw h
  | bin op l r _ _ => intro _ h; simp only [exact]; rw [if_pos (hc _ h)]
  | shl l r _ _ => intro _ h; simp only [exact]; rw [if_pos (hc _ h)]
  | shr l r _ _ => intro _ h; simp only [exact]; rw [if_pos (hc _ h)]
  | neg e _ => intro _ h; simp only [exact]; rw [if_pos (hc _ h)]
  | bitneg e _ => intro _ h; simp only [exact]; rw [if_pos (hc _ h)]
  | ext t e _ => intro _ h; simp only [exact]; rw [if_pos (hc _ h)]

theorem reg_congr {t : TypeKind} {w : Nat} (h : w ≤ t.bits) {a b : Int} (hab : a ≡ b [ZMOD 2 ^ w]) :
    reg t a ≡ b [ZMOD 2 ^ w] :=
  ((reg_modEq t a).of_dvd (pow_dvd_pow 2 h)).trans hab

theorem narrow_congr (w : Nat) (env : Env) : ∀ e : Expr, WT e → Steady (narrowCut w) env e →
    ∀ v, eval env e = some v → ∃ x, exact (narrowCut w) env e = some x ∧ v ≡ x [ZMOD 2 ^ w] := by
  intro e
  by_cases hs : e.ty.bits < w
  · intro hw _ v hv
    exact ⟨v, by rw [exact_small w env e hw hs, hv], Int.ModEq.refl v⟩
  induction e with
  | leaf t i => intro _ _ v h; exact ⟨v, h, Int.ModEq.refl v⟩
  | lit c => intro hw _ v h; rw [eval_lit env c hw] at h; exact ⟨v, h, Int.ModEq.refl v⟩
  | len i => intro _ _ v h; exact ⟨v, h, Int.ModEq.refl v⟩
  | assign t i r ih => intro _ _ v h; exact ⟨v, h, Int.ModEq.refl v⟩
  | plus e ih => intro hw hS v h; exact ih hs hw hS v h
  | unwrap e ih => intro hw hS v h; exact ih hs hw hS v h
  | rethrow e ih => intro hw hS v h; exact ih hs hw hS v h
  | last e ih => intro hw hS v h; exact ih hs hw hS v h
  | orElse i l r ihl ihr =>
    intro hw hS v h
    simp only [eval] at h
    simp only [exact]
    split at h
    · next hf => rw [if_pos hf]; exact ihr (hw.2.2 ▸ hs) hw.2.1 hS.2 v h
    · next hf => rw [if_neg hf]; exact ihl hs hw.1 hS.1 v h
  | tern i a b iha ihb =>
    intro hw hS v h
    simp only [eval] at h
    simp only [exact]
    split at h
    · next hf => rw [if_pos hf]; exact iha hs hw.1 hS.1 v h
    · next hf => rw [if_neg hf]; exact ihb (hw.2.2 ▸ hs) hw.2.1 hS.2 v h
  | neg e ih =>
    intro hw hS v h
    simp only [exact]
    split
    · exact ⟨v, h, Int.ModEq.refl v⟩
    · next hc =>
      simp only [eval, Option.map_eq_some_iff] at h
      obtain ⟨a, ha, h⟩ := h
      obtain ⟨x, hx, hax⟩ := ih hs hw (hS.resolve_left hc) a ha
      exact ⟨-x, by rw [hx]; rfl, h ▸ reg_congr (Nat.le_of_not_lt hs) hax.neg⟩
  | bitneg e ih =>
    intro hw hS v h
    simp only [exact]
    split
    · exact ⟨v, h, Int.ModEq.refl v⟩
    · next hc =>
      simp only [eval, Option.map_eq_some_iff] at h
      obtain ⟨a, ha, h⟩ := h
      obtain ⟨x, hx, hax⟩ := ih hs hw (hS.resolve_left hc) a ha
      exact ⟨-x - 1, by rw [hx]; rfl, h ▸ reg_congr (Nat.le_of_not_lt hs) (hax.neg.sub_right 1)⟩
  | ext t e ih =>
    intro hw hS v h
    simp only [exact]
    split
    · exact ⟨v, h, Int.ModEq.refl v⟩
    · next hc =>
      simp only [eval, Option.map_eq_some_iff] at h
      obtain ⟨a, ha, h⟩ := h
      have hS' := hS.resolve_left hc
      by_cases hse : e.ty.bits < w
      · exact ⟨a, by rw [exact_small w env e hw hse, ha],
          h ▸ reg_congr (Nat.le_of_not_lt hs) (Int.ModEq.refl a)⟩
      · obtain ⟨x, hx, hax⟩ := ih hse hw hS' a ha
        exact ⟨x, hx, h ▸ reg_congr (Nat.le_of_not_lt hs) hax⟩
  | shl l r ihl ihr =>
    intro hw hS v h
    simp only [exact]
    split
    · exact ⟨v, h, Int.ModEq.refl v⟩
    · next hc =>
      simp only [eval] at h
      split at h
      · next a b ha hb =>
        rw [Option.map_eq_some_iff] at h
        obtain ⟨s, hs', h⟩ := h
        obtain ⟨x, hx, hax⟩ := ihl hs hw.1 (hS.resolve_left hc) a ha
        refine ⟨x * 2 ^ s, ?_, h ▸ reg_congr (Nat.le_of_not_lt hs) (hax.mul_right _)⟩
        rw [hx, hb]; simp only [Option.bind_some]; rw [hs']
      · cases h
  | shr l r ihl ihr =>
    intro hw hS v h
    simp only [exact]
    split
    · exact ⟨v, h, Int.ModEq.refl v⟩
    · next hc =>
      simp only [eval] at h
      split at h
      · next a b ha hb =>
        rw [Option.map_eq_some_iff] at h
        obtain ⟨s, hs', h⟩ := h
        have he := (hS.resolve_left hc).2
        refine ⟨v, ?_, Int.ModEq.refl v⟩
        rw [he, ha, hb]; simp only [Option.bind_some]; rw [hs', ← h]
      · cases h
  | bin op l r ihl ihr =>
    intro hw hS v h
    simp only [exact]
    split
    · exact ⟨v, h, Int.ModEq.refl v⟩
    · next hc =>
      simp only [eval] at h
      split at h
      · next a b ha hb =>
        have hS' := hS.resolve_left hc
        obtain ⟨x, hx, hax⟩ := ihl hs hw.1 hS'.1 a ha
        obtain ⟨y, hy, hby⟩ := ihr (hw.2.2 ▸ hs) hw.2.1 hS'.2.1 b hb
        have hle : w ≤ l.ty.bits := Nat.le_of_not_lt hs
        rw [hx, hy]
        cases op <;> simp only [emitBin] at h
        case add => exact ⟨_, rfl, Option.some.inj h ▸ reg_congr hle (hax.add hby)⟩
        case sub => exact ⟨_, rfl, Option.some.inj h ▸ reg_congr hle (hax.sub hby)⟩
        case mul => exact ⟨_, rfl, Option.some.inj h ▸ reg_congr hle (hax.mul hby)⟩
        case or => exact ⟨_, rfl, Option.some.inj h ▸ reg_congr hle (lor_congr hax hby)⟩
        case xor => exact ⟨_, rfl, Option.some.inj h ▸ reg_congr hle (xor_congr hax hby)⟩
        case and => exact ⟨_, rfl, Option.some.inj h ▸ reg_congr hle (land_congr hax hby)⟩
        case div =>
          obtain ⟨h1, h2⟩ := hS'.2.2 (Or.inl rfl)
          rw [ha, hx] at h1; rw [hb, hy] at h2
          cases h1; cases h2
          split at h
          · cases h
          · next h0 =>
            split at h
            · exact ⟨v, by simp only [exactBin]; rw [if_neg h0]; exact h, Int.ModEq.refl v⟩
            · cases h
        case mod =>
          obtain ⟨h1, h2⟩ := hS'.2.2 (Or.inr rfl)
          rw [ha, hx] at h1; rw [hb, hy] at h2
          cases h1; cases h2
          split at h
          · cases h
          · next h0 =>
            split at h
            · exact ⟨v, by simp only [exactBin]; rw [if_neg h0]; exact h, Int.ModEq.refl v⟩
            · cases h
      · cases h

/-! ## Which leaves are accepted -/

theorem fits_type_iff (s t : TypeKind) :
    (∀ v, s.InRange v → FitsBits s.signed t.bits v) ↔ s.bits ≤ t.bits := by
  constructor
  · intro h
    have h1 := h s.maxVal (by cases s <;> decide)
    apply Decidable.byContradiction
    intro hlt
    have hlt : t.bits < s.bits := Nat.lt_of_not_le hlt
    have h3 := bits_pos t
    have h4 : (2 : Int) ^ t.bits < 2 ^ s.bits := pow_lt_pow_right₀ (by decide) hlt
    have h5 : (2 : Int) ^ (t.bits - 1) < 2 ^ (s.bits - 1) := pow_lt_pow_right₀ (by decide) (by omega)
    unfold FitsBits TypeKind.maxVal at h1
    split at h1
    · omega
    · omega
  · intro h v hv
    have h1 : (2 : Int) ^ s.bits ≤ 2 ^ t.bits := pow_le_pow_right₀ (by decide) h
    have h2 : (2 : Int) ^ (s.bits - 1) ≤ 2 ^ (t.bits - 1) := pow_le_pow_right₀ (by decide) (by omega)
    have h3 := bits_pos t
    unfold TypeKind.InRange TypeKind.minVal TypeKind.maxVal at hv
    unfold FitsBits
    split
    · next hs => rw [if_pos hs, if_pos hs] at hv; omega
    · next hs => rw [if_neg hs, if_neg hs] at hv; omega

theorem may_narrow_iff (t : TypeKind) : ∀ e : Expr, WT e → NoLen t.bits e →
    (recursive_may_narrow t e = true ↔ ∀ s ∈ sources t.bits e, SourceFits t s) := by
  intro e
  induction e with
  | leaf s i =>
    intro _ _
    simp only [recursive_may_narrow, sources, List.forall_mem_singleton, decide_eq_true_eq]
    rw [Nat.not_lt, size_le]
    exact (fits_type_iff s t).symm
  | assign s i r _ =>
    intro _ _
    simp only [recursive_may_narrow, sources, List.forall_mem_singleton, decide_eq_true_eq]
    rw [Nat.not_lt, size_le]
    exact (fits_type_iff s t).symm
  | lit c =>
    intro _ _
    simp only [recursive_may_narrow, sources, List.forall_mem_singleton, expr_const_will_overflow,
      Bool.not_not]
    exact C07_fits c t
  | len i => intro _ h; exact absurd (List.mem_singleton.2 rfl) (h i)
  | ext s e ih =>
    intro hw hn
    have hg : type_size t ≥ type_size s ↔ s.bits ≤ t.bits := size_le s t
    simp only [recursive_may_narrow, sources]
    unfold NoLen at hn
    simp only [sources] at hn
    by_cases h : s.bits ≤ t.bits
    · rw [if_pos (hg.2 h), if_pos h]
      simp only [List.forall_mem_singleton, true_iff]
      exact (fits_type_iff s t).2 h
    · rw [if_neg (fun h' => h (hg.1 h')), if_neg h]
      rw [if_neg h] at hn
      exact ih hw hn
  | bin op l r ihl ihr =>
    intro hw hn
    simp only [recursive_may_narrow, sources, Bool.and_eq_true, List.forall_mem_append]
    rw [ihl hw.1 (fun i h => hn i (List.mem_append_left _ h)),
      ihr hw.2.1 (fun i h => hn i (List.mem_append_right _ h))]
  | orElse i l r ihl ihr =>
    intro hw hn
    simp only [recursive_may_narrow, sources, Bool.and_eq_true, List.forall_mem_append]
    rw [ihl hw.1 (fun i h => hn i (List.mem_append_left _ h)),
      ihr hw.2.1 (fun i h => hn i (List.mem_append_right _ h))]
  | tern i l r ihl ihr =>
    intro hw hn
    simp only [recursive_may_narrow, sources, Bool.and_eq_true, List.forall_mem_append]
    rw [ihl hw.1 (fun i h => hn i (List.mem_append_left _ h)),
      ihr hw.2.1 (fun i h => hn i (List.mem_append_right _ h))]
  | shl l r ihl _ => intro hw hn; exact ihl hw.1 hn
  | shr l r ihl _ => intro hw hn; exact ihl hw.1 hn
  | neg e ih => intro hw hn; exact ih hw hn
  | bitneg e ih => intro hw hn; exact ih hw hn
  | plus e ih => intro hw hn; exact ih hw hn
  | unwrap e ih => intro hw hn; exact ih hw hn
  | rethrow e ih => intro hw hn; exact ih hw hn
  | last e ih => intro hw hn; exact ih hw hn

/-! ## Widening -/

theorem widen_exact (env : Env) : ∀ e : Expr, WT e → Bare e → expr_is_simple e = true →
    ∀ v, eval env e = some v → exact widenCut env e = some v := by
  intro e
  induction e with
  | leaf t i => intro _ _ _ v h; exact h
  | lit c => intro hw _ _ v h; rw [eval_lit env c hw] at h; exact h
  | len i => intro _ _ _ v h; exact h
  | assign t i r _ => intro _ _ _ v h; exact h
  | plus e _ => intro _ hb; exact hb.elim
  | unwrap e _ => intro _ hb; exact hb.elim
  | last e _ => intro _ hb; exact hb.elim
  | neg e _ => intro _ _ h; cases h
  | bitneg e _ => intro _ _ h; cases h
  | shl l r _ _ => intro _ _ h; cases h
  | shr l r _ _ => intro _ _ h; cases h
  | ext t e _ => intro _ _ _ v h; exact h
  | rethrow e ih => intro hw hb hs v h; exact ih hw hb hs v h
  | orElse i l r ihl ihr =>
    intro hw hb hs v h
    simp only [expr_is_simple, Bool.and_eq_true] at hs
    simp only [eval] at h
    simp only [exact]
    split at h
    · next hf => rw [if_pos hf]; exact ihr hw.2.1 hb.2 hs.2 v h
    · next hf => rw [if_neg hf]; exact ihl hw.1 hb.1 hs.1 v h
  | tern i l r ihl ihr =>
    intro hw hb hs v h
    simp only [expr_is_simple, Bool.and_eq_true] at hs
    simp only [eval] at h
    simp only [exact]
    split at h
    · next hf => rw [if_pos hf]; exact ihl hw.1 hb.1 hs.2 v h
    · next hf => rw [if_neg hf]; exact ihr hw.2.1 hb.2 hs.1 v h
  | bin op l r ihl ihr =>
    intro hw hb hs v h
    have hop : op = .div ∨ op = .mod := by
      cases op <;> first | (left; rfl) | (right; rfl) | cases hs
    have hs' : expr_is_simple l = true ∧ expr_is_simple r = true := by
      rcases hop with rfl | rfl <;> simpa only [expr_is_simple, Bool.and_eq_true] using hs
    simp only [eval] at h
    split at h
    · next a b ha hb' =>
      simp only [exact]
      rw [if_neg (by simp [widenCut, isExt]), ihl hw.1 hb.1 hs'.1 a ha, ihr hw.2.1 hb.2 hs'.2 b hb']
      rcases hop with rfl | rfl
      all_goals
        simp only [emitBin] at h
        simp only [exactBin]
        split at h
        · cases h
        · next h0 =>
          rw [if_neg h0]
          split at h
          · exact h
          · cases h
    · cases h

/-! ## The converted expression -/

theorem castImplicit_widen {e : Expr} {t : TypeKind} (h : e.ty.bits < t.bits) :
    castImplicit e t = if expr_is_simple e = true then cast_int_to_int e t else none := by
  have hne : e.ty ≠ t := by intro h'; rw [h'] at h; omega
  have h1 : type_size t > type_size e.ty := by have := size_le t e.ty; omega
  unfold castImplicit rule_widen_narrow
  rw [if_neg hne]
  simp only [if_pos h1]

theorem castImplicit_narrow {e : Expr} {t : TypeKind} (h : t.bits < e.ty.bits) :
    castImplicit e t = if constOverflows t e = true then none
      else if recursive_may_narrow t e = true then cast_int_to_int e t else none := by
  have hne : e.ty ≠ t := by intro h'; rw [h'] at h; omega
  have h1 : ¬ type_size t > type_size e.ty := by rw [Nat.not_lt, size_le]; omega
  have h2 : ¬ type_size t = type_size e.ty := by rw [size_eq]; omega
  unfold castImplicit rule_widen_narrow
  rw [if_neg hne]
  simp only [if_neg h1, if_neg h2]
  cases constOverflows t e <;> simp

theorem castImplicit_same {e : Expr} {t : TypeKind} (h : e.ty.bits = t.bits) :
    castImplicit e t = if e.ty = t then some e
      else if constOverflows t e = true then none else cast_int_to_int e t := by
  have h1 : ¬ type_size t > type_size e.ty := by rw [Nat.not_lt, size_le]; omega
  have h2 : type_size t = type_size e.ty := by rw [size_eq]; omega
  unfold castImplicit rule_widen_narrow
  simp only [if_neg h1, if_pos h2]
  cases constOverflows t e <;> simp

theorem cast_eval (env : Env) (e e' : Expr) (t : TypeKind) (hw : WT e) (henv : env.OK)
    (h : castImplicit e t = some e') :
    WT e' ∧ e'.ty = t ∧ ∀ v, eval env e = some v → ∃ v', eval env e' = some v' ∧ Wraps t v v' := by
  unfold castImplicit at h
  split at h
  · next ht =>
    cases h
    exact ⟨hw, ht, fun v hv => ⟨v, hv, wraps_self (ht ▸ eval_inRange env henv e hw v hv)⟩⟩
  · split at h
    · cases e with
      | lit c =>
        simp only [cast_int_to_int, Option.map_eq_some_iff] at h
        obtain ⟨r, hr, rfl⟩ := h
        obtain ⟨r', hr', hty, hwr⟩ := C08_conv c t hw
        rw [hr] at hr'
        cases hr'
        have hwf : r.WF := by unfold CInt.WF; rw [hty]; exact hwr.1
        refine ⟨hwf, hty, fun v hv => ?_⟩
        rw [eval_lit env c hw] at hv
        cases hv
        exact ⟨r.val, eval_lit env r hwf, hwr⟩
      | _ =>
        simp only [cast_int_to_int] at h
        cases h
        refine ⟨hw, rfl, fun v hv => ⟨reg t v, ?_, reg_wraps t v⟩⟩
        simp only [eval] at hv ⊢
        rw [hv]; rfl
    · cases h

end C3.Casts
