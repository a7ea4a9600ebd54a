import Verif.Tables.Spec
import Verif.Symtab.Lemmas

/-! # `HTable` refines a map that keeps the first value of a key -/

set_option autoImplicit false

namespace C3.Tables
open C3.Symtab (nextHighestPowerOf2)

/-- What the chain holds under a key. -/
def chainValue (k : Ptr) (chain : List SEntry) : Ptr := ((chainFind k chain).map (·.value)).getD 0#64

/-- Each key's bucket exists and its chain holds what the map says. -/
structure HInv (t : HTable) (m : Map) : Prop where
  inside : t.mask.toNat < t.entries.length
  content : ∀ k chain, t.entries[(bucketIndex k t.mask).toNat]? = some chain → chainValue k chain = m k
  nonzero : ∀ chain ∈ t.entries, ∀ e ∈ chain, e.value ≠ 0#64

theorem bucketIndex_le (k : Ptr) (mask : BitVec 32) : (bucketIndex k mask).toNat ≤ mask.toNat := by
  unfold bucketIndex
  rw [BitVec.toNat_setWidth, BitVec.toNat_and, BitVec.toNat_setWidth]
  refine Nat.le_trans (Nat.mod_le _ _) (Nat.le_trans Nat.and_le_right ?_)
  exact Nat.mod_le _ _

theorem HInv.bucket {t : HTable} {m : Map} (h : HInv t m) (k : Ptr) :
    ∃ chain, t.entries[(bucketIndex k t.mask).toNat]? = some chain := by
  have := bucketIndex_le k t.mask
  have := h.inside
  exact ⟨_, List.getElem?_eq_getElem (by omega)⟩

theorem chainFind_mem (k : Ptr) (chain : List SEntry) (e : SEntry) (h : chainFind k chain = some e) : e ∈ chain ∧ e.key = k := by
  induction chain with
  | nil => simp [chainFind] at h
  | cons a rest ih =>
    rw [chainFind] at h
    split at h
    · simp only [Option.some.injEq] at h
      subst h
      exact ⟨by simp, by assumption⟩
    · obtain ⟨h1, h2⟩ := ih h
      exact ⟨by simp [h1], h2⟩

theorem HInv.get {t : HTable} {m : Map} (h : HInv t m) (k : Ptr) : htableGet t k = some (m k) := by
  obtain ⟨chain, hc⟩ := h.bucket k
  have hv := h.content k chain hc
  rw [htableGet, hc, Option.bind_eq_bind, Option.bind_some]
  unfold chainValue at hv
  cases hf : chainFind k chain with
  | none => rw [hf] at hv; simpa using hv
  | some e => rw [hf] at hv; simpa using hv

theorem HInv.set {t : HTable} {m : Map} (h : HInv t m) (k v : Ptr) (hv0 : v ≠ 0#64) :
    ∃ t', htableSet t k v = some (t', m k) ∧ HInv t' (fun x => if x = k ∧ m k = 0#64 then v else m x) := by
  obtain ⟨chain, hc⟩ := h.bucket k
  have hv := h.content k chain hc
  have hl := (List.getElem?_eq_some_iff.1 hc).1
  rw [htableSet, if_neg hv0]
  simp only [hc, Option.bind_eq_bind, Option.bind_some]
  unfold chainValue at hv
  cases hf : chainFind k chain with
  | some e =>
    rw [hf] at hv
    have hev : e.value = m k := by simpa using hv
    have hne : m k ≠ 0#64 := by
      rw [← hev]
      exact h.nonzero chain (List.mem_of_getElem? hc) e (chainFind_mem _ _ _ hf).1
    refine ⟨t, by dsimp only; rw [hev], ?_⟩
    have : (fun x => if x = k ∧ m k = 0#64 then v else m x) = m := by
      funext x
      rw [if_neg (fun hx => hne hx.2)]
    rw [this]
    exact h
  | none =>
    rw [hf] at hv
    have hmk : m k = 0#64 := by simpa using hv.symm
    refine ⟨_, by rw [hmk], ?_⟩
    constructor
    · simpa using h.inside
    · intro k' ch hch
      dsimp only at hch
      by_cases hb : (bucketIndex k' t.mask).toNat = (bucketIndex k t.mask).toNat
      · rw [hb, List.getElem?_set_self hl, Option.some.injEq] at hch
        subst hch
        rw [chainValue, chainFind]
        dsimp only
        by_cases hkk : k = k'
        · subst hkk
          rw [if_pos rfl, if_pos ⟨rfl, hmk⟩]; rfl
        · rw [if_neg hkk, if_neg (fun hx => hkk hx.1.symm)]
          have := h.content k' chain (by rw [hb]; exact hc)
          exact this
      · rw [List.getElem?_set_ne (fun e => hb e.symm)] at hch
        have hkk : k' ≠ k := by rintro rfl; exact hb rfl
        rw [if_neg (fun hx => hkk hx.1)]
        exact h.content k' ch hch
    · intro ch hch e he
      dsimp only at hch
      rcases List.mem_or_eq_of_mem_set hch with hch | rfl
      · exact h.nonzero ch hch e he
      · rcases List.mem_cons.1 he with rfl | he
        · exact hv0
        · exact h.nonzero chain (List.mem_of_getElem? hc) e he

theorem hRun_refines (ops : List Op) : ∀ (t : HTable) (m : Map) (rs : List Ptr), HInv t m →
    specRun specStepFirst m ops = some rs → ∃ t', hRun t ops = some (t', rs) := by
  induction ops with
  | nil =>
    intro t m rs _ h
    simp only [specRun, Option.some.injEq] at h
    subst h
    exact ⟨t, rfl⟩
  | cons op ops ih =>
    intro t m rs h hs
    rw [specRun, Option.bind_eq_bind, Option.bind_eq_some_iff] at hs
    obtain ⟨⟨m1, r⟩, hs1, hs2⟩ := hs
    dsimp only at hs2
    rw [Option.bind_eq_bind, Option.bind_eq_some_iff] at hs2
    obtain ⟨rs', hs3, hs4⟩ := hs2
    simp only [Option.some.injEq] at hs4
    subst hs4
    cases op with
    | get k =>
      simp only [specStepFirst, Option.some.injEq, Prod.mk.injEq] at hs1
      obtain ⟨rfl, rfl⟩ := hs1
      obtain ⟨t', ht⟩ := ih t m rs' h hs3
      exact ⟨t', by simp only [hRun, hStep, h.get k, Option.map_some, Option.bind_eq_bind, Option.bind_some, ht]⟩
    | set k v =>
      simp only [specStepFirst] at hs1
      split at hs1
      · simp at hs1
      · rename_i hv
        simp only [Option.some.injEq, Prod.mk.injEq] at hs1
        obtain ⟨rfl, rfl⟩ := hs1
        obtain ⟨t1, g1, g2⟩ := h.set k v hv
        obtain ⟨t', ht⟩ := ih t1 _ rs' g2 hs3
        exact ⟨t', by simp only [hRun, hStep, g1, Option.bind_eq_bind, Option.bind_some, ht]⟩

theorem htableInit_inv (c : BitVec 32) (t : HTable) (h : htableInit c = some t) : HInv t (fun _ => 0#64) := by
  unfold htableInit at h
  split at h
  · simp at h
  rename_i hc0
  have hcn : c.toNat ≠ 0 := fun e => hc0 (BitVec.eq_of_toNat_eq (by simpa using e))
  simp only [Option.some.injEq] at h
  subst h
  constructor
  · dsimp only
    rw [List.length_replicate]
    by_cases hbig : 2 ^ 31 < c.toNat
    · have := (nextHighestPowerOf2 c - 1#32).isLt
      omega
    by_cases h1 : c.toNat = 1
    · have : c = 1#32 := BitVec.eq_of_toNat_eq h1
      subst this
      decide
    have hp := C3.Symtab.nextPow2_eq c (by omega) (by omega)
    have hlog : 2 ^ (c.toNat - 1).log2 ≤ c.toNat - 1 := Nat.log2_self_le (by omega)
    have hpos := Nat.two_pow_pos (c.toNat - 1).log2
    have hs : 2 ^ ((c.toNat - 1).log2 + 1) = 2 * 2 ^ (c.toNat - 1).log2 := by rw [Nat.pow_succ]; omega
    rw [BitVec.toNat_sub_of_le (by
      rw [BitVec.le_def, hp, show (1#32).toNat = 1 from rfl]
      omega), hp, show (1#32).toNat = 1 from rfl]
    omega
  · intro k chain hch
    dsimp only at hch
    rw [List.getElem?_replicate] at hch
    split at hch
    · simp only [Option.some.injEq] at hch
      subst hch
      rfl
    · simp at hch
  · intro chain hch e he
    dsimp only at hch
    rw [List.mem_replicate] at hch
    rw [hch.2] at he
    simp at he

end C3.Tables
