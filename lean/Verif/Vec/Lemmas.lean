import Verif.Vec.Spec
import Mathlib.Data.List.Induction

/-! # Helper lemmas for the vector -/

set_option autoImplicit false

namespace C3.Vec
open C3.Codec (store)

theorem store_at (a b : List Elem) (x v : Elem) {i : Nat} (h : i = a.length) : store (a ++ x :: b) i v = some (a ++ v :: b) := by
  subst h
  simp [store]

theorem get_at (a b : List Elem) (x : Elem) {i : Nat} (h : i = a.length) : (a ++ x :: b)[i]? = some x := by
  subst h; simp

/-- The block holds `s`. -/
structure Holds (b : Block) (s : List Elem) (rest : List Elem) : Prop where
  data : b.data = s ++ rest
  size : b.size.toNat = s.length
  le : s.length ≤ b.capacity.toNat
  pos : 0 < b.capacity.toNat
  room : b.capacity.toNat ≤ b.data.length

/-- The variable holds `s`. -/
def Rep (v : Vec) (s : List Elem) : Prop := (v = none ∧ s = []) ∨ ∃ b rest, v = some b ∧ Holds b s rest

theorem rep_some {b : Block} {s rest : List Elem} (h : Holds b s rest) : Rep (some b) s := Or.inr ⟨b, rest, rfl, h⟩

theorem le_room (c : Nat) : c ≤ room c := by unfold room; omega

theorem vecNew_holds (c : Nat) (h0 : 0 < c) (h : c < 0xFFFFFFFF) : ∃ b rest, vecNew c = some b ∧ Holds b [] rest ∧ b.capacity.toNat = c := by
  refine ⟨_, _, by rw [vecNew, if_pos h], ⟨rfl, rfl, by simp, ?_, ?_⟩, ?_⟩
  · rw [BitVec.toNat_ofNat, Nat.mod_eq_of_lt (by omega)]; exact h0
  · rw [BitVec.toNat_ofNat, Nat.mod_eq_of_lt (by omega), List.length_replicate]; exact le_room c
  · rw [BitVec.toNat_ofNat, Nat.mod_eq_of_lt (by omega)]

theorem Rep.size {v : Vec} {s : List Elem} (h : Rep v s) : (vecSize v).toNat = s.length := by
  rcases h with ⟨rfl, rfl⟩ | ⟨b, rest, rfl, h⟩
  · rfl
  · exact h.size

/-- Room for one more element: the block after `expand_`. -/
structure Expanded (b : Block) (s : List Elem) (x : Elem) (rest : List Elem) : Prop where
  data : b.data = s ++ x :: rest
  size : b.size.toNat = s.length + 1
  le : s.length + 1 ≤ b.capacity.toNat
  room : b.capacity.toNat ≤ b.data.length

theorem expand_block (b : Block) (s rest : List Elem) (h : Holds b s rest) (hl : s.length < 2 ^ 31 - 1) :
    ∃ b' x rest', expand (some b) = some b' ∧ Expanded b' s x rest' := by
  rw [expand]
  simp only [Option.bind_eq_bind, Option.bind_some]
  have hs1 : (b.size + 1#32).toNat = s.length + 1 := by
    rw [BitVec.toNat_add, h.size, show (1#32).toNat = 1 from rfl]
    exact Nat.mod_eq_of_lt (by omega)
  by_cases heq : b.size = b.capacity
  · have hc : b.capacity.toNat = s.length := by rw [← heq]; exact h.size
    have hpos := h.pos
    have hc2 : (b.capacity <<< 1).toNat = 2 * s.length := by
      rw [BitVec.toNat_shiftLeft, hc, Nat.shiftLeft_eq]
      omega
    have hroom := le_room (2 * s.length)
    rw [if_pos heq, hc2, vecNew, if_pos (by omega)]
    simp only [Option.bind_some, hc]
    have hlen : s.length ≤ b.data.length := by rw [h.data]; simp
    rw [if_pos ⟨hlen, by rw [List.length_replicate]; omega⟩]
    have htake : b.data.take s.length = s := by rw [h.data, List.take_left]
    rw [htake, List.drop_replicate]
    obtain ⟨m, hm⟩ : ∃ m, room (2 * s.length) - s.length = m + 1 := ⟨room (2 * s.length) - s.length - 1, by omega⟩
    rw [hm, List.replicate_succ]
    refine ⟨_, _, _, rfl, rfl, hs1, ?_, ?_⟩
    · rw [hc2]; omega
    · rw [hc2]; simp; omega
  · rw [if_neg heq]
    have hle := h.le
    have hne : s.length ≠ b.capacity.toNat := by
      intro hh
      exact heq (BitVec.eq_of_toNat_eq (by rw [h.size, hh]))
    have hroom := h.room
    rw [h.data, List.length_append] at hroom
    cases rest with
    | nil => simp at hroom; omega
    | cons x rest =>
      refine ⟨_, x, rest, rfl, h.data, hs1, ?_, h.room⟩
      show s.length + 1 ≤ b.capacity.toNat
      omega

theorem expand_spec (v : Vec) (s : List Elem) (h : Rep v s) (hl : s.length < 2 ^ 31 - 1) :
    ∃ b x rest, expand v = some b ∧ Expanded b s x rest := by
  rcases h with ⟨rfl, rfl⟩ | ⟨b, rest, rfl, h⟩
  · obtain ⟨b, rest, h1, h2, -⟩ := vecNew_holds 8 (by decide) (by decide)
    have : expand none = expand (some b) := by rw [expand, expand, h1]
    rw [this]
    exact expand_block b [] rest h2 hl
  · exact expand_block b s rest h hl

theorem Expanded.pred {b : Block} {s : List Elem} {x : Elem} {rest : List Elem} (h : Expanded b s x rest) :
    (b.size - 1#32).toNat = s.length := by
  rw [BitVec.toNat_sub_of_le (by rw [BitVec.le_def, h.size]; simp), h.size]
  rfl

theorem Expanded.holds {b : Block} {s : List Elem} {x : Elem} {rest : List Elem} (h : Expanded b s x rest) (s' : List Elem)
    (hl : s'.length = s.length + 1) : Holds { b with data := s' ++ rest } s' rest := by
  refine ⟨rfl, by rw [hl]; exact h.size, by rw [hl]; exact h.le, ?_, ?_⟩
  · have := h.le
    show 0 < b.capacity.toNat
    omega
  · have := h.room
    rw [h.data] at this
    simp at this ⊢
    omega

theorem shiftUp_spec (q : List Elem) : ∀ (p rest : List Elem) (x : Elem) (at_ n : Nat), at_ = p.length → n = p.length + q.length →
    ∃ y, shiftUp (p ++ q ++ x :: rest) at_ n = some (p ++ y :: q ++ rest) := by
  induction q using List.reverseRecOn with
  | nil =>
    intro p rest x at_ n h1 h2
    refine ⟨x, ?_⟩
    simp only [List.length_nil, Nat.add_zero] at h2
    cases n with
    | zero => simp [shiftUp]
    | succ n => rw [shiftUp, if_neg (by omega)]; simp
  | append_singleton q e ih =>
    intro p rest x at_ n h1 h2
    rw [List.length_append, List.length_singleton, ← Nat.add_assoc] at h2
    subst h2
    rw [shiftUp, if_pos (by omega)]
    have e1 : p ++ (q ++ [e]) ++ x :: rest = (p ++ q) ++ e :: (x :: rest) := by simp
    have e2 : p ++ (q ++ [e]) ++ x :: rest = (p ++ q ++ [e]) ++ x :: rest := by simp
    obtain ⟨y, hy⟩ := ih p (e :: rest) e at_ (p.length + q.length) h1 rfl
    refine ⟨y, ?_⟩
    rw [e1, get_at (p ++ q) _ e (by simp), ← e1, e2]
    simp only [Option.bind_eq_bind, Option.bind_some]
    rw [store_at _ _ _ _ (by simp; omega)]
    simp only [Option.bind_some]
    have e3 : p ++ q ++ [e] ++ e :: rest = p ++ q ++ e :: (e :: rest) := by simp
    rw [e3, hy]
    simp

theorem shiftDown_spec (q : List Elem) : ∀ (p g rest : List Elem) (i n : Nat), 0 < g.length → i = p.length + g.length →
    n = q.length → ∃ rest', shiftDown (p ++ g ++ q ++ rest) g.length i n = some (p ++ q ++ rest') ∧
      rest'.length = g.length + rest.length := by
  induction q with
  | nil =>
    intro p g rest i n h0 h1 h2
    subst h2
    exact ⟨g ++ rest, by simp [shiftDown], by simp⟩
  | cons e q ih =>
    intro p g rest i n h0 h1 h2
    subst h2
    cases g with
    | nil => simp at h0
    | cons g0 g =>
      rw [show (e :: q).length = q.length + 1 from rfl, shiftDown]
      have e1 : p ++ g0 :: g ++ e :: q ++ rest = (p ++ g0 :: g) ++ e :: (q ++ rest) := by simp
      have e2 : (p ++ g0 :: g) ++ e :: (q ++ rest) = p ++ g0 :: (g ++ e :: (q ++ rest)) := by simp
      rw [e1, get_at _ _ _ (by rw [h1, List.length_append]), e2]
      simp only [Option.bind_eq_bind, Option.bind_some]
      rw [store_at _ _ _ _ (by rw [h1]; simp)]
      simp only [Option.bind_some]
      obtain ⟨rest', hr, hrl⟩ := ih (p ++ [e]) (g ++ [e]) rest (i + 1) q.length (by simp) (by simp at h1 ⊢; omega) rfl
      refine ⟨rest', ?_, by simp at hrl ⊢; omega⟩
      have e3 : p ++ e :: (g ++ e :: (q ++ rest)) = p ++ [e] ++ (g ++ [e]) ++ q ++ rest := by simp
      have e4 : (g0 :: g).length = (g ++ [e]).length := by simp
      rw [e3, e4, hr]
      simp

theorem foreach_spec (q : List Elem) : ∀ (p rest : List Elem) (b : Block), b.data = p ++ q ++ rest →
    foreachIdx (some b) p.length q.length = some q := by
  induction q with
  | nil => intro p rest b h; rfl
  | cons e q ih =>
    intro p rest b h
    have := ih (p ++ [e]) rest b (by rw [h]; simp)
    rw [List.length_append, List.length_singleton] at this
    rw [List.length_cons, foreachIdx, vecGet]
    simp only [Option.bind_eq_bind, Option.bind_some, h, List.append_assoc, List.cons_append]
    rw [get_at _ _ _ rfl]
    simp only [Option.bind_some, this]

/-! ## One step -/

theorem step_refines (v : Vec) (s : List Elem) (op : Op) (h : Rep v s) (hl : s.length < 2 ^ 31 - 1) (s' r : List Elem)
    (hs : specStep s op = some (s', r)) : ∃ v', step v op = some (v', r) ∧ Rep v' s' ∧ s'.length ≤ s.length + 1 := by
  have hins : ∀ (i : Nat) (x : Elem), i ≤ s.length → ∃ b d d', expand v = some b ∧ shiftUp b.data i (b.size - 1#32).toNat = some d ∧
      store d i x = some d' ∧ Rep (some { b with data := d' }) (s.take i ++ x :: s.drop i) := by
    intro i x hi
    obtain ⟨b, y, rest, g1, g2⟩ := expand_spec v s h hl
    obtain ⟨z, hz⟩ := shiftUp_spec (s.drop i) (s.take i) rest y i (b.size - 1#32).toNat (by simp; omega)
      (by rw [g2.pred]; simp; omega)
    rw [List.take_append_drop, ← g2.data] at hz
    refine ⟨b, _, s.take i ++ x :: s.drop i ++ rest, g1, hz, ?_, rep_some (g2.holds _ ?_)⟩
    · have e1 : s.take i ++ z :: s.drop i ++ rest = s.take i ++ z :: (s.drop i ++ rest) := by simp
      rw [e1, store_at _ _ _ _ (by simp; omega)]
      simp
    · simp; omega
  cases op with
  | add x =>
    simp only [specStep, Option.some.injEq, Prod.mk.injEq] at hs
    obtain ⟨rfl, rfl⟩ := hs
    obtain ⟨b, y, rest, g1, g2⟩ := expand_spec v s h hl
    refine ⟨_, ?_, rep_some (g2.holds (s ++ [x]) (by simp)), by simp⟩
    simp only [step, vecAdd, g1, Option.bind_eq_bind, Option.bind_some, g2.pred, g2.data]
    rw [store_at _ _ _ _ rfl]
    simp
  | insertFirst x =>
    simp only [specStep, Option.some.injEq, Prod.mk.injEq] at hs
    obtain ⟨rfl, rfl⟩ := hs
    obtain ⟨b, d, d', g1, g2, g3, g4⟩ := hins 0 x (by omega)
    refine ⟨_, ?_, g4, by simp⟩
    simp only [step, vecInsertFirst, g1, g2, g3, Option.bind_eq_bind, Option.bind_some, Option.map_some]
  | insertAt i x =>
    simp only [specStep] at hs
    split at hs
    · rename_i hi
      simp only [Option.some.injEq, Prod.mk.injEq] at hs
      obtain ⟨rfl, rfl⟩ := hs
      obtain ⟨b, d, d', g1, g2, g3, g4⟩ := hins i.toNat x hi
      refine ⟨_, ?_, g4, by simp; omega⟩
      simp only [step, vecInsertAt, g1, g2, g3, Option.bind_eq_bind, Option.bind_some, Option.map_some]
    · simp at hs
  | pop =>
    simp only [specStep] at hs
    split at hs
    · simp at hs
    · rename_i hne
      simp only [Option.some.injEq, Prod.mk.injEq] at hs
      obtain ⟨rfl, rfl⟩ := hs
      rcases h with ⟨-, rfl⟩ | ⟨b, rest, rfl, h⟩
      · exact absurd rfl hne
      · obtain ⟨l, e, rfl⟩ : ∃ l e, s = l ++ [e] := ⟨s.dropLast, s.getLast hne, (List.dropLast_concat_getLast hne).symm⟩
        have hsz := h.size
        have hle := h.le
        rw [List.length_append, List.length_singleton] at hsz hle
        have hb0 : b.size ≠ 0#32 := by
          intro h0; rw [h0] at hsz; simp at hsz
        have hsub : (b.size - 1#32).toNat = l.length := by
          rw [BitVec.toNat_sub_of_le (by rw [BitVec.le_def, hsz]; simp), hsz]; rfl
        refine ⟨some { b with size := b.size - 1#32 }, ?_, Or.inr ⟨_, e :: rest, rfl, ?_, ?_, ?_, h.pos, h.room⟩, by simp; omega⟩
        · simp only [step, vecPop, Option.bind_eq_bind, Option.bind_some, if_neg hb0, Option.map_some]
        · rw [h.data]; simp
        · simpa using hsub
        · rw [List.dropLast_concat]
          show l.length ≤ b.capacity.toNat
          omega
  | eraseFront n =>
    simp only [specStep] at hs
    split at hs
    · rename_i hn
      simp only [Option.some.injEq, Prod.mk.injEq] at hs
      obtain ⟨rfl, rfl⟩ := hs
      by_cases h0 : n = 0#32
      · subst h0
        exact ⟨v, by simp [step, vecEraseFront], by simpa using h, by simp⟩
      have hn0 : n.toNat ≠ 0 := fun e => h0 (BitVec.eq_of_toNat_eq (by simpa using e))
      rcases h with ⟨-, rfl⟩ | ⟨b, rest, rfl, h⟩
      · simp at hn; omega
      · have hsz := h.size
        have hle := h.le
        obtain ⟨rest', hr, hrl⟩ := shiftDown_spec (s.drop n.toNat) [] (s.take n.toNat) rest n.toNat (b.size.toNat - n.toNat)
          (by simp; omega) (by simp; omega) (by simp; omega)
        rw [List.nil_append, List.nil_append, List.take_append_drop, ← h.data, List.length_take, Nat.min_eq_left hn] at hr
        refine ⟨some ⟨b.size - n, b.capacity, s.drop n.toNat ++ rest'⟩, ?_,
          Or.inr ⟨_, rest', rfl, rfl, ?_, ?_, h.pos, ?_⟩, by simp; omega⟩
        · simp only [step, vecEraseFront, if_neg h0, Option.bind_eq_bind, Option.bind_some]
          rw [if_pos ⟨by rw [BitVec.le_def]; omega, by omega⟩, hr]
          rfl
        · show (b.size - n).toNat = _
          rw [BitVec.toNat_sub_of_le (by rw [BitVec.le_def]; omega), List.length_drop, hsz]
        · show _ ≤ b.capacity.toNat
          simp; omega
        · have := h.room
          rw [h.data] at this
          simp at this hrl ⊢
          omega
    · simp at hs
  | eraseAt i =>
    simp only [specStep] at hs
    split at hs
    · rename_i hi
      simp only [Option.some.injEq, Prod.mk.injEq] at hs
      obtain ⟨rfl, rfl⟩ := hs
      rcases h with ⟨-, rfl⟩ | ⟨b, rest, rfl, h⟩
      · simp at hi
      · have hsz := h.size
        have hle := h.le
        obtain ⟨rest', hr, hrl⟩ := shiftDown_spec (s.drop (i.toNat + 1)) (s.take i.toNat) [s[i.toNat]] rest (i.toNat + 1)
          (b.size.toNat - (i.toNat + 1)) (by simp) (by simp; omega) (by simp; omega)
        have hsplit : s.take i.toNat ++ [s[i.toNat]] ++ s.drop (i.toNat + 1) ++ rest = b.data := by
          rw [h.data, List.append_assoc (s.take _), List.singleton_append, ← List.drop_eq_getElem_cons hi, List.take_append_drop]
        rw [hsplit, List.length_singleton] at hr
        have her : s.take i.toNat ++ s.drop (i.toNat + 1) = s.eraseIdx i.toNat := (List.eraseIdx_eq_take_drop_succ _ _).symm
        rw [her] at hr
        have hel : (s.eraseIdx i.toNat).length = s.length - 1 := by rw [List.length_eraseIdx, if_pos hi]
        refine ⟨some ⟨b.size - 1#32, b.capacity, s.eraseIdx i.toNat ++ rest'⟩, ?_,
          Or.inr ⟨_, rest', rfl, rfl, ?_, ?_, h.pos, ?_⟩, by omega⟩
        · simp only [step, vecEraseAt, Option.bind_eq_bind, Option.bind_some]
          rw [if_pos ⟨by rw [BitVec.lt_def]; omega, by omega⟩, hr]
          rfl
        · show (b.size - 1#32).toNat = _
          rw [BitVec.toNat_sub_of_le (by rw [BitVec.le_def, show (1#32).toNat = 1 from rfl]; omega), hel, hsz]; rfl
        · show _ ≤ b.capacity.toNat
          omega
        · have := h.room
          rw [h.data] at this
          simp only [List.length_append, List.length_singleton] at this hrl ⊢
          omega
    · simp at hs
  | resize n =>
    simp only [specStep] at hs
    split at hs
    · rename_i hn
      simp only [Option.some.injEq, Prod.mk.injEq] at hs
      obtain ⟨rfl, rfl⟩ := hs
      rcases h with ⟨rfl, rfl⟩ | ⟨b, rest, rfl, h⟩
      · exact ⟨none, rfl, Or.inl ⟨rfl, by simp⟩, by simp⟩
      · have hle := h.le
        refine ⟨some { b with size := n }, rfl, Or.inr ⟨_, s.drop n.toNat ++ rest, rfl, ?_, ?_, ?_, h.pos, h.room⟩, by simp; omega⟩
        · rw [h.data, ← List.append_assoc, List.take_append_drop]
        · show n.toNat = _
          simp; omega
        · show _ ≤ b.capacity.toNat
          simp; omega
    · simp at hs
  | set i x =>
    simp only [specStep] at hs
    split at hs
    · rename_i hi
      simp only [Option.some.injEq, Prod.mk.injEq] at hs
      obtain ⟨rfl, rfl⟩ := hs
      rcases h with ⟨-, rfl⟩ | ⟨b, rest, rfl, h⟩
      · simp at hi
      · refine ⟨some { b with data := s.set i.toNat x ++ rest }, ?_, Or.inr ⟨_, rest, rfl, rfl, ?_, ?_, h.pos, ?_⟩, by simp⟩
        · simp only [step, vecSet, Option.bind_eq_bind, Option.bind_some, h.data, store]
          rw [if_pos (by simp; omega), List.set_append_left _ _ hi]
          rfl
        · show b.size.toNat = _
          rw [List.length_set]; exact h.size
        · rw [List.length_set]; exact h.le
        · have := h.room
          rw [h.data] at this
          simpa using this
    · simp at hs
  | get i =>
    simp only [specStep, Option.map_eq_some_iff, Prod.mk.injEq] at hs
    obtain ⟨e, he, rfl, rfl⟩ := hs
    rcases h with ⟨-, rfl⟩ | ⟨b, rest, rfl, h⟩
    · simp at he
    · refine ⟨some b, ?_, rep_some h, by omega⟩
      simp only [step, vecGet, Option.bind_eq_bind, Option.bind_some, h.data]
      rw [List.getElem?_append_left (List.getElem?_eq_some_iff.1 he).1, he]
      rfl
  | last =>
    simp only [specStep, Option.some.injEq, Prod.mk.injEq] at hs
    obtain ⟨rfl, rfl⟩ := hs
    refine ⟨v, ?_, h, by omega⟩
    rcases h with ⟨rfl, rfl⟩ | ⟨b, rest, rfl, h⟩
    · rfl
    · have hsz := h.size
      by_cases hne : s = []
      · subst hne
        have : b.size = 0#32 := BitVec.eq_of_toNat_eq (by simpa using hsz)
        simp only [step, vecLast, vecSize, this, if_true, Option.map_some]
        rfl
      · obtain ⟨l, e, rfl⟩ : ∃ l e, s = l ++ [e] := ⟨s.dropLast, s.getLast hne, (List.dropLast_concat_getLast hne).symm⟩
        rw [List.length_append, List.length_singleton] at hsz
        have hb0 : b.size ≠ 0#32 := by
          intro h0; rw [h0] at hsz; simp at hsz
        have hsub : (b.size - 1#32).toNat = l.length := by
          rw [BitVec.toNat_sub_of_le (by rw [BitVec.le_def, hsz]; simp), hsz]; rfl
        simp only [step, vecLast, vecSize, if_neg hb0, vecGet, Option.bind_eq_bind, Option.bind_some, h.data, hsub,
          List.append_assoc, List.singleton_append]
        rw [get_at _ _ _ rfl]
        simp
  | size =>
    simp only [specStep, Option.some.injEq, Prod.mk.injEq] at hs
    obtain ⟨rfl, rfl⟩ := hs
    refine ⟨v, ?_, h, by omega⟩
    have : (vecSize v).setWidth 64 = BitVec.ofNat 64 s.length := by
      apply BitVec.eq_of_toNat_eq
      rw [BitVec.toNat_setWidth, h.size, BitVec.toNat_ofNat]
    rw [step, this]
  | foreach =>
    simp only [specStep, Option.some.injEq, Prod.mk.injEq] at hs
    obtain ⟨rfl, rfl⟩ := hs
    refine ⟨v, ?_, h, by omega⟩
    rw [step, h.size]
    rcases h with ⟨rfl, rfl⟩ | ⟨b, rest, rfl, h⟩
    · rfl
    · have := foreach_spec s [] rest b (by rw [h.data]; rfl)
      rw [List.length_nil] at this
      rw [this]
      rfl

theorem run_refines (ops : List Op) : ∀ (v : Vec) (s s' : List Elem) (rs : List (List Elem)), Rep v s →
    s.length + ops.length < 2 ^ 31 → specRun s ops = some (s', rs) → ∃ v', run v ops = some (v', rs) ∧ Rep v' s' := by
  induction ops with
  | nil =>
    intro v s s' rs h _ hs
    simp only [specRun, Option.some.injEq, Prod.mk.injEq] at hs
    obtain ⟨rfl, rfl⟩ := hs
    exact ⟨v, rfl, h⟩
  | cons op ops ih =>
    intro v s s' rs h hl hs
    rw [List.length_cons] at hl
    rw [specRun, Option.bind_eq_bind, Option.bind_eq_some_iff] at hs
    obtain ⟨⟨s1, r⟩, hs1, hs2⟩ := hs
    dsimp only at hs2
    rw [Option.bind_eq_bind, Option.bind_eq_some_iff] at hs2
    obtain ⟨⟨s2, rs'⟩, hs3, hs4⟩ := hs2
    simp only [Option.some.injEq, Prod.mk.injEq] at hs4
    obtain ⟨rfl, rfl⟩ := hs4
    obtain ⟨v1, g1, g2, g3⟩ := step_refines v s op h (by omega) s1 r hs1
    obtain ⟨v2, g4, g5⟩ := ih v1 s1 s2 rs' g2 (by omega) hs3
    refine ⟨v2, ?_, g5⟩
    simp only [run, g1, g4, Option.bind_eq_bind, Option.bind_some]

end C3.Vec
