import Verif.Qoi.Spec

set_option autoImplicit false

namespace C3.Qoi
open Std

theorem slot_eq (p : Px) : slot p = p.hash := rfl

theorem hash_lt (p : Px) : p.hash < 64 := Nat.mod_lt _ (by decide)

/-! ## The state of the decoder over chunks -/

/-- What the decoder does to its state: no palette entry for `index` and `run`. -/
def c3next (s : State) : Chunk → State
  | .index i => ⟨s.seen, s.seen i⟩
  | .run _ => s
  | c => s.next (c.pixel s)

def c3pixels (s : State) : List Chunk → List Px
  | [] => []
  | c :: l => List.replicate c.count (c.pixel s) ++ c3pixels (c3next s c) l

theorem pixels_length (s : State) (cs : List Chunk) : (pixels s cs).length = total cs := by
  induction cs generalizing s with
  | nil => rfl
  | cons c l ih => simp [pixels, total, ih]

theorem decRun (ch : Channels) (k : Nat) (hk : k < 64) (n : Nat) (rest : List Byte) (hr : rest ≠ [])
    (p : Px) (pal : Palette) :
    decLoop ch (k + n) ⟨rest, BitVec.ofNat 8 k, p, pal⟩ =
      (decLoop ch n ⟨rest, 0, p, pal⟩).map fun l => (List.replicate k p).flatMap (draw ch) ++ l := by
  induction k with
  | zero =>
    simp only [Nat.zero_add, List.replicate_zero, List.flatMap_nil, List.nil_append]
    cases decLoop ch n ⟨rest, 0, p, pal⟩ <;> rfl
  | succ k ih =>
    have e : k + 1 + n = (k + n) + 1 := by omega
    rw [e, decLoop]
    cases rest with
    | nil => exact absurd rfl hr
    | cons t l =>
      have h1 : (BitVec.ofNat 8 (k + 1)).toNat > 0 := by
        rw [BitVec.toNat_ofNat, Nat.mod_eq_of_lt (by omega)]; omega
      have h2 : BitVec.ofNat 8 (k + 1) - 1 = BitVec.ofNat 8 k := by
        apply BitVec.eq_of_toNat_eq
        rw [BitVec.toNat_sub, BitVec.toNat_ofNat, BitVec.toNat_ofNat]
        simp; omega
      simp only [decStep, h1, if_true, h2, bind, Except.bind]
      rw [ih (by omega)]
      cases decLoop ch n ⟨t :: l, 0, p, pal⟩ <;>
        simp [Except.map, List.replicate_succ, List.flatMap_cons]

/-- One chunk that is no run. -/
theorem decStep_chunk (c : Chunk) (hv : c.Valid) (hn : ∀ n, c ≠ .run n) (rest : List Byte)
    (p : Px) (pal : Palette) :
    decStep ⟨c.bytes ++ rest, 0, p, pal⟩ =
      .ok ⟨rest, 0, c.pixel ⟨pal, p⟩, (c3next ⟨pal, p⟩ c).seen⟩ ∧
    (c3next ⟨pal, p⟩ c).prev = c.pixel ⟨pal, p⟩ := by
  cases c with
  | run n => exact absurd rfl (hn n)
  | rgb r g b => exact ⟨rfl, rfl⟩
  | rgba r g b a => exact ⟨rfl, rfl⟩
  | index i =>
    have h : ∀ i : Fin 64, BitVec.ofNat 8 i.1 ≠ 0xFE ∧ BitVec.ofNat 8 i.1 ≠ 0xFF ∧
        (BitVec.ofNat 8 i.1) >>> 6 = 0 ∧ (BitVec.ofNat 8 i.1 &&& 0x3F).toNat = i.1 := by decide +kernel
    obtain ⟨h1, h2, h3, h4⟩ := h ⟨i, hv⟩
    refine ⟨?_, rfl⟩
    simp only at h1 h2 h3 h4
    simp only [decStep, Chunk.bytes, List.cons_append, List.nil_append, h1, h2, h3, h4, if_false, if_true]
    rfl
  | diff r g b =>
    have h : ∀ r g b : Fin 4, BitVec.ofNat 8 (64 + 16 * r.1 + 4 * g.1 + b.1) ≠ 0xFE ∧
        BitVec.ofNat 8 (64 + 16 * r.1 + 4 * g.1 + b.1) ≠ 0xFF ∧
        (BitVec.ofNat 8 (64 + 16 * r.1 + 4 * g.1 + b.1)) >>> 6 = 1 ∧
        (BitVec.ofNat 8 (64 + 16 * r.1 + 4 * g.1 + b.1)) >>> 4 &&& 3 = BitVec.ofNat 8 r.1 ∧
        (BitVec.ofNat 8 (64 + 16 * r.1 + 4 * g.1 + b.1)) >>> 2 &&& 3 = BitVec.ofNat 8 g.1 ∧
        (BitVec.ofNat 8 (64 + 16 * r.1 + 4 * g.1 + b.1)) &&& 3 = BitVec.ofNat 8 b.1 := by decide +kernel
    obtain ⟨h1, h2, h3, h4, h5, h6⟩ := h ⟨r, hv.1⟩ ⟨g, hv.2.1⟩ ⟨b, hv.2.2⟩
    refine ⟨?_, rfl⟩
    simp only at h1 h2 h3 h4 h5 h6
    have e : ¬ ((1 : BitVec 8) = 0) := by decide
    simp only [decStep, Chunk.bytes, List.cons_append, List.nil_append, h1, h2, h3, h4, h5, h6, if_false,
      if_true, e]
    simp only [Dec.put, c3next, State.next, Chunk.pixel, BitVec.sub_eq_add_neg, BitVec.add_assoc]
    rfl
  | luma g rg bg =>
    have h : ∀ g : Fin 64, BitVec.ofNat 8 (128 + g.1) ≠ 0xFE ∧ BitVec.ofNat 8 (128 + g.1) ≠ 0xFF ∧
        (BitVec.ofNat 8 (128 + g.1)) >>> 6 = 2 ∧
        BitVec.ofNat 8 (128 + g.1) &&& 0x3F = BitVec.ofNat 8 g.1 := by decide +kernel
    have h' : ∀ r b : Fin 16, (BitVec.ofNat 8 (16 * r.1 + b.1)) >>> 4 = BitVec.ofNat 8 r.1 ∧
        BitVec.ofNat 8 (16 * r.1 + b.1) &&& 0xF = BitVec.ofNat 8 b.1 := by decide +kernel
    obtain ⟨h1, h2, h3, h4⟩ := h ⟨g, hv.1⟩
    obtain ⟨h5, h6⟩ := h' ⟨rg, hv.2.1⟩ ⟨bg, hv.2.2⟩
    refine ⟨?_, rfl⟩
    simp only at h1 h2 h3 h4 h5 h6
    have e : ¬ ((2 : BitVec 8) = 0) := by decide
    have e' : ¬ ((2 : BitVec 8) = 1) := by decide
    simp only [decStep, Chunk.bytes, List.cons_append, List.nil_append, h1, h2, h3, h4, h5, h6, if_false,
      if_true, e, e']
    have q : ∀ a x y : Byte, a + (x - 8 + (y - 32)) = a + (y - 32) + (x - 8) := by
      intro a x y
      rw [BitVec.add_assoc, BitVec.add_comm (x - 8)]
    simp only [Dec.put, c3next, State.next, Chunk.pixel, q]
    rfl

theorem decStep_run (n : Nat) (hn : n < 62) (rest : List Byte) (p : Px) (pal : Palette) :
    decStep ⟨(Chunk.run n).bytes ++ rest, 0, p, pal⟩ = .ok ⟨rest, BitVec.ofNat 8 n, p, pal⟩ := by
  have h : ∀ i : Fin 62, BitVec.ofNat 8 (192 + i.1) ≠ 0xFE ∧ BitVec.ofNat 8 (192 + i.1) ≠ 0xFF ∧
      (BitVec.ofNat 8 (192 + i.1)) >>> 6 = 3 ∧
      (BitVec.ofNat 8 (192 + i.1) &&& 0x3F) = BitVec.ofNat 8 i.1 := by decide +kernel
  obtain ⟨h1, h2, h3, h4⟩ := h ⟨n, hn⟩
  simp only at h1 h2 h3 h4
  have e : ¬ ((3 : BitVec 8) = 0) := by decide
  have e1 : ¬ ((3 : BitVec 8) = 1) := by decide
  have e2 : ¬ ((3 : BitVec 8) = 2) := by decide
  simp only [decStep, Chunk.bytes, List.cons_append, List.nil_append, h1, h2, h3, h4, if_false, e, e1, e2]
  rfl

theorem decLoop_chunks (ch : Channels) (cs : List Chunk) (hv : ∀ c ∈ cs, c.Valid) (rest : List Byte)
    (hr : rest ≠ []) (s : State) :
    decLoop ch (total cs) ⟨cs.flatMap Chunk.bytes ++ rest, 0, s.prev, s.seen⟩ =
      .ok ((c3pixels s cs).flatMap (draw ch)) := by
  induction cs generalizing s with
  | nil => rfl
  | cons c l ih =>
    have hl := ih (fun c h => hv c (List.mem_cons_of_mem _ h))
    have hc := hv c (List.mem_cons_self ..)
    have hne : l.flatMap Chunk.bytes ++ rest ≠ [] := by simp [hr]
    have ht : total (c :: l) = c.count + total l := by simp [total]
    rw [List.flatMap_cons, List.append_assoc, ht]
    by_cases hn : ∀ n, c ≠ .run n
    · have h1 : c.count = 1 := by cases c <;> first | rfl | exact absurd rfl (hn _)
      obtain ⟨h2, h3⟩ := decStep_chunk c hc hn (l.flatMap Chunk.bytes ++ rest) s.prev s.seen
      have e : 1 + total l = total l + 1 := by omega
      rw [h1, e, decLoop, h2]
      simp only [bind, Except.bind]
      have h4 := hl (c3next s c)
      have h5 : (c3next s c).prev = c.pixel s := h3
      rw [h5] at h4
      have h6 : (c3next { seen := s.seen, prev := s.prev } c) = c3next s c := rfl
      have h7 : c.pixel { seen := s.seen, prev := s.prev } = c.pixel s := rfl
      rw [h6, h7, h4]
      simp [c3pixels, h1]
    · cases c with
      | run n =>
        have e : (Chunk.run n).count + total l = (n + total l) + 1 := by simp only [Chunk.count]; omega
        rw [e, decLoop, decStep_run n hc]
        simp only [bind, Except.bind]
        rw [decRun ch n (by have : n < 62 := hc; omega) _ _ hne, hl s]
        simp [Except.map, c3pixels, c3next, Chunk.count, Chunk.pixel, List.replicate_succ, List.flatMap_cons]
      | _ => exact absurd (fun n => by simp) hn

/-! ## The chunks of the encoder -/

theorem opIndex_eq (n : Nat) (h : n < 64) : opIndex (BitVec.ofNat 8 n) = (Chunk.index n).bytes := by
  have : ∀ i : Fin 64, BitVec.ofNat 8 i.1 &&& 0x3F = BitVec.ofNat 8 i.1 := by decide +kernel
  have h := this ⟨n, h⟩
  simp only at h
  simp only [opIndex, Chunk.bytes, h]

theorem opRun_eq (n : Nat) (h : n < 62) : opRun (BitVec.ofNat 8 n) = (Chunk.run n).bytes := by
  have : ∀ i : Fin 62, (3 <<< 6) ||| (BitVec.ofNat 8 i.1 &&& 0x3F) = BitVec.ofNat 8 (192 + i.1) := by
    decide +kernel
  have h := this ⟨n, h⟩
  simp only at h
  simp only [opRun, Chunk.bytes, h]

theorem opDiff_eq (r g b : Byte) :
    opDiff r g b = (Chunk.diff (r &&& 3).toNat (g &&& 3).toNat (b &&& 3).toNat).bytes ∧
      (Chunk.diff (r &&& 3).toNat (g &&& 3).toNat (b &&& 3).toNat).Valid := by
  have h : ∀ r g b : Fin 4, ((1 : Byte) <<< 6) ||| (BitVec.ofNat 8 r.1 <<< 4) ||| (BitVec.ofNat 8 g.1 <<< 2) |||
      BitVec.ofNat 8 b.1 = BitVec.ofNat 8 (64 + 16 * r.1 + 4 * g.1 + b.1) := by decide +kernel
  have hb : ∀ x : Byte, (x &&& 3).toNat < 4 := by decide +kernel
  have h := h ⟨_, hb r⟩ ⟨_, hb g⟩ ⟨_, hb b⟩
  simp only [BitVec.ofNat_toNat, BitVec.setWidth_eq] at h
  refine ⟨?_, hb r, hb g, hb b⟩
  simp only [opDiff, Chunk.bytes]
  rw [← h]; rfl

theorem opLuma_eq (g r b : Byte) :
    opLuma g r b = (Chunk.luma (g &&& 0x3F).toNat (r &&& 0xF).toNat (b &&& 0xF).toNat).bytes ∧
      (Chunk.luma (g &&& 0x3F).toNat (r &&& 0xF).toNat (b &&& 0xF).toNat).Valid := by
  have h1 : ∀ g : Fin 64, ((2 : Byte) <<< 6) ||| BitVec.ofNat 8 g.1 = BitVec.ofNat 8 (128 + g.1) := by
    decide +kernel
  have h2 : ∀ r b : Fin 16, (BitVec.ofNat 8 r.1 <<< 4) ||| BitVec.ofNat 8 b.1 =
      BitVec.ofNat 8 (16 * r.1 + b.1) := by decide +kernel
  have hb : ∀ x : Byte, (x &&& 0xF).toNat < 16 := by decide +kernel
  have hg : ∀ x : Byte, (x &&& 0x3F).toNat < 64 := by decide +kernel
  have h1 := h1 ⟨_, hg g⟩
  have h2 := h2 ⟨_, hb r⟩ ⟨_, hb b⟩
  simp only [BitVec.ofNat_toNat, BitVec.setWidth_eq] at h1 h2
  refine ⟨?_, hg g, hb r, hb b⟩
  simp only [opLuma, Chunk.bytes]
  rw [← h1, ← h2]; rfl

theorem small_eq : ∀ d : Byte, small d = true → (d + 2) &&& 3 = d + 2 := by decide +kernel
theorem near_eq : ∀ d : Byte, near d = true → (d + 8) &&& 0xF = d + 8 := by decide +kernel
theorem nearGreen_eq : ∀ d : Byte, nearGreen d = true → (d + 32) &&& 0x3F = d + 32 := by decide +kernel

theorem back (x y : Byte) : x + (y - x) = y := by
  rw [BitVec.add_comm, BitVec.sub_add_cancel]

theorem back2 (x y k : Byte) : x + (y - x + k) - k = y := by
  rw [← BitVec.add_assoc, back, BitVec.add_sub_cancel]

theorem back3 (x y d k : Byte) : x + (d + 32 - 32) + (y - x - d + k - k) = y := by
  rw [BitVec.add_sub_cancel, BitVec.add_sub_cancel, BitVec.add_assoc, BitVec.add_comm d,
    BitVec.sub_add_cancel, back]

/-- A pixel that is not in the palette is one chunk. -/
theorem newPixel_chunk (prev p : Px) : ∃ c : Chunk, c.Valid ∧ c.bytes = newPixel prev p ∧ c.count = 1 ∧
    (∀ seen, c.pixel ⟨seen, prev⟩ = p ∧ c3next ⟨seen, prev⟩ c = State.next ⟨seen, prev⟩ p) ∧
    (newPixel prev p).length ≤ 5 ∧ (prev.a = p.a → (newPixel prev p).length ≤ 4) := by
  unfold newPixel
  by_cases ha : prev.a = p.a
  · simp only [ha, if_true]
    by_cases hd : (small (p.r - prev.r) && small (p.g - prev.g) && small (p.b - prev.b)) = true
    · simp only [hd, if_true]
      obtain ⟨h1, h2⟩ := opDiff_eq (p.r - prev.r + 2) (p.g - prev.g + 2) (p.b - prev.b + 2)
      simp only [Bool.and_eq_true] at hd
      have e : ∀ seen, Chunk.pixel ⟨seen, prev⟩ (Chunk.diff (p.r - prev.r + 2 &&& 3).toNat
          (p.g - prev.g + 2 &&& 3).toNat (p.b - prev.b + 2 &&& 3).toNat) = p := by
        intro seen
        simp only [Chunk.pixel, BitVec.ofNat_toNat, BitVec.setWidth_eq, small_eq _ hd.1.1, small_eq _ hd.1.2,
          small_eq _ hd.2, back2, ha]
      refine ⟨_, h2, h1.symm, rfl, fun seen => ⟨e seen, ?_⟩, by simp [opDiff], by simp [opDiff]⟩
      show State.next _ (Chunk.pixel _ _) = _
      rw [e]
    · simp only [hd]
      by_cases hl : (near (p.r - prev.r - (p.g - prev.g)) && nearGreen (p.g - prev.g) &&
          near (p.b - prev.b - (p.g - prev.g))) = true
      · simp only [hl, if_true]
        obtain ⟨h1, h2⟩ := opLuma_eq (p.g - prev.g + 32) (p.r - prev.r - (p.g - prev.g) + 8)
          (p.b - prev.b - (p.g - prev.g) + 8)
        simp only [Bool.and_eq_true] at hl
        have e : ∀ seen, Chunk.pixel ⟨seen, prev⟩ (Chunk.luma (p.g - prev.g + 32 &&& 0x3F).toNat
            (p.r - prev.r - (p.g - prev.g) + 8 &&& 0xF).toNat
            (p.b - prev.b - (p.g - prev.g) + 8 &&& 0xF).toNat) = p := by
          intro seen
          simp only [Chunk.pixel, BitVec.ofNat_toNat, BitVec.setWidth_eq, near_eq _ hl.1.1,
            nearGreen_eq _ hl.1.2, near_eq _ hl.2, back3, ha]
          rw [BitVec.add_sub_cancel, back]
        refine ⟨_, h2, h1.symm, rfl, fun seen => ⟨e seen, ?_⟩, by simp [opLuma], by simp [opLuma]⟩
        show State.next _ (Chunk.pixel _ _) = _
        rw [e]
      · simp only [hl]
        have e : ∀ seen, Chunk.pixel ⟨seen, prev⟩ (.rgb p.r p.g p.b) = p := by
          intro seen; simp only [Chunk.pixel, ha]
        refine ⟨.rgb p.r p.g p.b, trivial, rfl, rfl, fun seen => ⟨e seen, ?_⟩, by simp [opRGB], by simp [opRGB]⟩
        show State.next _ (Chunk.pixel _ _) = _
        rw [e]
  · simp only [ha, if_false]
    exact ⟨.rgba p.r p.g p.b p.a, trivial, rfl, rfl, fun seen => ⟨rfl, rfl⟩, by simp [opRGBA], by simp⟩

/-! ## The loop of the encoder -/

/-- The array of the specification and the palette of the encoder differ where the encoder has a zero
pixel; the previous pixel is in the palette, or there is a zero pixel. -/
def Rel (seen pal : Palette) (prev : Px) : Prop :=
  (∀ i, seen i = pal i ∨ (pal i = ⟨0, 0, 0, 0⟩ ∧ i ≠ 0)) ∧
    (pal prev.hash = prev ∨ (pal prev.hash = ⟨0, 0, 0, 0⟩ ∧ prev.hash ≠ 0))

theorem Rel.run {seen pal : Palette} {prev : Px} (h : Rel seen pal prev) :
    Rel (State.next ⟨seen, prev⟩ prev).seen pal prev := by
  refine ⟨fun i => ?_, h.2⟩
  simp only [State.next]
  by_cases e : i = slot prev
  · rw [if_pos e, e]
    rcases h.2 with h2 | h2
    · exact .inl h2.symm
    · exact .inr h2
  · rw [if_neg e]; exact h.1 i

theorem Rel.put {seen pal : Palette} {prev : Px} (h : Rel seen pal prev) (p : Px) :
    Rel (State.next ⟨seen, prev⟩ p).seen (State.next ⟨pal, prev⟩ p).seen p := by
  refine ⟨fun i => ?_, ?_⟩
  · simp only [State.next]
    by_cases e : i = slot p
    · rw [if_pos e, if_pos e]; exact .inl rfl
    · rw [if_neg e, if_neg e]; exact h.1 i
  · left; simp [State.next, slot_eq]

theorem Rel.index {seen pal : Palette} {prev p : Px} (h : Rel seen pal prev) (hp : pal p.hash = p) :
    seen p.hash = p ∧ Rel (State.next ⟨seen, prev⟩ p).seen pal p := by
  have h1 : seen p.hash = p := by
    rcases h.1 p.hash with h1 | ⟨h1, h2⟩
    · rw [h1, hp]
    · rw [hp] at h1
      subst h1
      exact absurd rfl h2
  refine ⟨h1, fun i => ?_, .inl hp⟩
  simp only [State.next]
  by_cases e : i = slot p
  · rw [if_pos e, e]; exact .inl hp.symm
  · rw [if_neg e]; exact h.1 i

theorem encLoop_cons (max : Nat) (ch : Channels) (hch : ch ≠ .auto) (s : Enc) (p : Px) (l : List Px)
    (ha : ch = .rgb → p.a = s.p.a) :
    encLoop max ch s ((p :: l).flatMap (draw ch)) =
      (encPixel max l.isEmpty s p).bind fun s => encLoop max ch s (l.flatMap (draw ch)) := by
  have hE : (l.flatMap (draw ch)).isEmpty = l.isEmpty := by
    cases l with
    | nil => rfl
    | cons q l => cases ch <;> simp [draw]
  cases ch with
  | auto => exact absurd rfl hch
  | rgb =>
    have hp : (⟨p.r, p.g, p.b, s.p.a⟩ : Px) = p := by rw [← ha rfl]
    have hd : draw .rgb p = [p.r, p.g, p.b] := rfl
    rw [List.flatMap_cons, hd]
    show encLoop max .rgb s (p.r :: p.g :: p.b :: l.flatMap (draw .rgb)) = _
    rw [encLoop]
    · rw [hE, hp]; rfl
    all_goals (intros; first | contradiction | simp_all)
  | rgba =>
    have hd : draw .rgba p = [p.r, p.g, p.b, p.a] := rfl
    rw [List.flatMap_cons, hd]
    show encLoop max .rgba s (p.r :: p.g :: p.b :: p.a :: l.flatMap (draw .rgba)) = _
    rw [encLoop, hE]; rfl

theorem emit_ok (max : Nat) (s : Enc) (b : List Byte) (h : s.out.length + b.length ≤ max) :
    emit max s b = .ok { s with out := s.out ++ b } := by
  rw [emit, if_pos h]

theorem run_succ (k : Nat) (_ : k < 62) : BitVec.ofNat 8 k + 1 = BitVec.ofNat 8 (k + 1) := by
  rw [BitVec.ofNat_add]; rfl

theorem run_pred (k : Nat) (_ : k < 62) : BitVec.ofNat 8 (k + 1) - 1 = BitVec.ofNat 8 k := by
  rw [BitVec.ofNat_add]
  show BitVec.ofNat 8 k + 1 - 1 = _
  rw [BitVec.add_sub_cancel]

theorem run_toNat (k : Nat) (h : k ≤ 62) : (BitVec.ofNat 8 k).toNat = k := by
  rw [BitVec.toNat_ofNat, Nat.mod_eq_of_lt (by omega)]

/-- What a run that is pending costs. -/
def pend (k : Nat) : Nat := if k = 0 then 0 else 1

theorem pend_succ (k : Nat) : pend (k + 1) = 1 := by simp [pend]

theorem encLoop_spec (max : Nat) (ch : Channels) (hch : ch ≠ .auto) (l : List Px) :
    ∀ (out : List Byte) (pal : Palette) (q : Px) (k : Nat) (seen : Palette),
    k < 62 → (l = [] → k = 0) → (ch = .rgb → ∀ p ∈ l, p.a = q.a) →
    out.length + pend k + (ch.id + 1) * l.length ≤ max → Rel seen pal q →
    ∃ s' cs, encLoop max ch ⟨out, pal, q, BitVec.ofNat 8 k⟩ (l.flatMap (draw ch)) = .ok s' ∧
      s'.out = out ++ cs.flatMap Chunk.bytes ∧
      s'.out.length ≤ out.length + pend k + (ch.id + 1) * l.length ∧
      (∀ c ∈ cs, c.Valid) ∧ total cs = k + l.length ∧
      c3pixels ⟨pal, q⟩ cs = List.replicate k q ++ l ∧ pixels ⟨seen, q⟩ cs = List.replicate k q ++ l := by
  have hid : 3 ≤ ch.id := by cases ch <;> first | exact absurd rfl hch | decide
  induction l with
  | nil =>
    intro out pal q k seen _ h0 _ hm _
    have := h0 rfl
    subst this
    exact ⟨⟨out, pal, q, BitVec.ofNat 8 0⟩, [], rfl, by simp, by simp, by simp, by simp [total], rfl, rfl⟩
  | cons p l ih =>
    intro out pal q k seen hk _ ha hm hR
    have hmul : (ch.id + 1) * (p :: l).length = (ch.id + 1) * l.length + (ch.id + 1) := by
      rw [List.length_cons, Nat.mul_succ]
    rw [hmul] at hm
    rw [encLoop_cons max ch hch _ p l (fun h => ha h p (List.mem_cons_self ..)), hmul]
    by_cases hq : q = p
    · subst hq
      by_cases hf : k + 1 = 62 ∨ l.isEmpty = true
      · -- the run is written
        have hpos : 0 ≤ pend k := Nat.zero_le _
        obtain ⟨s', cs, h1, h2, h3, h4, h5, h6, h7⟩ :=
          ih (out ++ opRun (BitVec.ofNat 8 k)) pal q 0 (State.next ⟨seen, q⟩ q).seen (by omega) (fun _ => rfl)
            (fun h p hp => ha h p (List.mem_cons_of_mem _ hp))
            (by simp only [List.length_append, opRun, List.length_singleton, pend, if_true]; omega) hR.run
        have he : encPixel max l.isEmpty ⟨out, pal, q, BitVec.ofNat 8 k⟩ q =
            .ok ⟨out ++ opRun (BitVec.ofNat 8 k), pal, q, BitVec.ofNat 8 0⟩ := by
          have hc : BitVec.ofNat 8 (k + 1) = 62 ∨ l.isEmpty = true := by
            rcases hf with h | h
            · left; rw [h]; rfl
            · exact .inr h
          simp only [encPixel, if_true, run_succ k hk, run_pred k hk]
          rw [if_pos hc, emit_ok _ _ _ (by simp [opRun]; omega)]
          rfl
        rw [opRun_eq k hk] at h1 h2 h3
        rw [opRun_eq k hk] at he
        refine ⟨s', .run k :: cs, ?_, ?_, ?_, ?_, ?_, ?_, ?_⟩
        · rw [he]; exact h1
        · rw [h2, List.flatMap_cons, List.append_assoc]
        · simp only [List.length_append, Chunk.bytes, List.length_singleton, pend, if_true] at h3
          omega
        · intro c hc
          rcases List.mem_cons.1 hc with e | e
          · rw [e]; exact hk
          · exact h4 c e
        · simp only [total, List.map_cons, List.sum_cons, Chunk.count, List.length_cons] at h5 ⊢
          omega
        · simp only [c3pixels, c3next, Chunk.pixel, Chunk.count, h6, List.replicate_zero, List.nil_append]
          rw [List.replicate_succ', List.append_assoc]; rfl
        · simp only [pixels, Chunk.pixel, Chunk.count]
          have : (State.next ⟨seen, q⟩ q) = ⟨(State.next ⟨seen, q⟩ q).seen, q⟩ := rfl
          rw [this, h7]
          simp only [List.replicate_zero, List.nil_append]
          rw [List.replicate_succ', List.append_assoc]; rfl
      · -- the run goes on
        have hf' : ¬ (k + 1 = 62) ∧ l ≠ [] := by
          constructor
          · exact fun h => hf (.inl h)
          · intro h; exact hf (.inr (by rw [h]; rfl))
        have he : encPixel max l.isEmpty ⟨out, pal, q, BitVec.ofNat 8 k⟩ q =
            .ok ⟨out, pal, q, BitVec.ofNat 8 (k + 1)⟩ := by
          have hc : ¬ (BitVec.ofNat 8 (k + 1) = 62 ∨ l.isEmpty = true) := by
            rintro (h | h)
            · have := congrArg BitVec.toNat h
              rw [run_toNat _ (by omega)] at this
              exact hf'.1 this
            · exact hf (.inr h)
          simp only [encPixel, if_true, run_succ k hk]
          rw [if_neg hc]
        obtain ⟨s', cs, h1, h2, h3, h4, h5, h6, h7⟩ :=
          ih out pal q (k + 1) seen (by omega) (fun h => absurd h hf'.2)
            (fun h p hp => ha h p (List.mem_cons_of_mem _ hp)) (by rw [pend_succ]; omega) hR
        rw [pend_succ] at h3
        refine ⟨s', cs, by rw [he]; exact h1, h2, by omega, h4, by rw [h5, List.length_cons]; omega, ?_, ?_⟩
        · rw [h6, List.replicate_succ', List.append_assoc]; rfl
        · rw [h7, List.replicate_succ', List.append_assoc]; rfl
    · -- another pixel
      have hE : ∃ out' : List Byte, ∃ pre : List Chunk,
          endRun max ⟨out, pal, q, BitVec.ofNat 8 k⟩ = .ok ⟨out', pal, q, 0⟩ ∧
          out' = out ++ pre.flatMap Chunk.bytes ∧ out'.length = out.length + pend k ∧ (∀ c ∈ pre, c.Valid) ∧
          total pre = k ∧ (∀ cs, c3pixels ⟨pal, q⟩ (pre ++ cs) = List.replicate k q ++ c3pixels ⟨pal, q⟩ cs) ∧
          ∃ seen', Rel seen' pal q ∧
            ∀ cs, pixels ⟨seen, q⟩ (pre ++ cs) = List.replicate k q ++ pixels ⟨seen', q⟩ cs := by
        cases k with
        | zero => exact ⟨out, [], rfl, by simp, by simp [pend], by simp, rfl, by simp, seen, hR, by simp⟩
        | succ k =>
          have hpos : (BitVec.ofNat 8 (k + 1)).toNat > 0 := by rw [run_toNat _ (by omega)]; omega
          refine ⟨out ++ (Chunk.run k).bytes, [.run k], ?_, by simp, by simp [Chunk.bytes, pend], ?_, ?_, ?_,
            (State.next ⟨seen, q⟩ q).seen, hR.run, ?_⟩
          · simp only [endRun, hpos, if_true, run_pred k (by omega)]
            rw [opRun_eq k (by omega), emit_ok _ _ _ (by
              simp only [Chunk.bytes, List.length_singleton]; rw [pend_succ] at hm; omega)]
            rfl
          · intro c hc
            rw [List.mem_singleton.1 hc]
            show k < 62
            omega
          · simp [total, Chunk.count]
          · intro cs; rfl
          · intro cs; rfl
      obtain ⟨out', pre, e1, e2, e3, e4, e5, e6, seen', hR', e7⟩ := hE
      -- the chunk of the pixel
      have hC : ∃ c : Chunk, ∃ pal' : Palette, c.Valid ∧ c.count = 1 ∧
          encPixel max l.isEmpty ⟨out, pal, q, BitVec.ofNat 8 k⟩ p = .ok ⟨out' ++ c.bytes, pal', p, 0⟩ ∧
          c.bytes.length ≤ ch.id + 1 ∧ c.pixel ⟨pal, q⟩ = p ∧ c3next ⟨pal, q⟩ c = ⟨pal', p⟩ ∧
          c.pixel ⟨seen', q⟩ = p ∧ Rel (State.next ⟨seen', q⟩ p).seen pal' p := by
        by_cases hi : pal p.hash = p
        · obtain ⟨i1, i2⟩ := hR'.index hi
          refine ⟨.index p.hash, pal, hash_lt p, rfl, ?_, by simp [Chunk.bytes], hi, ?_, i1, i2⟩
          · simp only [encPixel, hq, if_false, e1, bind, Except.bind, hi, if_true]
            rw [opIndex_eq _ (hash_lt p), emit_ok _ _ _ (by simp only [Chunk.bytes, List.length_singleton]; omega)]
          · simp only [c3next, hi]
        · obtain ⟨c, c1, c2, c3, c4, c5, c6⟩ := newPixel_chunk q p
          have hlen : (newPixel q p).length ≤ ch.id + 1 := by
            cases ch with
            | auto => exact absurd rfl hch
            | rgb => exact c6 (ha rfl p (List.mem_cons_self ..)).symm
            | rgba => exact c5
          refine ⟨c, (State.next ⟨pal, q⟩ p).seen, c1, c3, ?_, by rw [c2]; exact hlen, (c4 pal).1,
            (c4 pal).2, (c4 seen').1, hR'.put p⟩
          simp only [encPixel, hq, if_false, e1, bind, Except.bind, hi]
          rw [emit_ok _ _ _ (by simp only; omega), c2]
          rfl
      obtain ⟨c, pal', c1, c2, c3, c4, c5, c6, c7, c8⟩ := hC
      obtain ⟨s', cs, h1, h2, h3, h4, h5, h6, h7⟩ :=
        ih (out' ++ c.bytes) pal' p 0 (State.next ⟨seen', q⟩ p).seen (by omega) (fun _ => rfl)
          (fun h p' hp => by
            rw [ha h p' (List.mem_cons_of_mem _ hp), ha h p (List.mem_cons_self ..)])
          (by simp only [List.length_append, pend, if_true]; omega) c8
      refine ⟨s', pre ++ c :: cs, ?_, ?_, ?_, ?_, ?_, ?_, ?_⟩
      · rw [c3]; exact h1
      · rw [h2, e2]; simp
      · simp only [List.length_append, pend, if_true] at h3
        omega
      · intro x hx
        rcases List.mem_append.1 hx with e | e
        · exact e4 x e
        · rcases List.mem_cons.1 e with e | e
          · rw [e]; exact c1
          · exact h4 x e
      · have : total (pre ++ c :: cs) = total pre + (c.count + total cs) := by simp [total]
        rw [this, e5, c2, h5, List.length_cons]; omega
      · rw [e6, c3pixels, c2, c5, c6, h6]; rfl
      · have : (State.next ⟨seen', q⟩ p) = ⟨(State.next ⟨seen', q⟩ p).seen, p⟩ := rfl
        rw [e7, pixels, c2, c7, this, h7]; rfl

theorem Rel.start : Rel Palette.start Palette.start Px.start :=
  ⟨fun _ => .inl rfl, .inr ⟨rfl, by decide⟩⟩

/-! ## The header -/

theorem be32_eq (x : BitVec 32) : be32 x = be x.toNat := by
  have h : ∀ k, (x >>> k).truncate 8 = BitVec.ofNat 8 (x.toNat / 2 ^ k) := by
    intro k
    apply BitVec.eq_of_toNat_eq
    simp only [BitVec.truncate, BitVec.toNat_setWidth, BitVec.toNat_ushiftRight, BitVec.toNat_ofNat,
      Nat.shiftRight_eq_div_pow]
  have h0 : x.truncate 8 = BitVec.ofNat 8 x.toNat := by
    apply BitVec.eq_of_toNat_eq
    simp only [BitVec.truncate, BitVec.toNat_setWidth, BitVec.toNat_ofNat]
  simp only [be32, be, h, h0]

theorem word_be32 (x : BitVec 32) :
    word ((x >>> 24).truncate 8) ((x >>> 16).truncate 8) ((x >>> 8).truncate 8) (x.truncate 8) = x := by
  apply BitVec.eq_of_getLsbD_eq
  intro i hi
  simp only [word, BitVec.zeroExtend, BitVec.truncate, BitVec.getLsbD_or, BitVec.getLsbD_shiftLeft,
    BitVec.getLsbD_setWidth, BitVec.getLsbD_ushiftRight]
  by_cases h1 : i < 8
  · have e1 : i < 24 := by omega
    have e2 : i < 16 := by omega
    simp [h1, hi, e1, e2]
  by_cases h2 : i < 16
  · have e1 : i < 24 := by omega
    have e3 : i - 8 < 8 := by omega
    have e4 : 8 + (i - 8) = i := by omega
    simp [h1, h2, hi, e1, e3, e4]; omega
  by_cases h3 : i < 24
  · have e3 : i - 16 < 8 := by omega
    have e4 : 16 + (i - 16) = i := by omega
    have e5 : ¬ i - 8 < 8 := by omega
    simp [h1, h2, h3, hi, e3, e4, e5]; omega
  · have e3 : i - 24 < 8 := by omega
    have e4 : 24 + (i - 24) = i := by omega
    have e5 : ¬ i - 8 < 8 := by omega
    have e6 : ¬ i - 16 < 8 := by omega
    simp [h1, h2, h3, hi, e3, e4, e5, e6]; omega

theorem stream_eq (d : Desc) (cs : List Chunk) :
    stream d.width.toNat d.height.toNat d.channels.id d.colorspace.id cs =
      header d ++ cs.flatMap Chunk.bytes ++ endOfStream := by
  have : be32 0x716F6966 = [0x71, 0x6F, 0x69, 0x66] := by decide
  simp only [stream, header, ← be32_eq, endOfStream, this]

theorem draw_eq (ch : Channels) : draw ch = pixelBytes ch.id := by
  funext p
  cases ch <;> rfl

theorem flatMap_draw_length (ch : Channels) (hch : ch ≠ .auto) (l : List Px) :
    (l.flatMap (draw ch)).length = l.length * ch.id := by
  induction l with
  | nil => simp
  | cons p l ih =>
    have : (draw ch p).length = ch.id := by cases ch <;> first | exact absurd rfl hch | rfl
    rw [List.flatMap_cons, List.length_append, ih, this, List.length_cons, Nat.succ_mul]; omega

/-- The pixels of an image. -/
theorem split (ch : Channels) (hch : ch ≠ .auto) (n : Nat) : ∀ input : List Byte, input.length = n * ch.id →
    ∃ l : List Px, l.length = n ∧ input = l.flatMap (draw ch) ∧ (ch = .rgb → ∀ p ∈ l, p.a = 255) := by
  induction n with
  | zero =>
    intro input h
    rw [Nat.zero_mul] at h
    exact ⟨[], rfl, by rw [List.length_eq_zero_iff.1 h]; rfl, by simp⟩
  | succ n ih =>
    intro input h
    rw [Nat.succ_mul] at h
    cases ch with
    | auto => exact absurd rfl hch
    | rgb =>
      match input, h with
      | r :: g :: b :: rest, h =>
        obtain ⟨l, h1, h2, h3⟩ := ih rest (by simp only [List.length_cons, Channels.id] at h ⊢; omega)
        refine ⟨⟨r, g, b, 255⟩ :: l, by simp [h1], ?_, ?_⟩
        · rw [List.flatMap_cons, ← h2]; rfl
        · intro e p hp
          rcases List.mem_cons.1 hp with hp | hp
          · rw [hp]
          · exact h3 e p hp
      | [], h => simp [Channels.id] at h
      | [_], h => simp only [List.length_cons, List.length_nil, Channels.id] at h; omega
      | [_, _], h => simp only [List.length_cons, List.length_nil, Channels.id] at h; omega
    | rgba =>
      match input, h with
      | r :: g :: b :: a :: rest, h =>
        obtain ⟨l, h1, h2, h3⟩ := ih rest (by simp only [List.length_cons, Channels.id] at h ⊢; omega)
        refine ⟨⟨r, g, b, a⟩ :: l, by simp [h1], ?_, by simp⟩
        rw [List.flatMap_cons, ← h2]; rfl
      | [], h => simp [Channels.id] at h
      | [_], h => simp only [List.length_cons, List.length_nil, Channels.id] at h; omega
      | [_, _], h => simp only [List.length_cons, List.length_nil, Channels.id] at h; omega
      | [_, _, _], h => simp only [List.length_cons, List.length_nil, Channels.id] at h; omega

/-- Whatever `encode` takes for the number of pixels, it writes a stream of so many. -/
theorem encode_core (l : List Px) (d : Desc) (hw : d.width ≠ 0) (hh : d.height ≠ 0)
    (hc : d.channels ≠ .auto) (n : Nat) (hn : (d.width * d.height).toNat = n) (hmax : n ≤ pixelsMax)
    (l1 : l.length = n) (l3 : d.channels = .rgb → ∀ p ∈ l, p.a = 255) :
    ∃ cs : List Chunk,
      encode (l.flatMap (draw d.channels)) d =
        .ok (stream d.width.toNat d.height.toNat d.channels.id d.colorspace.id cs) ∧
      (stream d.width.toNat d.height.toNat d.channels.id d.colorspace.id cs).length ≤
        22 + (d.channels.id + 1) * n ∧
      (∀ c ∈ cs, c.Valid) ∧ total cs = n ∧ c3pixels State.start cs = l ∧ pixels State.start cs = l := by
  have hlen : (l.flatMap (draw d.channels)).length = n * d.channels.id := by
    rw [flatMap_draw_length _ hc, l1]
  have hid : d.channels.id ≤ 4 := by cases d.channels <;> decide
  have hn4 : n * d.channels.id ≤ n * 4 := Nat.mul_le_mul_left n hid
  have hM : n ≤ 400000000 := hmax
  have hsz : (d.width * d.height * BitVec.ofNat 32 d.channels.id).toNat = n * d.channels.id := by
    rw [BitVec.toNat_mul, hn, BitVec.toNat_ofNat, Nat.mod_eq_of_lt (a := d.channels.id) (by omega),
      Nat.mod_eq_of_lt (by omega)]
  have hmx : (14 + d.width * d.height + d.width * d.height * BitVec.ofNat 32 d.channels.id + 8).toNat =
      14 + n + n * d.channels.id + 8 := by
    rw [BitVec.toNat_add, BitVec.toNat_add, BitVec.toNat_add, hsz, hn]
    show (((14 + n) % 2 ^ 32 + n * d.channels.id) % 2 ^ 32 + 8) % 2 ^ 32 = _
    rw [Nat.mod_eq_of_lt (a := 14 + n) (by omega), Nat.mod_eq_of_lt (a := 14 + n + n * d.channels.id) (by omega),
      Nat.mod_eq_of_lt (by omega)]
  have hcomm : (d.channels.id + 1) * l.length = n * d.channels.id + n := by
    rw [l1, Nat.mul_comm, Nat.mul_succ]
  have hH : (header d).length = 14 := rfl
  obtain ⟨s', cs, h1, h2, h3, h4, h5, h6, h7⟩ :=
    encLoop_spec (14 + n + n * d.channels.id + 8) d.channels hc l (header d) Palette.start Px.start 0
      Palette.start (by omega) (fun _ => rfl) (fun e p hp => by rw [l3 e p hp]; rfl)
      (by rw [hcomm, hH]; simp only [pend, if_true]; omega) Rel.start
  rw [hcomm, hH] at h3
  simp only [pend, if_true] at h3
  have hst : stream d.width.toNat d.height.toNat d.channels.id d.colorspace.id cs = s'.out ++ endOfStream := by
    rw [stream_eq, h2]
  have hE : endOfStream.length = 8 := rfl
  refine ⟨cs, ?_, ?_, h4, by rw [h5, l1]; omega, h6, h7⟩
  · rw [hst, encode, if_neg (fun h => h.elim hw hh), if_neg hc]
    simp only
    rw [hn, if_neg (by omega), hsz, if_neg (by rw [hlen]; simp), hmx]
    have h1' : encLoop (14 + n + n * d.channels.id + 8) d.channels ⟨header d, Palette.start, Px.start, 0⟩
        (l.flatMap (draw d.channels)) = .ok s' := h1
    simp only [bind, Except.bind, h1']
    rw [emit_ok _ _ _ (by rw [hE]; omega)]
  · rw [hst, List.length_append, hE, ← l1, hcomm]
    omega

/-- What `decode` does with a stream. -/
theorem decode_stream (d : Desc) (cs : List Chunk) (ch : Channels) (hw : d.width ≠ 0) (hh : d.height ≠ 0)
    (hc : d.channels ≠ .auto) :
    decode (stream d.width.toNat d.height.toNat d.channels.id d.colorspace.id cs) ch =
      if d.width.toNat * d.height.toNat > pixelsMax then .error .tooManyPixels
      else (decLoop (if ch = .auto then d.channels else ch) (d.width.toNat * d.height.toNat)
        ⟨cs.flatMap Chunk.bytes ++ endOfStream, 0, Px.start, Palette.start⟩).map fun l => (d, l) := by
  rw [stream_eq]
  have hcc : channelsOf (BitVec.ofNat 8 d.channels.id) = .ok d.channels := by
    cases d.channels <;> first | rfl | exact absurd rfl hc
  have hco : colorspaceOf (BitVec.ofNat 8 d.colorspace.id) = .ok d.colorspace := by
    cases d.colorspace <;> rfl
  have hm : word (((0x716F6966 : BitVec 32) >>> 24).truncate 8) (((0x716F6966 : BitVec 32) >>> 16).truncate 8)
      (((0x716F6966 : BitVec 32) >>> 8).truncate 8) (((0x716F6966 : BitVec 32)).truncate 8) = 0x716F6966 := word_be32 _
  simp only [header, be32, List.cons_append, List.nil_append, List.append_assoc]
  rw [decode, if_neg (by simp [endOfStream])]
  rw [if_neg (fun h => h hm)]
  rw [word_be32, word_be32, hcc, hco]
  show (if d.channels = .auto then _ else _) = _
  rw [if_neg hc, if_neg (fun h => h.elim hw hh)]
  simp only
  by_cases hp : d.width.toNat * d.height.toNat > pixelsMax
  · rw [if_pos hp, if_pos hp]
  · rw [if_neg hp, if_neg hp]
    cases decLoop (if ch = .auto then d.channels else ch) (d.width.toNat * d.height.toNat)
        ⟨cs.flatMap Chunk.bytes ++ endOfStream, 0, Px.start, Palette.start⟩ <;> rfl

/-! ## Decoding after the specification -/

theorem regular_pixels (cs : List Chunk) : ∀ s : State, s.seen (slot s.prev) = s.prev → Regular s cs →
    c3pixels s cs = pixels s cs := by
  induction cs with
  | nil => intros; rfl
  | cons c l ih =>
    intro s hs hr
    have hnext : c3next s c = s.next (c.pixel s) := by
      cases c with
      | run n =>
        show s = State.next s s.prev
        cases s with
        | mk seen prev =>
          simp only [State.next, State.mk.injEq, and_true]
          funext i
          by_cases e : i = slot prev
          · rw [if_pos e, e]; exact hs
          · rw [if_neg e]
      | index i =>
        show (⟨s.seen, s.seen i⟩ : State) = State.next s (s.seen i)
        simp only [State.next, State.mk.injEq, and_true]
        funext j
        by_cases e : j = slot (s.seen i)
        · rw [if_pos e, e, hr.1 i rfl]
        · rw [if_neg e]
      | _ => rfl
    rw [c3pixels, pixels, hnext, ih _ (by simp [State.next]) hr.2]

theorem regular_start (cs : List Chunk) (h : ∀ n, cs.head? ≠ some (.run n)) (hr : Regular State.start cs) :
    c3pixels State.start cs = pixels State.start cs := by
  cases cs with
  | nil => rfl
  | cons c l =>
    have hnext : c3next State.start c = State.start.next (c.pixel State.start) := by
      cases c with
      | run n => exact absurd rfl (h n)
      | index i =>
        simp only [c3next, State.next, State.start, Chunk.pixel, State.mk.injEq, and_true]
        funext j
        exact (ite_self _).symm
      | _ => rfl
    rw [c3pixels, pixels, hnext, regular_pixels _ _ (by simp [State.next]) hr.2]

/-! ## Enough data -/

theorem decStep_enough (s : Dec) (h : 5 ≤ s.rest.length) :
    ∃ s', decStep s = .ok s' ∧ s.rest.length ≤ s'.rest.length + 5 := by
  obtain ⟨rest, run, p, pal⟩ := s
  match rest, h with
  | t :: r :: g :: b :: a :: l, _ =>
    simp only [decStep, Dec.put]
    by_cases h0 : run.toNat > 0
    · rw [if_pos h0]; exact ⟨_, rfl, by simp⟩
    rw [if_neg h0]
    by_cases h1 : t = 0xFE
    · rw [if_pos h1]; exact ⟨_, rfl, by simp⟩
    rw [if_neg h1]
    by_cases h2 : t = 0xFF
    · rw [if_pos h2]; exact ⟨_, rfl, by simp⟩
    rw [if_neg h2]
    by_cases h3 : t >>> 6 = 0
    · rw [if_pos h3]; exact ⟨_, rfl, by simp⟩
    rw [if_neg h3]
    by_cases h4 : t >>> 6 = 1
    · rw [if_pos h4]; exact ⟨_, rfl, by simp⟩
    rw [if_neg h4]
    by_cases h5 : t >>> 6 = 2
    · rw [if_pos h5]; exact ⟨_, rfl, by simp⟩
    rw [if_neg h5]; exact ⟨_, rfl, by simp⟩

theorem decLoop_enough (ch : Channels) (n : Nat) : ∀ s : Dec, 5 * n ≤ s.rest.length →
    ∃ l, decLoop ch n s = .ok l := by
  induction n with
  | zero => intro s _; exact ⟨[], rfl⟩
  | succ n ih =>
    intro s h
    obtain ⟨s', h1, h2⟩ := decStep_enough s (by omega)
    obtain ⟨l, h3⟩ := ih s' (by omega)
    exact ⟨draw ch s'.p ++ l, by simp [decLoop, h1, h3, bind, Except.bind]⟩

/-- Zero bytes at the end of the data are read as references to the palette, then the data ends. -/
theorem decLoop_zeros (ch : Channels) (m : Nat) : ∀ (n : Nat) (p : Px) (pal : Palette), m < n →
    decLoop ch n ⟨List.replicate m 0, 0, p, pal⟩ = .error .panic := by
  induction m with
  | zero =>
    intro n p pal h
    cases n with
    | zero => omega
    | succ n => rfl
  | succ m ih =>
    intro n p pal h
    cases n with
    | zero => omega
    | succ n =>
      have e : decStep ⟨List.replicate (m + 1) 0, 0, p, pal⟩ = .ok ⟨List.replicate m 0, 0, pal 0, pal⟩ := rfl
      rw [decLoop, e]
      simp only [bind, Except.bind]
      rw [ih n _ _ (by omega)]

end C3.Qoi
