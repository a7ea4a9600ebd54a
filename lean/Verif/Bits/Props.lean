import Verif.Bits.Lemmas

/-! # Bits in and out of streams -/

set_option autoImplicit false

namespace C3.Bits

/-- Calls of `BitWriter.write_bits` one after the other, then `BitWriter.flush`. -/
def writeAll : Writer → List (BitVec 32 × Nat) → Option Writer
  | w, [] => w.flush
  | w, p :: l => do
    let w' ← w.write p.1 p.2
    writeAll w' l

/-- The bits asked for. -/
def wanted (l : List (BitVec 32 × Nat)) : List Bool := l.flatMap fun p => msb p.2 p.1.toNat

/-- The property in full: whatever is written, at most 32 bits at a time, the bytes hold these bits
in order and less than eight zeros behind them. -/
def C109_full : Prop := ∀ l : List (BitVec 32 × Nat), (∀ p ∈ l, p.2 ≤ 32) →
  ∃ w, writeAll Writer.init l = some w ∧
    ∃ k, k < 8 ∧ bitsOf w.out = wanted l ++ List.replicate k false

/-- C109: 24 bits, then 32 bits: the second call shifts a `uint` by 32. -/
theorem C109_fails : ¬ C109_full := by
  intro h
  obtain ⟨w, hw, _⟩ := h [(0, 24), (0, 32)] (by decide)
  have : writeAll Writer.init [(0, 24), (0, 32)] = none := rfl
  rw [this] at hw
  cases hw

/-- C109: a call fails exactly when 24 bits are kept and 32 are written. In every other case the
bits are behind those that were there. -/
theorem C109_exact (w : Writer) (v : BitVec 32) (n : Nat) (h : w.len ≤ 24) (hn : n ≤ 32) :
    (w.write v n = none ↔ w.len = 24 ∧ n = 32) ∧
    ∀ w', w.write v n = some w' → w'.len ≤ 24 ∧
      bitsOf w'.out ++ msb w'.len w'.bits.toNat =
        bitsOf w.out ++ msb w.len w.bits.toNat ++ msb n v.toNat := by
  by_cases hb : w.len = 24 ∧ n = 32
  · obtain ⟨h1, h2⟩ := hb
    subst h2
    refine ⟨⟨fun _ => ⟨h1, rfl⟩, fun _ => write_fail w v h1⟩, ?_⟩
    intro w' hw
    rw [write_fail w v h1] at hw
    cases hw
  · obtain ⟨w', e1, e2, e3⟩ := write_spec w v n h hn hb
    refine ⟨⟨fun e => (by rw [e1] at e; cases e), fun e => absurd e hb⟩, ?_⟩
    intro w'' hw
    rw [e1] at hw
    cases hw
    exact ⟨e2, e3⟩

example : (Writer.init.write 5 3).map (fun w => (w.out, w.bits, w.len)) = some ([], 5, 3) := by
  decide

theorem writeAll_spec : ∀ (l : List (BitVec 32 × Nat)) (w : Writer), w.len ≤ 24 →
    (∀ p ∈ l, p.2 ≤ 31) → ∃ w', writeAll w l = some w' ∧
      ∃ k, k < 8 ∧ bitsOf w'.out = w.all ++ wanted l ++ List.replicate k false
  | [], w, h, _ => by
    obtain ⟨w', h1, _, h3⟩ := flush_spec w h
    refine ⟨w', h1, 8 * ((w.len + 7) / 8) - w.len, ?_, by rw [h3]; simp [wanted]⟩
    omega
  | p :: l, w, h, hl => by
    have hp := hl p (by simp)
    obtain ⟨w1, h1, h2, h3⟩ := write_spec w p.1 p.2 h (by omega) (by omega)
    obtain ⟨w', h4, k, h5, h6⟩ := writeAll_spec l w1 h2 (fun q hq => hl q (by simp [hq]))
    refine ⟨w', ?_, k, h5, ?_⟩
    · rw [writeAll, h1]; exact h4
    · rw [h6, h3]
      simp [wanted]

/-- C109: with at most 31 bits at a time it holds. -/
theorem C109_write_partial (l : List (BitVec 32 × Nat)) (hl : ∀ p ∈ l, p.2 ≤ 31) :
    ∃ w, writeAll Writer.init l = some w ∧
      ∃ k, k < 8 ∧ bitsOf w.out = wanted l ++ List.replicate k false := by
  obtain ⟨w, h1, k, h2, h3⟩ := writeAll_spec l Writer.init (by decide) hl
  exact ⟨w, h1, k, h2, by rw [h3]; simp [Writer.all, Writer.init, bitsOf, msb]⟩

example : (writeAll Writer.init [(5, 3), (0x1ABCDE, 21), (1, 1), (0x7FFFFFFF, 31)]).map Writer.out =
    some [0xBA, 0xBC, 0xDE, 0xFF, 0xFF, 0xFF, 0xFF] := by decide

/-- C110: a reader gives the bits of its bytes in order, the highest of each byte first: `n` bits
are the number these bits are, and the rest stays to be read. If there are less than `n` left it
reports the end and nothing is lost. -/
theorem C110_read (r : Reader) (n : Nat) (hr : r.len ≤ 7) (hn : n ≤ 8) :
    (n ≤ r.all.length → ∃ r' b, r.read n = some (r', some b) ∧ r'.len ≤ 7 ∧
      b.toNat = num (r.all.take n) ∧ r'.all = r.all.drop n) ∧
    (r.all.length < n → r.read n = some (r, none)) := by
  refine ⟨fun h => ?_, (read_spec r n hr hn).2⟩
  obtain ⟨r', b, h1, h2, h3, h4, _⟩ := (read_spec r n hr hn).1 h
  exact ⟨r', b, h1, h2, h3, h4⟩

/-- C110: a new reader has all the bits of its bytes to read, and the length is below eight. -/
theorem C110_init (input : List Byte) :
    (Reader.init input).all = bitsOf input ∧ (Reader.init input).len ≤ 7 := by
  refine ⟨?_, by simp [Reader.init]⟩
  simp [Reader.all, Reader.init, msb]

/-- C110: `clear` goes on at the next whole byte, at most seven bits further. -/
theorem C110_clear (r : Reader) (hr : r.len ≤ 7) :
    r.clear.all = r.all.drop (r.all.length % 8) ∧ r.all.length % 8 ≤ 7 ∧ r.clear.len ≤ 7 := by
  have hlen : r.all.length = r.len + 8 * r.input.length := by
    rw [Reader.all, List.length_append, msb_length, bitsOf_length]
  have hm : r.all.length % 8 = r.len := by omega
  refine ⟨?_, by omega, by simp [Reader.clear]⟩
  rw [hm, Reader.all, Reader.all, List.drop_left' (msb_length _ _)]
  simp [Reader.clear, msb]

example : ((Reader.init [0xA5]).read 3).map (fun x => (x.1.len, x.2)) = some (5, some 5) := by decide

/-- Reads of the given widths, one after the other. -/
def readAll : Reader → List Nat → Option (List (Option Byte))
  | _, [] => some []
  | r, n :: l => do
    let x ← r.read n
    let y ← readAll x.1 l
    some (x.2 :: y)

theorem readAll_spec : ∀ (l : List (BitVec 32 × Nat)) (r : Reader), r.len ≤ 7 →
    (∀ p ∈ l, p.2 ≤ 8) → (∃ t, r.all = wanted l ++ t) →
    readAll r (l.map Prod.snd) =
      some (l.map fun p => some (BitVec.ofNat 8 (p.1.toNat % 2 ^ p.2)))
  | [], r, _, _, _ => rfl
  | p :: l, r, hr, hl, ht => by
    obtain ⟨t, ht⟩ := ht
    have e : r.all = msb p.2 p.1.toNat ++ (wanted l ++ t) := by rw [ht]; simp [wanted]
    obtain ⟨r', b, h1, h2, h3, h4, _⟩ := (read_spec r p.2 hr (hl p (by simp))).1 (by
      rw [e, List.length_append, msb_length]; omega)
    rw [e, List.take_left' (msb_length _ _), num_msb] at h3
    rw [e, List.drop_left' (msb_length _ _)] at h4
    have ih := readAll_spec l r' h2 (fun q hq => hl q (by simp [hq])) ⟨t, h4⟩
    simp only [List.map_cons, readAll, h1, ih, Option.bind_eq_bind, Option.bind_some, ← h3,
      BitVec.ofNat_toNat, BitVec.setWidth_eq]

/-- C111: what was written in groups of at most eight bits is what is read in the same groups. -/
theorem C111_round_trip (l : List (BitVec 32 × Nat)) (hl : ∀ p ∈ l, p.2 ≤ 8) :
    ∃ w, writeAll Writer.init l = some w ∧
      readAll (Reader.init w.out) (l.map Prod.snd) =
        some (l.map fun p => some (BitVec.ofNat 8 (p.1.toNat % 2 ^ p.2))) := by
  obtain ⟨w, h1, k, _, h3⟩ := C109_write_partial l (fun p hp => by have := hl p hp; omega)
  refine ⟨w, h1, readAll_spec l _ (C110_init _).2 hl ⟨List.replicate k false, ?_⟩⟩
  rw [(C110_init _).1, h3]

example : ((writeAll Writer.init [(5, 3), (0x1F0, 8), (1, 1)]).bind fun w =>
    readAll (Reader.init w.out) [3, 8, 1, 4, 1]) = some [some 5, some 0xF0, some 1, some 0, none] := by
  decide

end C3.Bits
