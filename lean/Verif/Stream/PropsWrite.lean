import Verif.Stream.LemmasBuf

set_option autoImplicit false

/-! Properties C165-C168: writing to streams. -/

namespace C3.Stream

variable {σ τ α : Type}

/-- A `WriteBuffer` should write to its stream what is written to it: what has arrived there together with what is pending is what
was written, whatever counts as pending. -/
def C165_full : Prop :=
  ∀ (τ α : Type) (W : Out τ α) (good : τ → Prop) (got : τ → List α), Writes W good got →
    ∃ (good' : WriteBuffer τ α → Prop) (got' : WriteBuffer τ α → List α), Writes (writeBuffer W) good' got' ∧
      (∀ i b, good i → b ≠ [] → good' ⟨i, b, 0⟩ ∧ got' ⟨i, b, 0⟩ = got i) ∧
      ∀ s, good' s → got s.inner <+: got' s

/-- It does not: when the stream takes a part of the pending bytes only, the others are taken from the wrong end, and bytes arrive
twice. -/
theorem C165_fails : ¬ C165_full := by
  intro h
  obtain ⟨good, got, hw, hs, hp⟩ := h (Sink Nat) Nat sink _ _ sink_writes
  obtain ⟨g0, h0⟩ := hs ⟨[], [.most 2]⟩ [0, 0, 0, 0] trivial (by simp)
  have e1 : (writeBuffer sink).write (⟨⟨[], [.most 2]⟩, [0, 0, 0, 0], 0⟩ : WriteBuffer (Sink Nat) Nat) [1, 2, 3] =
    some (⟨⟨[], [.most 2]⟩, [1, 2, 3, 0], 3⟩, .ok 3) := rfl
  have e2 : (writeBuffer sink).write (⟨⟨[], [.most 2]⟩, [1, 2, 3, 0], 3⟩ : WriteBuffer (Sink Nat) Nat) [4, 5] =
    some (⟨⟨[1, 2], []⟩, [1, 2, 3, 0], 1⟩, .fault) := rfl
  have e3 : (writeBuffer sink).write (⟨⟨[1, 2], []⟩, [1, 2, 3, 0], 1⟩ : WriteBuffer (Sink Nat) Nat) [4, 5, 6, 7] =
    some (⟨⟨[1, 2, 1, 4, 5, 6, 7], []⟩, [1, 2, 3, 0], 0⟩, .ok 4) := rfl
  obtain ⟨t, r, e, g1, hr⟩ := hw.write _ [1, 2, 3] g0
  rw [e1] at e
  obtain ⟨rfl, rfl⟩ := Prod.mk.inj (Option.some.inj e)
  have h1 : got _ = got _ ++ [1, 2, 3] := hr.2
  obtain ⟨t, r, e, g2, hr⟩ := hw.write _ [4, 5] g1
  rw [e2] at e
  obtain ⟨rfl, rfl⟩ := Prod.mk.inj (Option.some.inj e)
  have h2 : got _ = got _ := hr
  obtain ⟨t, r, e, g3, hr⟩ := hw.write _ [4, 5, 6, 7] g2
  rw [e3] at e
  obtain ⟨rfl, rfl⟩ := Prod.mk.inj (Option.some.inj e)
  have h3 : got _ = got _ ++ [4, 5, 6, 7] := hr.2
  have := hp _ g3
  rw [h3, h2, h1, h0] at this
  revert this
  decide

/-- It does with a stream whose writes write all or nothing. Missing: streams that write a part. -/
theorem C165_partial {W : Out τ α} {good : τ → Prop} {got : τ → List α} (h : Writes W good got) (hc : Complete W good) :
    Writes (writeBuffer W) (WriteBuffer.Good good) (WriteBuffer.got got) := writeBuffer_writes h hc

/-- And after a successful `flush` all has arrived. -/
theorem C165_flush_partial {W : Out τ α} {good : τ → Prop} {got : τ → List α} (h : Writes W good got) (hc : Complete W good)
    {s : WriteBuffer τ α} (g : s.Good good) :
    ∃ t r, s.flush W = some (t, r) ∧ t.Good good ∧ t.got got = s.got got ∧ (r = .ok () → got t.inner = s.got got) := by
  obtain ⟨t, r, e, g', hg, _, hr⟩ := writePending_spec h hc g
  refine ⟨t, r, e, g', hg, ?_⟩
  intro hk
  subst hk
  exact hr.2

/-- A stream of the library that writes all or nothing, for the examples: it keeps what it gets up to a limit. -/
def bounded (limit : Nat) : Out (List Nat) Nat where
  write s l := if s.length + l.length ≤ limit then some (s ++ l, .ok l.length) else some (s, .fault)
  writeByte s c := if s.length < limit then some (s ++ [c], .ok ()) else some (s, .fault)

example (limit : Nat) : Writes (bounded limit) (fun _ => True) id ∧ Complete (bounded limit) (fun _ => True) := by
  refine ⟨⟨?_, ?_⟩, ?_⟩
  · intro s l _
    simp only [bounded]
    split
    · exact ⟨_, _, rfl, trivial, by simp⟩
    · exact ⟨_, _, rfl, trivial, rfl⟩
  · intro s c _
    simp only [bounded]
    split
    · exact ⟨_, _, rfl, trivial, rfl⟩
    · exact ⟨_, _, rfl, trivial, rfl⟩
  · intro s l t n _ h
    simp only [bounded] at h
    split at h
    · simpa using (Prod.mk.inj (Option.some.inj h)).2.symm
    · simp at h

example : (writeBuffer (bounded 100)).write ⟨[7], [1, 2, 3, 0], 3⟩ [4, 5] = some (⟨[7, 1, 2, 3], [4, 5, 3, 0], 2⟩, .ok 2) := rfl

/-- A `ByteWriter` that allocates should take everything. -/
def C166_full : Prop :=
  ∀ (α : Type) (fill : α), ∃ good : ByteWriter α → Prop, good ⟨[], 0, true⟩ ∧
    Writes (byteWriter fill) good (fun s => s.bytes.take s.index) ∧ Succeeds (byteWriter fill) good

/-- It does not: an empty write panics when the memory is filled just up to its end. -/
theorem C166_fails : ¬ C166_full := by
  intro h
  obtain ⟨good, g0, hw, _⟩ := h Nat 0
  obtain ⟨t, r, e, g1, _⟩ := hw.write _ (List.replicate 16 1) g0
  have e1 : (byteWriter 0).write ⟨[], 0, true⟩ (List.replicate 16 1) = some (⟨List.replicate 16 1, 16, true⟩, .ok 16) := by
    decide +kernel
  rw [e1] at e
  obtain ⟨rfl, rfl⟩ := Prod.mk.inj (Option.some.inj e)
  obtain ⟨t, r, e, _⟩ := hw.write _ [] g1
  have e2 : (byteWriter 0).write ⟨List.replicate 16 1, 16, true⟩ [] = none := by decide +kernel
  rw [e2] at e
  simp at e

/-- It takes everything that is not empty. Missing: empty writes. -/
theorem C166_partial (fill : α) {s : ByteWriter α} (hcap : s.index ≤ s.bytes.length) (ha : s.alloc = true) :
    (∀ l, l ≠ [] → ∃ t, (byteWriter fill).write s l = some (t, .ok l.length) ∧ t.index ≤ t.bytes.length ∧ t.alloc = true ∧
      t.bytes.take t.index = s.bytes.take s.index ++ l) ∧
    ∀ c, ∃ t, (byteWriter fill).writeByte s c = some (t, .ok ()) ∧ t.index ≤ t.bytes.length ∧ t.alloc = true ∧
      t.bytes.take t.index = s.bytes.take s.index ++ [c] := by
  constructor
  · intro l hl
    have hpos := List.length_pos_iff.2 hl
    obtain ⟨u, e, hi, hlen, htake, hal⟩ := ensure_spec fill hcap (len := s.index + l.length) (by omega) ha
    simp only [byteWriter]
    rw [e]
    simp only
    have hp := put_eq (buf := u.bytes) (l := l) (off := u.index) (by omega)
    rw [if_neg (by omega), hp]
    refine ⟨_, rfl, ?_, hal, ?_⟩
    · show u.index + l.length ≤ List.length _
      rw [put_length hp]; omega
    · show List.take (u.index + l.length) _ = _
      rw [take_put hp, hi, htake]
  · intro c
    obtain ⟨u, e, hi, hlen, htake, hal⟩ := ensure_spec fill hcap (len := s.index + 1) (by omega) ha
    simp only [byteWriter]
    rw [e]
    simp only
    have hp := put_eq (buf := u.bytes) (l := [c]) (off := u.index) (by simp; omega)
    rw [hp]
    refine ⟨_, rfl, ?_, hal, ?_⟩
    · show u.index + 1 ≤ List.length _
      rw [put_length hp]; omega
    · show List.take (u.index + [c].length) _ = _
      rw [take_put hp, hi, htake]

example : ∃ t, (byteWriter 0).write ⟨[1, 2, 3, 4], 3, true⟩ [5, 6] = some (t, .ok 2) ∧ t.view = some [1, 2, 3, 5, 6] := ⟨_, rfl, rfl⟩

/-- A `ByteWriter` with a buffer of its own (`init_with_buffer`) takes a write that is not empty just if a byte is left over behind it:
the last byte of the buffer is never used. -/
theorem C166_fixed (fill : α) {s : ByteWriter α} (hcap : s.index ≤ s.bytes.length) (ha : s.alloc = false) (l : List α) :
    (s.index + l.length < s.bytes.length → ∃ t, (byteWriter fill).write s l = some (t, .ok l.length) ∧
      t.bytes.length = s.bytes.length ∧ t.alloc = false ∧ t.index = s.index + l.length ∧
      t.bytes.take t.index = s.bytes.take s.index ++ l) ∧
    (s.bytes.length ≤ s.index + l.length → (byteWriter fill).write s l = some (s, .fault)) := by
  constructor
  · intro h
    simp only [byteWriter, ensureCapacity]
    rw [if_pos h]
    simp only
    have hp := put_eq (buf := s.bytes) (l := l) (off := s.index) (by omega)
    rw [if_neg (by omega), hp]
    exact ⟨_, rfl, put_length hp, ha, rfl, take_put hp⟩
  · intro h
    simp only [byteWriter, ensureCapacity]
    rw [if_neg (by omega), if_pos (by rw [ha]; rfl)]

example : (byteWriter 0).write ⟨[0, 0, 0, 0], 0, false⟩ [1, 2, 3, 4] = some (⟨[0, 0, 0, 0], 0, false⟩, .fault) := rfl
example : (byteWriter 0).write ⟨[0, 0, 0, 0], 0, false⟩ [1, 2, 3] = some (⟨[1, 2, 3, 0], 3, false⟩, .ok 3) := rfl

/-- What is written to a `ByteBuffer` that allocates should be taken. -/
def C167_full : Prop :=
  ∀ (α : Type) (fill : α) (maxRead capacity : Nat) (s : ByteBuffer α), maxRead ≠ 0 → ByteBuffer.init fill maxRead capacity = some s →
    ∃ good : ByteBuffer α → Prop, good s ∧ Writes (byteBufferOut fill) good (fun s => s.bytes.take s.writeIdx)

/-- It is not: the buffer grows to the size of the last write only, though the former ones have not been read. -/
theorem C167_fails : ¬ C167_full := by
  intro h
  obtain ⟨good, g0, hw⟩ := h Nat 0 8 16 ⟨true, 8, List.replicate 16 0, 0, 0, false⟩ (by decide) (by decide +kernel)
  obtain ⟨t, r, e, g1, _⟩ := hw.write _ (List.replicate 10 1) g0
  have e1 : (byteBufferOut 0).write ⟨true, 8, List.replicate 16 0, 0, 0, false⟩ (List.replicate 10 1) =
    some (⟨true, 8, List.replicate 10 1 ++ List.replicate 6 0, 0, 10, false⟩, .ok 10) := by decide +kernel
  rw [e1] at e
  obtain ⟨rfl, rfl⟩ := Prod.mk.inj (Option.some.inj e)
  obtain ⟨t, r, e, _⟩ := hw.write _ (List.replicate 7 1) g1
  have e2 : (byteBufferOut 0).write ⟨true, 8, List.replicate 10 1 ++ List.replicate 6 0, 0, 10, false⟩ (List.replicate 7 1) = none := by
    decide +kernel
  rw [e2] at e
  simp at e

/-- Exactly these writes that do not fit panic: those for which the next power of two of their length is too small for what is there. -/
theorem C167_grow (fill : α) {s : ByteBuffer α} (g : s.Good) {l : List α} (h : s.bytes.length < s.writeIdx + l.length)
    (ha : s.alloc = true) :
    (nextPow2 l.length < s.writeIdx + l.length → (byteBufferOut fill).write s l = none) ∧
    (s.writeIdx + l.length ≤ nextPow2 l.length →
      ∃ t, (byteBufferOut fill).write s l = some (t, .ok l.length) ∧ t.Good ∧ t.rest = s.rest ++ l) :=
  byteBuffer_write_grow fill g h ha

example : ByteBuffer.Good (⟨true, 8, List.replicate 16 0, 0, 10, false⟩ : ByteBuffer Nat) :=
  ⟨by decide, by decide, by decide, by decide⟩

/-- Writes that fit are taken. Missing: those that do not. -/
theorem C167_partial (fill : α) {s : ByteBuffer α} (g : s.Good) {l : List α} (h : s.writeIdx + l.length ≤ s.bytes.length) :
    ∃ t, (byteBufferOut fill).write s l = some (t, .ok l.length) ∧ t.Good ∧ t.rest = s.rest ++ l := byteBuffer_write_fits fill g h

example : (byteBufferOut 0).write ⟨false, 2, [1, 2, 0, 0], 1, 2, false⟩ [3, 4] = some (⟨false, 2, [1, 2, 3, 4], 1, 4, false⟩, .ok 2) := rfl

/-- Reading a `ByteBuffer` delivers what was written and not read, in order. -/
theorem C167_read : Honest (byteBufferIn (α := α)) ByteBuffer.Good ByteBuffer.rest := byteBuffer_honest

/-- `pushback_byte` gives back the byte that `read_byte` delivered. -/
theorem C167_pushback {s t : ByteBuffer α} {c : α} (g : s.Good) (h : byteBufferIn.readByte s = some (t, .ok c)) :
    ∃ u, t.pushback = some (u, .ok ()) ∧ u.Good ∧ u.rest = s.rest := pushback_byte g h

example : byteBufferIn.readByte (⟨false, 2, [1, 2, 3, 0], 1, 3, false⟩ : ByteBuffer Nat) =
    some (⟨false, 2, [2, 3, 3, 0], 1, 2, true⟩, .ok 2) := rfl

/-- But not after a `seek` to the start, which `pushback_byte` has not been told of: it panics. -/
theorem C167_pushback_fails : ∃ s t : ByteBuffer Nat, s.Good ∧ byteBufferIn.readByte s = some (t, .ok 1) ∧
    (t.seek 0 .set).2 = .ok 0 ∧ (t.seek 0 .set).1.pushback = none :=
  ⟨⟨true, 4, [1, 2, 0, 0], 0, 2, false⟩, ⟨true, 4, [1, 2, 0, 0], 1, 2, true⟩, ⟨by decide, by decide, by decide, by decide⟩,
    rfl, rfl, rfl⟩

/-- A write to a `MultiWriter` that succeeds wrote all bytes to all streams, and says so. -/
theorem C168_multi {W : Out τ α} {good : τ → Prop} {got : τ → List α} (h : Writes W good got) {s : List τ} (g : ∀ w ∈ s, good w)
    (l : List α) :
    ∃ t r, (multiWriter W).write s l = some (t, r) ∧ (∀ w ∈ t, good w) ∧ t.length = s.length ∧
      ∀ n, r = .ok n → n = l.length ∧ t.map got = s.map (fun w => got w ++ l) := by
  obtain ⟨t, r, e, g', hl, hr⟩ := multiWriteLoop_spec h l s g
  simp only [multiWriter]
  rw [e]
  cases r with
  | ok u => exact ⟨_, _, rfl, g', hl, fun n hn => by cases hn; exact ⟨rfl, hr⟩⟩
  | eof => exact ⟨_, _, rfl, g', hl, fun n hn => by cases hn⟩
  | fault => exact ⟨_, _, rfl, g', hl, fun n hn => by cases hn⟩

/-- The same for a byte. -/
theorem C168_multi_byte {W : Out τ α} {good : τ → Prop} {got : τ → List α} (h : Writes W good got) {s : List τ} (g : ∀ w ∈ s, good w)
    (c : α) :
    ∃ t r, (multiWriter W).writeByte s c = some (t, r) ∧ (∀ w ∈ t, good w) ∧ t.length = s.length ∧
      (r = .ok () → t.map got = s.map (fun w => got w ++ [c])) := by
  obtain ⟨t, r, e, g', hl, hr⟩ := multiWriteLoop_spec h [c] s g
  refine ⟨t, r, e, g', hl, ?_⟩
  intro hk
  subst hk
  exact hr

example : ∃ t, (multiWriter (sink (α := Nat))).write [⟨[1], []⟩, ⟨[], []⟩] [2, 3] = some (t, .ok 2) ∧ t.map Sink.data = [[1, 2, 3], [2, 3]] :=
  ⟨_, rfl, rfl⟩

example : ∃ t, (multiWriter (sink (α := Nat))).write [⟨[1], [.most 1]⟩, ⟨[], []⟩] [2, 3] = some (t, .fault) ∧ t.map Sink.data = [[1, 2], []] :=
  ⟨_, rfl, rfl⟩

/-- A `TeeReader` delivers what its stream does, and has written just that to the other one; it ends no sooner than the streams. -/
theorem C168_tee {R : In σ α} {W : Out τ α} {good : σ → Prop} {rest : σ → List α} {goodW : τ → Prop} {got : τ → List α}
    (h : Reads R good rest) (hw : Writes W goodW got) (dflt : α) {s : σ × τ} (g : good s.1) (gw : goodW s.2) (n : Nat) :
    ∃ t r, (teeReader R W dflt).read s n = some (t, r) ∧ goodW t.2 ∧
      match r with
      | .ok l => good t.1 ∧ l.length ≤ n ∧ rest s.1 = l ++ rest t.1 ∧ (n ≠ 0 → l ≠ []) ∧ got t.2 = got s.2 ++ l
      | .eof => rest s.1 = [] ∧ got t.2 = got s.2 ∨ ∃ l u, R.read s.1 n = some (u, .ok l) ∧ ∃ v, W.write s.2 l = some (v, .eof)
      | .fault => True := teeRead_spec h hw s n g gw

/-- The same for a byte. -/
theorem C168_tee_byte {R : In σ α} {W : Out τ α} {good : σ → Prop} {rest : σ → List α} {goodW : τ → Prop} {got : τ → List α}
    (h : Reads R good rest) (hw : Writes W goodW got) (dflt : α) {s : σ × τ} (g : good s.1) (gw : goodW s.2) :
    ∃ t r, (teeReader R W dflt).readByte s = some (t, r) ∧ goodW t.2 ∧
      ∀ c, r = .ok c → good t.1 ∧ rest s.1 = c :: rest t.1 ∧ got t.2 = got s.2 ++ [c] := by
  obtain ⟨t, r, e, g', hr⟩ := teeRead_spec h hw s 1 g gw
  simp only [teeReader]
  rw [e]
  cases r with
  | ok l =>
    obtain ⟨g1, hl, hrest, hne, hgot⟩ := hr
    have : ∃ x, l = [x] := List.length_eq_one_iff.1 (by have := List.length_pos_iff.2 (hne (by decide)); omega)
    obtain ⟨x, rfl⟩ := this
    exact ⟨_, _, rfl, g', fun c hc => by cases hc; exact ⟨g1, hrest, hgot⟩⟩
  | eof => exact ⟨_, _, rfl, g', fun c hc => by cases hc⟩
  | fault => exact ⟨_, _, rfl, g', fun c hc => by cases hc⟩

example : ∃ t, (teeReader source sink 0).read (⟨[1, 2, 3], [.most 2]⟩, (⟨[7], []⟩ : Sink Nat)) 3 = some (t, .ok [1, 2]) ∧
    t.2.data = [7, 1, 2] := ⟨_, rfl, rfl⟩

end C3.Stream
