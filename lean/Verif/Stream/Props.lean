import Verif.Stream.LemmasBuf

set_option autoImplicit false

/-! Properties C159-C164: reading from streams. -/

namespace C3.Stream

variable {σ τ α : Type}

/-- A `ByteReader` delivers the bytes behind its index, whatever the index is. -/
theorem C159_bytes : Honest (byteReader (α := α)) (fun _ => True) (fun s => s.bytes.drop s.index) := byteReader_honest

/-- It delivers as many as it is asked for, if it has them. -/
theorem C159_whole : Whole (byteReader (α := α)) (fun _ => True) (fun s => s.bytes.drop s.index) := byteReader_whole

/-- A `LimitReader` delivers the first `limit` bytes of its stream, which delivers its bytes in pieces of any size and may fail. -/
theorem C159_limit {R : In σ α} {good : σ → Prop} {rest : σ → List α} (h : Honest R good rest) :
    Honest (limitReader R) (fun s => good s.inner) (fun s => (rest s.inner).take s.limit) := limitReader_honest h

example : Honest (limitReader (source (α := Nat))) (fun _ => True) (fun s => s.inner.data.take s.limit) := C159_limit source_honest

example : (limitReader byteReader).read ⟨⟨[1, 2, 3, 4], 1⟩, 2⟩ 8 = some (⟨⟨[1, 2, 3, 4], 3⟩, 0⟩, .ok [2, 3]) := by decide +kernel

/-- `pushback_byte` gives back the byte read last. -/
theorem C159_pushback {s t : ByteReader α} {c : α} (h : byteReader.readByte s = some (t, .ok c)) : t.pushback = (s, .ok ()) := by
  simp only [byteReader] at h
  split at h
  · simp at h
  · split at h
    · simp at h
    · rw [← (Prod.mk.inj (Option.some.inj h)).1]
      unfold ByteReader.pushback
      rw [if_neg (by simp)]
      simp

example : (byteReader (α := Nat)).readByte ⟨[7, 8], 1⟩ = some (⟨[7, 8], 2⟩, .ok 8) := by decide +kernel

/-- `available` should be the number of bytes that are to come. -/
def C159_available_full : Prop :=
  (∀ s : ByteReader Nat, s.bytes.length < 2 ^ 63 → s.index < 2 ^ 63 → s.available = (s.bytes.drop s.index).length) ∧
  (∀ s : LimitReader (ByteReader Nat), s.available = ((s.inner.bytes.drop s.inner.index).take s.limit).length)

/-- Neither does so: `seek` past the end makes `available` of a `ByteReader` huge, and a `LimitReader` does not ask its stream. -/
theorem C159_available_fails : ¬ C159_available_full ∧
    (∀ s : ByteReader α, s.bytes.length < s.index → s.index < 2 ^ 63 → 2 ^ 63 < s.available) ∧
    (∀ (s : LimitReader (ByteReader α)), s.inner.bytes.length < s.limit →
      s.available ≠ ((s.inner.bytes.drop s.inner.index).take s.limit).length) := by
  refine ⟨fun h => ?_, ?_, ?_⟩
  · have := h.2 ⟨⟨[], 0⟩, 1⟩
    simp [LimitReader.available] at this
  · intro s h1 h2
    unfold ByteReader.available
    rw [Nat.mod_eq_of_lt (by omega)]
    omega
  · intro s h
    rw [List.length_take, List.length_drop]
    unfold LimitReader.available
    omega

example : (ByteReader.seek (α := Nat) ⟨[1, 2, 3], 0⟩ 4 .set).1.available = 2 ^ 64 - 1 := by decide +kernel

/-- Up to the end `available` of a `ByteReader` is right. -/
theorem C159_available_partial {s : ByteReader α} (h : s.index ≤ s.bytes.length) (hl : s.bytes.length < 2 ^ 63) :
    s.available = (s.bytes.drop s.index).length := by
  unfold ByteReader.available
  rw [List.length_drop]
  omega

example : (⟨[1, 2, 3], 1⟩ : ByteReader Nat).available = 2 := by decide +kernel

/-- A `ReadBuffer` should deliver what its stream does: whatever states count as good and whatever counts as to come, as long as at
the start it is what is to come from the stream. -/
def C160_full : Prop :=
  ∀ (σ α : Type) (R : In σ α) (good : σ → Prop) (rest : σ → List α), Honest R good rest →
    ∃ (good' : ReadBuffer σ α → Prop) (rest' : ReadBuffer σ α → List α), Honest (readBuffer R) good' rest' ∧
      ∀ i b, good i → b ≠ [] → good' ⟨i, b, 0, 0⟩ ∧ rest' ⟨i, b, 0, 0⟩ = rest i

/-- It does not: after `EOF` the buffer delivers its bytes again, as `refill` resets the read index but not the write index. -/
theorem C160_fails : ¬ C160_full := by
  intro h
  obtain ⟨good, rest, ho, hs⟩ := h (ByteReader Nat) Nat byteReader _ _ byteReader_honest
  obtain ⟨g0, _⟩ := hs ⟨[1], 0⟩ [0, 0] trivial (by simp)
  have e1 : (readBuffer byteReader).readByte (⟨⟨[1], 0⟩, [0, 0], 0, 0⟩ : ReadBuffer (ByteReader Nat) Nat) =
    some (⟨⟨[1], 1⟩, [1, 0], 1, 1⟩, .ok 1) := by decide +kernel
  have e2 : (readBuffer byteReader).readByte (⟨⟨[1], 1⟩, [1, 0], 1, 1⟩ : ReadBuffer (ByteReader Nat) Nat) =
    some (⟨⟨[1], 1⟩, [1, 0], 0, 1⟩, .eof) := by decide +kernel
  have e3 : (readBuffer byteReader).readByte (⟨⟨[1], 1⟩, [1, 0], 0, 1⟩ : ReadBuffer (ByteReader Nat) Nat) =
    some (⟨⟨[1], 1⟩, [1, 0], 1, 1⟩, .ok 1) := by decide +kernel
  obtain ⟨t, r, e, hr⟩ := ho.reads.byte _ g0
  rw [e1] at e
  obtain ⟨rfl, rfl⟩ := Prod.mk.inj (Option.some.inj e)
  obtain ⟨g2, h2⟩ := ho.byte_eof _ _ hr.1 e2
  obtain ⟨t, r, e, hr⟩ := ho.reads.byte _ g2
  rw [e3] at e
  obtain ⟨rfl, rfl⟩ := Prod.mk.inj (Option.some.inj e)
  rw [h2] at hr
  simp at hr

/-- It delivers what its stream does up to the first `EOF` or fault. Missing: what comes after these. -/
theorem C160_partial {R : In σ α} {good : σ → Prop} {rest : σ → List α} (h : Reads R good rest) :
    Reads (readBuffer R) (ReadBuffer.Good good) (ReadBuffer.rest rest) := readBuffer_reads h

/-- At the start that is all that the stream delivers. -/
theorem C160_start {good : σ → Prop} {rest : σ → List α} {i : σ} {b : List α} (g : good i) (hb : b ≠ []) :
    ReadBuffer.Good good ⟨i, b, 0, 0⟩ ∧ ReadBuffer.rest rest ⟨i, b, 0, 0⟩ = rest i :=
  ⟨⟨g, hb, Nat.le_refl _, Nat.zero_le _⟩, by simp [ReadBuffer.rest]⟩

example : Reads (readBuffer (source (α := Nat))) (ReadBuffer.Good fun _ => True) (ReadBuffer.rest Source.data) :=
  C160_partial source_honest.reads

example : (readBuffer byteReader).read (⟨⟨[1, 2, 3], 0⟩, [0, 0], 0, 0⟩ : ReadBuffer (ByteReader Nat) Nat) 1 =
    some (⟨⟨[1, 2, 3], 2⟩, [1, 2], 1, 2⟩, .ok [1]) := by decide +kernel

/-- A `MultiReader` should deliver what its streams do, one after the other. -/
def C161_full : Prop :=
  ∀ (σ α : Type) (R : In σ α) (dflt : α) (good : σ → Prop) (rest : σ → List α), Honest R good rest →
    ∃ (good' : MultiReader σ → Prop) (rest' : MultiReader σ → List α), Honest (multiReader R dflt) good' rest' ∧
      ∀ l, l ≠ [] → (∀ i ∈ l, good i) → good' ⟨l, 0⟩ ∧ rest' ⟨l, 0⟩ = l.flatMap rest

/-- It does not: a read after `EOF` takes a reader that does not exist, and panics. -/
theorem C161_fails : ¬ C161_full := by
  intro h
  obtain ⟨good, rest, ho, hs⟩ := h (ByteReader Nat) Nat byteReader 0 _ _ byteReader_honest
  obtain ⟨g0, _⟩ := hs [⟨[], 0⟩] (by simp) (fun _ _ => trivial)
  have e1 : (multiReader byteReader 0).read (⟨[⟨[], 0⟩], 0⟩ : MultiReader (ByteReader Nat)) 1 =
    some (⟨[⟨[], 0⟩], 1⟩, .eof) := by decide +kernel
  have e2 : (multiReader byteReader 0).read (⟨[⟨[], 0⟩], 1⟩ : MultiReader (ByteReader Nat)) 1 = none := by decide +kernel
  obtain ⟨g1, _⟩ := ho.read_eof _ _ _ g0 e1
  obtain ⟨t, r, e, _⟩ := ho.reads.read _ 1 g1
  rw [e2] at e
  simp at e

/-- The same holds of every state behind the last reader, also that of a `MultiReader` without readers. -/
theorem C161_panics (R : In σ α) (dflt : α) {s : MultiReader σ} (h : s.readers.length ≤ s.index) (n : Nat) :
    (multiReader R dflt).read s n = none ∧ (multiReader R dflt).readByte s = none := by
  have : ∀ n, multiRead R n (s.readers.length - s.index + 1) s = none := by
    intro n
    unfold multiRead
    rw [List.getElem?_eq_none h]
  constructor
  · exact this n
  · simp only [multiReader]; rw [this]

/-- It delivers what its streams do, one after the other, up to the first `EOF` or fault. Missing: what comes after these. -/
theorem C161_partial {R : In σ α} {good : σ → Prop} {rest : σ → List α} (h : Reads R good rest) (dflt : α) :
    Reads (multiReader R dflt) (MultiReader.Good good) (MultiReader.rest rest) := multiReader_reads h dflt

example : Reads (multiReader (source (α := Nat)) 0) (MultiReader.Good fun _ => True) (MultiReader.rest Source.data) :=
  C161_partial source_honest.reads 0

example : (multiReader byteReader 0).read (⟨[⟨[1], 1⟩, ⟨[], 0⟩, ⟨[2, 3], 0⟩], 0⟩ : MultiReader (ByteReader Nat)) 4 =
    some (⟨[⟨[1], 1⟩, ⟨[], 0⟩, ⟨[2, 3], 2⟩], 2⟩, .ok [2, 3]) := by decide +kernel

/-- What is found by `scan` is followed, in a `Scanner` read as a stream, by what comes behind the pattern. -/
def C162_full : Prop :=
  ∀ (σ : Type) (R : In σ Nat) (good : σ → Prop) (rest : σ → List Nat), Honest R good rest →
    ∃ (good' : Scanner σ Nat → Prop) (rest' : Scanner σ Nat → List Nat), Honest (scanner R) good' rest' ∧
      (∀ i b, good i → b ≠ [] → good' ⟨i, b, 0, 0⟩ ∧ rest' ⟨i, b, 0, 0⟩ = rest i) ∧
      ∀ s c t l, good' s → s.patternIdx = 0 → s.readIdx = 0 → Scanner.scan R s [c] = some (t, .found l) →
        good' t ∧ rest' s = l ++ ([c] ++ rest' t)

/-- It is not: `read` gives `EOF` when the stream has ended, though bytes are left in the buffer; these are lost. -/
theorem C162_fails : ¬ C162_full := by
  intro h
  obtain ⟨good, rest, ho, hs, hf⟩ := h (ByteReader Nat) byteReader _ _ byteReader_honest
  obtain ⟨g0, h0⟩ := hs ⟨[1, 9, 2], 0⟩ [0, 0, 0, 0] trivial (by simp)
  have e1 : Scanner.scan byteReader (⟨⟨[1, 9, 2], 0⟩, [0, 0, 0, 0], 0, 0⟩ : Scanner (ByteReader Nat) Nat) [9] =
    some (⟨⟨[1, 9, 2], 3⟩, [1, 9, 2, 0], 2, 3⟩, .found [1]) := by decide +kernel
  have e2 : (scanner byteReader).read (⟨⟨[1, 9, 2], 3⟩, [1, 9, 2, 0], 2, 3⟩ : Scanner (ByteReader Nat) Nat) 8 =
    some (⟨⟨[1, 9, 2], 3⟩, [1, 9, 2, 0], 3, 3⟩, .eof) := by decide +kernel
  obtain ⟨g1, h1⟩ := hf _ _ _ _ g0 rfl rfl e1
  obtain ⟨t, r, e, hr⟩ := ho.reads.read _ 8 g1
  rw [e2] at e
  obtain ⟨rfl, rfl⟩ := Prod.mk.inj (Option.some.inj e)
  rw [h0, hr] at h1
  simp at h1

/-- `read_byte` delivers what is to come, and so does `read` when it succeeds; an `EOF` of `read` says only that the stream behind has
ended. Missing: that nothing is left in the buffer then. -/
theorem C162_partial {R : In σ α} {good : σ → Prop} {rest : σ → List α} (h : Reads R good rest) {s : Scanner σ α} (g : s.Good good) :
    (∃ t r, (scanner R).readByte s = some (t, r) ∧
      match r with
      | .ok c => t.Good good ∧ s.rest rest = c :: t.rest rest
      | .eof => s.rest rest = []
      | .fault => True) ∧
    ∀ n, ∃ t r, (scanner R).read s n = some (t, r) ∧
      match r with
      | .ok l => t.Good good ∧ l.length ≤ n ∧ s.rest rest = l ++ t.rest rest ∧ (n ≠ 0 → l ≠ [])
      | .eof => rest s.inner = []
      | .fault => True := ⟨scanner_byte h g, scanner_read_ok h g⟩

example : Scanner.Good (α := Nat) (fun _ => True) ⟨(⟨[1, 9, 2, 3, 4], 4⟩ : ByteReader Nat), [1, 9, 2, 3], 2, 4⟩ :=
  ⟨trivial, by decide, by decide⟩

example : (scanner byteReader).read (⟨⟨[1, 9, 2, 3, 4], 4⟩, [1, 9, 2, 3], 2, 4⟩ : Scanner (ByteReader Nat) Nat) 8 =
    some (⟨⟨[1, 9, 2, 3, 4], 5⟩, [1, 9, 2, 3], 4, 4⟩, .ok [2, 3, 4]) := by decide +kernel

end C3.Stream
