import Verif.Stream.Model

set_option autoImplicit false

/-! What is asked of streams. `rest s` is what is still to come out of a stream in the state `s`; `good s` says that the state is one
that its functions leave behind. -/

namespace C3.Stream

variable {σ τ α : Type}

/-- Reading delivers `rest`, in order, nothing left out and nothing twice, until the first `EOF` or fault: a read gives at least one
byte, if it is asked for any, and `EOF` is returned only at the end. No call panics. -/
structure Reads (R : In σ α) (good : σ → Prop) (rest : σ → List α) : Prop where
  read : ∀ s n, good s → ∃ t r, R.read s n = some (t, r) ∧
    match r with
    | .ok l => good t ∧ l.length ≤ n ∧ rest s = l ++ rest t ∧ (n ≠ 0 → l ≠ [])
    | .eof => rest s = []
    | .fault => True
  byte : ∀ s, good s → ∃ t r, R.readByte s = some (t, r) ∧
    match r with
    | .ok c => good t ∧ rest s = c :: rest t
    | .eof => rest s = []
    | .fault => True

/-- The same for all calls: after `EOF` the stream is at its end, and a fault loses nothing. -/
structure Honest (R : In σ α) (good : σ → Prop) (rest : σ → List α) : Prop where
  reads : Reads R good rest
  read_eof : ∀ s t n, good s → R.read s n = some (t, .eof) → good t ∧ rest t = []
  read_fault : ∀ s t n, good s → R.read s n = some (t, .fault) → good t ∧ rest t = rest s
  byte_eof : ∀ s t, good s → R.readByte s = some (t, .eof) → good t ∧ rest t = []
  byte_fault : ∀ s t, good s → R.readByte s = some (t, .fault) → good t ∧ rest t = rest s

/-- Faults do not happen. -/
def NoFault (R : In σ α) : Prop := ∀ s t, (∀ n, R.read s n ≠ some (t, .fault)) ∧ R.readByte s ≠ some (t, .fault)

/-- Reads deliver as many bytes as they are asked for, if there are so many. -/
def Whole (R : In σ α) (good : σ → Prop) (rest : σ → List α) : Prop :=
  ∀ s n t l, good s → R.read s n = some (t, .ok l) → l.length = min n (rest s).length

/-- Writing adds to `got` what the result says, or nothing. No call panics. -/
structure Writes (W : Out τ α) (good : τ → Prop) (got : τ → List α) : Prop where
  write : ∀ s l, good s → ∃ t r, W.write s l = some (t, r) ∧ good t ∧
    match r with
    | .ok n => n ≤ l.length ∧ got t = got s ++ l.take n
    | .eof => got t = got s
    | .fault => got t = got s
  byte : ∀ s c, good s → ∃ t r, W.writeByte s c = some (t, r) ∧ good t ∧
    match r with
    | .ok () => got t = got s ++ [c]
    | .eof => got t = got s
    | .fault => got t = got s

/-- A write that succeeds writes all. -/
def Complete (W : Out τ α) (good : τ → Prop) : Prop :=
  ∀ s l t n, good s → W.write s l = some (t, .ok n) → n = l.length

/-- Writes succeed. -/
def Succeeds (W : Out τ α) (good : τ → Prop) : Prop :=
  ∀ s l t r, good s → W.write s l = some (t, r) → ∃ n, r = .ok n

/-! A stream that does anything it may: how much a read delivers or a write takes, and whether it fails, is up to `plan`. -/

/-- At most so many bytes, or a fault. -/
inductive Answer where
  | most (n : Nat)
  | fault
deriving DecidableEq, Repr

/-- What is to come, and the answers to the calls to come. -/
structure Source (α : Type) where
  data : List α
  plan : List Answer

/-- The next answer; without a plan everything goes well. -/
def next : List Answer → Answer × List Answer
  | [] => (.most (2 ^ 64), [])
  | a :: l => (a, l)

/-- A source, which delivers at least one byte per read. -/
def source : In (Source α) α where
  read s n :=
    match next s.plan with
    | (.fault, p) => some (⟨s.data, p⟩, .fault)
    | (.most m, p) =>
      if s.data = [] then some (⟨[], p⟩, .eof)
      else some (⟨s.data.drop (min n (max m 1)), p⟩, .ok (s.data.take (min n (max m 1))))
  readByte s :=
    match next s.plan with
    | (.fault, p) => some (⟨s.data, p⟩, .fault)
    | (.most _, p) =>
      match s.data with
      | [] => some (⟨[], p⟩, .eof)
      | c :: l => some (⟨l, p⟩, .ok c)

/-- A sink. -/
structure Sink (α : Type) where
  data : List α
  plan : List Answer

/-- It takes any number of bytes. -/
def sink : Out (Sink α) α where
  write s l :=
    match next s.plan with
    | (.fault, p) => some (⟨s.data, p⟩, .fault)
    | (.most m, p) => some (⟨s.data ++ l.take m, p⟩, .ok (min m l.length))
  writeByte s c :=
    match next s.plan with
    | (.fault, p) => some (⟨s.data, p⟩, .fault)
    | (.most _, p) => some (⟨s.data ++ [c], p⟩, .ok ())

/-! What is to come out of the streams of the library, or went in. -/

/-- A state that functions leave behind that did not fail. -/
structure ReadBuffer.Good (good : σ → Prop) (s : ReadBuffer σ α) : Prop where
  inner : good s.inner
  size : s.bytes ≠ []
  le : s.readIdx ≤ s.writeIdx
  cap : s.writeIdx ≤ s.bytes.length

/-- What is to come out of a buffer. -/
def ReadBuffer.rest (rest : σ → List α) (s : ReadBuffer σ α) : List α :=
  (s.bytes.take s.writeIdx).drop s.readIdx ++ rest s.inner

/-- Behind the last reader only after an `EOF`. -/
def MultiReader.Good (good : σ → Prop) (s : MultiReader σ) : Prop :=
  s.index < s.readers.length ∧ ∀ r ∈ s.readers.drop s.index, good r

/-- All that is to come. -/
def MultiReader.rest (rest : σ → List α) (s : MultiReader σ) : List α := (s.readers.drop s.index).flatMap rest

/-- A state that functions leave behind that did not fail. -/
structure Scanner.Good (good : σ → Prop) (s : Scanner σ α) : Prop where
  inner : good s.inner
  le : s.patternIdx ≤ s.readIdx
  cap : s.readIdx ≤ s.buf.length

/-- What is to come. -/
def Scanner.rest (rest : σ → List α) (s : Scanner σ α) : List α := (s.buf.take s.readIdx).drop s.patternIdx ++ rest s.inner

/-- The buffer was filled as far as possible, or is empty. -/
def Scanner.Filled (rest : σ → List α) (s : Scanner σ α) : Prop :=
  s.readIdx = 0 ∨ s.readIdx = s.buf.length ∨ rest s.inner = []

/-- A state that functions leave behind. -/
structure WriteBuffer.Good (good : τ → Prop) (s : WriteBuffer τ α) : Prop where
  inner : good s.inner
  size : s.bytes ≠ []
  cap : s.index ≤ s.bytes.length

/-- What has been written, or is to be written at the next `flush`. -/
def WriteBuffer.got (got : τ → List α) (s : WriteBuffer τ α) : List α := got s.inner ++ s.bytes.take s.index

/-- A state that functions leave behind. -/
structure ByteBuffer.Good (s : ByteBuffer α) : Prop where
  le : s.readIdx ≤ s.writeIdx
  cap : s.writeIdx ≤ s.bytes.length
  max : s.maxRead ≠ 0
  last : s.hasLast = true → s.readIdx ≠ 0

/-- What was written and not yet read. -/
def ByteBuffer.rest (s : ByteBuffer α) : List α := (s.bytes.take s.writeIdx).drop s.readIdx

end C3.Stream
