import Verif.Str.Model

set_option autoImplicit false

/-! Model of the streams of the standard library: lib/std/io/stream.c3 and lib/std/io/stream/*.c3.

A stream is a state with functions (an `InStream` or `OutStream` and the dynamic methods behind it). A function that fills a buffer of
the caller returns the bytes it put there. Bytes are of any type `α`, but in the encodings at the end. Indices and lengths are
natural numbers: those of memory do not overflow. `none` is a panic of the safe build (an index out of bounds, a broken contract).
The checks of slices are those of `Verif.Str.Model`. Copies within a buffer are moves (`LLVMBuildMemMove`, llvm_codegen_expr.c 2827),
so that overlapping is no trouble. Allocation does not fail. -/

namespace C3.Stream

open C3.Str (sliceFrom sliceLen index_of)

variable {σ τ α : Type}

/-- The value of an optional: a value, `io::EOF`, or another fault. -/
inductive Res (β : Type) where
  | ok (b : β)
  | eof
  | fault
deriving DecidableEq, Repr

/-- The required methods of `InStream`, stream.c3 10-11. `read s n` is `read` with a buffer of `n` bytes. -/
structure In (σ α : Type) where
  read : σ → Nat → Option (σ × Res (List α))
  readByte : σ → Option (σ × Res α)

/-- The required methods of `OutStream`, stream.c3 22-23. -/
structure Out (τ α : Type) where
  write : τ → List α → Option (τ × Res Nat)
  writeByte : τ → α → Option (τ × Res Unit)

/-- `buf[off : l.len] = l[..]`. -/
def put (buf : List α) (off : Nat) (l : List α) : Option (List α) :=
  if off + l.length ≤ buf.length then some (buf.take off ++ (l ++ buf.drop (off + l.length))) else none

/-! bytereader.c3 -/

/-- `ByteReader`, bytereader.c3 3-7. -/
structure ByteReader (α : Type) where
  bytes : List α
  index : Nat
deriving DecidableEq, Repr

/-- `read` (20-28) and `read_byte` (30-34). -/
def byteReader : In (ByteReader α) α where
  read s n :=
    if s.index ≥ s.bytes.length then some (s, .eof)
    else
      let len := min (s.bytes.length - s.index) n
      if len = 0 then some (s, .ok [])
      else some ({ s with index := s.index + len }, .ok ((s.bytes.drop s.index).take len))
  readByte s :=
    if s.index ≥ s.bytes.length then some (s, .eof)
    else match s.bytes[s.index]? with
      | none => none
      | some c => some ({ s with index := s.index + 1 }, .ok c)

/-- `pushback_byte` (36-40). -/
def ByteReader.pushback (s : ByteReader α) : ByteReader α × Res Unit :=
  if s.index = 0 then (s, .fault) else ({ s with index := s.index - 1 }, .ok ())

/-- `Seek`. -/
inductive Seek where
  | set | cursor | fromEnd
deriving DecidableEq, Repr

/-- `seek` (42-54). The sums are those of `isz`, which do not overflow for offsets below 2^62. -/
def ByteReader.seek (s : ByteReader α) (offset : Int) (k : Seek) : ByteReader α × Res Nat :=
  let i : Int := match k with
    | .set => offset
    | .cursor => s.index + offset
    | .fromEnd => s.bytes.length + offset
  if i < 0 then (s, .fault) else ({ s with index := i.toNat }, .ok i.toNat)

/-- `available` (65-68); the subtraction is one of `usz`. -/
def ByteReader.available (s : ByteReader α) : Nat := max 0 ((s.bytes.length + 2 ^ 64 - s.index) % 2 ^ 64)

/-! limitreader.c3 -/

/-- `LimitReader`, limitreader.c3 3-7. -/
structure LimitReader (σ : Type) where
  inner : σ
  limit : Nat
deriving DecidableEq, Repr

/-- `read` (25-32) and `read_byte` (34-39). -/
def limitReader (R : In σ α) : In (LimitReader σ) α where
  read s n :=
    if s.limit = 0 then some (s, .eof)
    else match R.read s.inner (min n s.limit) with
      | none => none
      | some (i, .ok l) => some (⟨i, s.limit - l.length⟩, .ok l)
      | some (i, .eof) => some (⟨i, s.limit⟩, .eof)
      | some (i, .fault) => some (⟨i, s.limit⟩, .fault)
  readByte s :=
    if s.limit = 0 then some (s, .eof)
    else match R.readByte s.inner with
      | none => none
      | some (i, .ok c) => some (⟨i, s.limit - 1⟩, .ok c)
      | some (i, .eof) => some (⟨i, s.limit⟩, .eof)
      | some (i, .fault) => some (⟨i, s.limit⟩, .fault)

/-- `available` (41-44). -/
def LimitReader.available (s : LimitReader σ) : Nat := s.limit

/-! multireader.c3 -/

/-- `MultiReader`, multireader.c3 7-12. All readers have the same type of state here; any readers can be seen as such. -/
structure MultiReader (σ : Type) where
  readers : List σ
  index : Nat
deriving DecidableEq, Repr

/-- `read` (46-61); `fuel` bounds the recursion, which moves on by one reader each time. -/
def multiRead (R : In σ α) (n : Nat) : Nat → MultiReader σ → Option (MultiReader σ × Res (List α))
  | 0, _ => none
  | fuel + 1, s =>
    match s.readers[s.index]? with
    | none => none
    | some r =>
      match R.read r n with
      | none => none
      | some (r, .ok l) => some (⟨s.readers.set s.index r, s.index⟩, .ok l)
      | some (r, .fault) => some (⟨s.readers.set s.index r, s.index⟩, .fault)
      | some (r, .eof) =>
        if s.index + 1 ≥ s.readers.length then some (⟨s.readers.set s.index r, s.index + 1⟩, .eof)
        else multiRead R n fuel ⟨s.readers.set s.index r, s.index + 1⟩

/-- `read_byte` (63-68) returns `data[0]` even if `read` put nothing there; the array is zero then, for which `dflt` stands. -/
def multiReader (R : In σ α) (dflt : α) : In (MultiReader σ) α where
  read s n := multiRead R n (s.readers.length - s.index + 1) s
  readByte s :=
    match multiRead R 1 (s.readers.length - s.index + 1) s with
    | none => none
    | some (t, .ok l) => some (t, .ok (l.headD dflt))
    | some (t, .eof) => some (t, .eof)
    | some (t, .fault) => some (t, .fault)

/-! teereader.c3 -/

/-- `TeeReader`, teereader.c3 3-7, `read` (28-35) and `read_byte` (37-42). -/
def teeRead (R : In σ α) (W : Out τ α) (s : σ × τ) (n : Nat) : Option ((σ × τ) × Res (List α)) :=
  match R.read s.1 n with
  | none => none
  | some (r, .eof) => some ((r, s.2), .eof)
  | some (r, .fault) => some ((r, s.2), .fault)
  | some (r, .ok l) =>
    match W.write s.2 l with
    | none => none
    | some (w, .ok nw) => if l.length ≠ nw then some ((r, w), .fault) else some ((r, w), .ok l)
    | some (w, .eof) => some ((r, w), .eof)
    | some (w, .fault) => some ((r, w), .fault)

/-- See `teeRead`. -/
def teeReader (R : In σ α) (W : Out τ α) (dflt : α) : In (σ × τ) α where
  read s n := teeRead R W s n
  readByte s :=
    match teeRead R W s 1 with
    | none => none
    | some (t, .ok l) => some (t, .ok (l.headD dflt))
    | some (t, .eof) => some (t, .eof)
    | some (t, .fault) => some (t, .fault)

/-! buffer.c3, ReadBuffer -/

/-- `ReadBuffer`, buffer.c3 3-9. -/
structure ReadBuffer (σ α : Type) where
  inner : σ
  bytes : List α
  readIdx : Nat
  writeIdx : Nat
deriving DecidableEq, Repr

/-- `refill` (58-62): the read index is reset even if the read fails. -/
def refill (R : In σ α) (s : ReadBuffer σ α) : Option (ReadBuffer σ α × Res Unit) :=
  match R.read s.inner s.bytes.length with
  | none => none
  | some (i, .ok l) =>
    match put s.bytes 0 l with
    | none => none
    | some b => some (⟨i, b, 0, l.length⟩, .ok ())
  | some (i, .eof) => some (⟨i, s.bytes, 0, s.writeIdx⟩, .eof)
  | some (i, .fault) => some (⟨i, s.bytes, 0, s.writeIdx⟩, .fault)

/-- `read` from 43 on. -/
def takeBuffered (s : ReadBuffer σ α) (n : Nat) : Option (ReadBuffer σ α × Res (List α)) :=
  let m := min (s.writeIdx - s.readIdx) n
  match sliceLen s.bytes s.readIdx m with
  | none => none
  | some l => some ({ s with readIdx := s.readIdx + m }, .ok l)

/-- `read_byte` from 52 on. -/
def takeByte (s : ReadBuffer σ α) : Option (ReadBuffer σ α × Res α) :=
  if s.readIdx = s.writeIdx then some (s, .eof)
  else match s.bytes[s.readIdx]? with
    | none => none
    | some c => some ({ s with readIdx := s.readIdx + 1 }, .ok c)

/-- `read` (32-47) and `read_byte` (49-56). -/
def readBuffer (R : In σ α) : In (ReadBuffer σ α) α where
  read s n :=
    if s.readIdx = s.writeIdx then
      if s.readIdx = 0 ∧ n ≥ s.bytes.length then
        match R.read s.inner n with
        | none => none
        | some (i, r) => some ({ s with inner := i }, r)
      else match refill R s with
        | none => none
        | some (s, .ok ()) => takeBuffered s n
        | some (s, .eof) => some (s, .eof)
        | some (s, .fault) => some (s, .fault)
    else takeBuffered s n
  readByte s :=
    if s.readIdx = s.writeIdx then
      match refill R s with
      | none => none
      | some (s, .ok ()) => takeByte s
      | some (s, .eof) => some (s, .eof)
      | some (s, .fault) => some (s, .fault)
    else takeByte s

/-! scanner.c3 -/

/-- `Scanner`, scanner.c3 3-9. -/
structure Scanner (σ α : Type) where
  inner : σ
  buf : List α
  patternIdx : Nat
  readIdx : Nat
deriving DecidableEq, Repr

/-- What `scan` returns: data, `NOT_FOUND`, or another fault. -/
inductive Scan (α : Type) where
  | found (l : List α)
  | notFound
  | fault
deriving DecidableEq, Repr

/-- `flush` (28-36). -/
def Scanner.flush (s : Scanner σ α) : Option (Scanner σ α × List α) :=
  if s.readIdx < s.patternIdx then none
  else match sliceLen s.buf s.patternIdx (s.readIdx - s.patternIdx) with
    | none => none
    | some l => some ({ s with patternIdx := 0, readIdx := 0 }, l)

/-- `scan` from 56 on. -/
def Scanner.search [DecidableEq α] (R : In σ α) (s : Scanner σ α) (pattern : List α) : Option (Scanner σ α × Scan α) :=
  if s.readIdx < s.patternIdx then none
  else
    let n := s.readIdx - s.patternIdx
    match sliceLen s.buf s.patternIdx n with
    | none => none
    | some b =>
      match index_of b pattern with
      | none => none
      | some (some i) => some ({ s with patternIdx := s.patternIdx + (i + pattern.length) }, .found (b.take i))
      | some none =>
        if s.patternIdx = 0 ∨ s.readIdx < s.buf.length then some (s, .notFound)
        else
          -- 71-76
          match put s.buf 0 b with
          | none => none
          | some buf =>
            match R.read s.inner (buf.length - n) with
            | none => none
            | some (j, .eof) => some (⟨j, buf, 0, s.readIdx⟩, .notFound)
            | some (j, .fault) => some (⟨j, buf, 0, s.readIdx⟩, .fault)
            | some (j, .ok l) =>
              match put buf n l with
              | none => none
              | some buf =>
                -- 78-82: only what was read now is searched
                match index_of l pattern with
                | none => none
                | some none => some (⟨j, buf, 0, n + l.length⟩, .notFound)
                | some (some i) => some (⟨j, buf, n + i + pattern.length, n + l.length⟩, .found (buf.take (n + i)))

/-- `scan` (48-83), with its contract (45-46). -/
def Scanner.scan [DecidableEq α] (R : In σ α) (s : Scanner σ α) (pattern : List α) : Option (Scanner σ α × Scan α) :=
  if pattern = [] ∨ s.buf.length ≤ pattern.length then none
  else if s.readIdx = 0 then
    match R.read s.inner s.buf.length with
    | none => none
    | some (j, .eof) => some ({ s with inner := j }, .notFound)
    | some (j, .fault) => some ({ s with inner := j }, .fault)
    | some (j, .ok l) =>
      match put s.buf 0 l with
      | none => none
      | some buf => Scanner.search R ⟨j, buf, 0, l.length⟩ pattern
  else Scanner.search R s pattern

/-- `read` (101-113) and `read_byte` (115-122). -/
def scanner (R : In σ α) : In (Scanner σ α) α where
  read s n :=
    if s.patternIdx < s.readIdx then
      let m := min n (s.readIdx - s.patternIdx)
      match sliceLen s.buf s.patternIdx m with
      | none => none
      | some l =>
        match R.read s.inner (n - m) with
        | none => none
        | some (i, .ok k) => some ({ s with inner := i, patternIdx := s.patternIdx + m }, .ok (l ++ k))
        | some (i, .eof) => some ({ s with inner := i, patternIdx := s.patternIdx + m }, .eof)
        | some (i, .fault) => some ({ s with inner := i, patternIdx := s.patternIdx + m }, .fault)
    else match R.read s.inner n with
      | none => none
      | some (i, r) => some ({ s with inner := i }, r)
  readByte s :=
    if s.patternIdx < s.readIdx then
      match s.buf[s.patternIdx]? with
      | none => none
      | some c => some ({ s with patternIdx := s.patternIdx + 1 }, .ok c)
    else match R.readByte s.inner with
      | none => none
      | some (i, r) => some ({ s with inner := i }, r)

/-! stream.c3, reading -/

/-- `read_all`, stream.c3 72-78. -/
def readAll (R : In σ α) (s : σ) (n : Nat) : Option (σ × Res (List α)) :=
  if n = 0 then some (s, .ok [])
  else match R.read s n with
    | some (t, .ok l) => if l.length ≠ n then some (t, .fault) else some (t, .ok l)
    | r => r

/-- The loop of `read_using_read_byte`, stream.c3 107-122. -/
def readUsingReadByte (R : In σ α) (s : σ) : Nat → Option (σ × Res (List α))
  | 0 => some (s, .ok [])
  | n + 1 =>
    match R.readByte s with
    | none => none
    | some (t, .eof) => some (t, .ok [])
    | some (t, .fault) => some (t, .fault)
    | some (t, .ok c) =>
      match readUsingReadByte R t n with
      | some (u, .ok l) => some (u, .ok (c :: l))
      | r => r

/-- `read_byte_using_read`, stream.c3 130-136. -/
def readByteUsingRead (R : In σ α) (s : σ) : Option (σ × Res α) :=
  match R.read s 1 with
  | none => none
  | some (t, .ok [c]) => some (t, .ok c)
  | some (t, .ok _) => some (t, .eof)
  | some (t, .eof) => some (t, .eof)
  | some (t, .fault) => some (t, .fault)

/-- The loop of `read_fully`, stream.c3 89-93, with `len` bytes to go; `fuel` bounds it. -/
def readFullyLoop (R : In σ α) : Nat → σ → Nat → Option (σ × Res (List α))
  | _, s, 0 => some (s, .ok [])
  | 0, _, _ + 1 => none
  | fuel + 1, s, len + 1 =>
    match R.read s (len + 1) with
    | some (t, .ok l) =>
      match readFullyLoop R fuel t (len + 1 - l.length) with
      | some (u, .ok k) => some (u, .ok (l ++ k))
      | r => r
    | r => r

/-- `copy_through_buffer`, stream.c3 168-184, with a buffer of `size` bytes: the number of bytes copied; `fuel` bounds the loop. -/
def copyThroughBuffer (R : In σ α) (W : Out τ α) (size : Nat) : Nat → σ → τ → Option ((σ × τ) × Res Nat)
  | 0, _, _ => none
  | fuel + 1, s, w =>
    match R.read s size with
    | none => none
    | some (s, .eof) => some ((s, w), .ok 0)
    | some (s, .fault) => some ((s, w), .fault)
    | some (s, .ok l) =>
      if l.length = 0 then some ((s, w), .ok 0)
      else match W.write w l with
        | none => none
        | some (w, .eof) => some ((s, w), .eof)
        | some (w, .fault) => some ((s, w), .fault)
        | some (w, .ok k) =>
          if k ≠ l.length then some ((s, w), .fault)
          else match copyThroughBuffer R W size fuel s w with
            | some (t, .ok m) => some (t, .ok (l.length + m))
            | r => r

/-! buffer.c3, WriteBuffer -/

/-- `WriteBuffer`, buffer.c3 64-69. -/
structure WriteBuffer (τ α : Type) where
  inner : τ
  bytes : List α
  index : Nat
deriving DecidableEq, Repr

/-- `write_pending` (132-136). Bytes that were not written are not moved to the front. -/
def writePending (W : Out τ α) (s : WriteBuffer τ α) : Option (WriteBuffer τ α × Res Unit) :=
  match sliceLen s.bytes 0 s.index with
  | none => none
  | some l =>
    match W.write s.inner l with
    | none => none
    | some (w, .ok n) =>
      if s.index - n ≠ 0 then some ({ s with inner := w, index := s.index - n }, .fault)
      else some ({ s with inner := w, index := 0 }, .ok ())
    | some (w, .eof) => some ({ s with inner := w }, .eof)
    | some (w, .fault) => some ({ s with inner := w }, .fault)

/-- `write` (99-119) and `write_byte` (121-130). -/
def writeBuffer (W : Out τ α) : Out (WriteBuffer τ α) α where
  write s l :=
    if l.length < s.bytes.length - s.index then
      match put s.bytes s.index l with
      | none => none
      | some b => some ({ s with bytes := b, index := s.index + l.length }, .ok l.length)
    else match writePending W s with
      | none => none
      | some (s, .eof) => some (s, .eof)
      | some (s, .fault) => some (s, .fault)
      | some (s, .ok ()) =>
        if l.length ≥ s.bytes.length then
          match W.write s.inner l with
          | none => none
          | some (w, r) => some ({ s with inner := w }, r)
        else match put s.bytes 0 l with
          | none => none
          | some b => some ({ s with bytes := b, index := l.length }, .ok l.length)
  writeByte s c :=
    let add (s : WriteBuffer τ α) : Option (WriteBuffer τ α × Res Unit) :=
      match put s.bytes s.index [c] with
      | none => none
      | some b => some ({ s with bytes := b, index := s.index + 1 }, .ok ())
    if s.bytes.length - s.index = 0 then
      match writePending W s with
      | none => none
      | some (s, .eof) => some (s, .eof)
      | some (s, .fault) => some (s, .fault)
      | some (s, .ok ()) => add s
    else add s

/-- `flush` (93-97) of a stream around one that has no `flush`. -/
def WriteBuffer.flush (W : Out τ α) (s : WriteBuffer τ α) : Option (WriteBuffer τ α × Res Unit) := writePending W s

/-! multiwriter.c3 -/

/-- The loop of `MultiWriter.write`, multiwriter.c3 46-50, over the writers that are left. -/
def multiWriteLoop (W : Out τ α) (l : List α) : List τ → Option (List τ × Res Unit)
  | [] => some ([], .ok ())
  | w :: ws =>
    match W.write w l with
    | none => none
    | some (w, .eof) => some (w :: ws, .eof)
    | some (w, .fault) => some (w :: ws, .fault)
    | some (w, .ok n) =>
      if n ≠ l.length then some (w :: ws, .fault)
      else match multiWriteLoop W l ws with
        | none => none
        | some (ws, r) => some (w :: ws, r)

/-- `write` (43-52) and `write_byte` (54-59). -/
def multiWriter (W : Out τ α) : Out (List τ) α where
  write s l :=
    match multiWriteLoop W l s with
    | none => none
    | some (s, .ok ()) => some (s, .ok l.length)
    | some (s, .eof) => some (s, .eof)
    | some (s, .fault) => some (s, .fault)
  writeByte s c := multiWriteLoop W [c] s

/-! bytewriter.c3 -/

/-- `next_power_of_2`, lib/std/math/math.c3 969-974: the smallest of `y`, `2 y`, ... that is not below `x`. The doubling does not
overflow: lengths are below 2^63. -/
def nextPow2From (x : Nat) : Nat → Nat → Nat
  | 0, y => y
  | fuel + 1, y => if y < x then nextPow2From x fuel (y + y) else y

/-- See `nextPow2From`; 2^x is more than x. -/
def nextPow2 (x : Nat) : Nat := nextPow2From x x 1

/-- `ByteWriter`, bytewriter.c3 3-8. `alloc`: whether there is an allocator. -/
structure ByteWriter (α : Type) where
  bytes : List α
  index : Nat
  alloc : Bool
deriving DecidableEq, Repr

/-- `realloc` to `n` bytes; new ones hold anything, here `fill`. -/
def realloc (fill : α) (bytes : List α) (n : Nat) : List α := bytes.take n ++ List.replicate (n - bytes.length) fill

/-- `ensure_capacity` (51-59); `none` in the result: `OUT_OF_SPACE`. -/
def ensureCapacity (fill : α) (s : ByteWriter α) (len : Nat) : Option (ByteWriter α) :=
  if s.bytes.length > len then some s
  else if !s.alloc then none
  else some { s with bytes := realloc fill s.bytes (nextPow2 (if len < 16 then 16 else len)) }

/-- `write` (61-67) and `write_byte` (69-73). `&self.bytes[self.index]` is checked. -/
def byteWriter (fill : α) : Out (ByteWriter α) α where
  write s l :=
    match ensureCapacity fill s (s.index + l.length) with
    | none => some (s, .fault)
    | some s =>
      if s.index ≥ s.bytes.length then none
      else match put s.bytes s.index l with
        | none => none
        | some b => some ({ s with bytes := b, index := s.index + l.length }, .ok l.length)
  writeByte s c :=
    match ensureCapacity fill s (s.index + 1) with
    | none => some (s, .fault)
    | some s =>
      match put s.bytes s.index [c] with
      | none => none
      | some b => some ({ s with bytes := b, index := s.index + 1 }, .ok ())

/-- `str_view` (46-49). -/
def ByteWriter.view (s : ByteWriter α) : Option (List α) := sliceLen s.bytes 0 s.index

/-! bytebuffer.c3 -/

/-- `ByteBuffer`, bytebuffer.c3 4-12. -/
structure ByteBuffer (α : Type) where
  alloc : Bool
  maxRead : Nat
  bytes : List α
  readIdx : Nat
  writeIdx : Nat
  hasLast : Bool
deriving DecidableEq, Repr

/-- `grow` (131-136). Without an allocator `realloc` is called on a null interface. -/
def ByteBuffer.grow (fill : α) (s : ByteBuffer α) (n : Nat) : Option (ByteBuffer α) :=
  if s.alloc then some { s with bytes := realloc fill s.bytes (nextPow2 n) } else none

/-- `init` (19-25). -/
def ByteBuffer.init (fill : α) (maxRead capacity : Nat) : Option (ByteBuffer α) :=
  ByteBuffer.grow fill ⟨true, maxRead, [], 0, 0, false⟩ (max capacity 16)

/-- `init_with_buffer` (36-40). -/
def ByteBuffer.initWith (buf : List α) : ByteBuffer α := ⟨false, buf.length, buf, 0, 0, false⟩

/-- `write` (48-55) and `write_byte` (57-63). -/
def byteBufferOut (fill : α) : Out (ByteBuffer α) α where
  write s l :=
    match (if s.bytes.length - s.writeIdx < l.length then ByteBuffer.grow fill s l.length else some s) with
    | none => none
    | some s =>
      match put s.bytes s.writeIdx l with
      | none => none
      | some b => some ({ s with bytes := b, writeIdx := s.writeIdx + l.length }, .ok l.length)
  writeByte s c :=
    match (if s.bytes.length - s.writeIdx = 0 then ByteBuffer.grow fill s 1 else some s) with
    | none => none
    | some s =>
      match put s.bytes s.writeIdx [c] with
      | none => none
      | some b => some ({ s with bytes := b, writeIdx := s.writeIdx + 1 }, .ok ())

/-- `shrink` (138-148). `self.read_idx - 1` wraps if there is nothing before it, which the check of the slice refuses. -/
def ByteBuffer.shrink (s : ByteBuffer α) : Option (ByteBuffer α) :=
  if s.readIdx ≥ s.maxRead then
    if s.readIdx = 0 then none
    else
      match sliceLen s.bytes (s.readIdx - 1) (1 + (s.writeIdx - s.readIdx)) with
      | none => none
      | some l =>
        match put s.bytes 0 l with
        | none => none
        | some b => some { s with bytes := b, writeIdx := 1 + (s.writeIdx - s.readIdx), readIdx := 1 }
  else some s

/-- `read` (65-79) and `read_byte` (81-94). -/
def byteBufferIn : In (ByteBuffer α) α where
  read s n :=
    if s.writeIdx - s.readIdx = 0 then some ({ s with hasLast := false }, .eof)
    else
      let m := min (s.writeIdx - s.readIdx) n
      match sliceLen s.bytes s.readIdx m with
      | none => none
      | some l =>
        match ByteBuffer.shrink { s with readIdx := s.readIdx + m, hasLast := decide (m > 0) } with
        | none => none
        | some s => some (s, .ok l)
  readByte s :=
    if s.writeIdx - s.readIdx = 0 then some ({ s with hasLast := false }, .eof)
    else match s.bytes[s.readIdx]? with
      | none => none
      | some c =>
        match ByteBuffer.shrink { s with readIdx := s.readIdx + 1, hasLast := true } with
        | none => none
        | some s => some (s, .ok c)

/-- `pushback_byte` (99-105). -/
def ByteBuffer.pushback (s : ByteBuffer α) : Option (ByteBuffer α × Res Unit) :=
  if !s.hasLast then some (s, .eof)
  else if s.readIdx = 0 then none
  else some ({ s with readIdx := s.readIdx - 1, hasLast := false }, .ok ())

/-- `seek` (107-124). -/
def ByteBuffer.seek (s : ByteBuffer α) (offset : Int) (k : Seek) : ByteBuffer α × Res Nat :=
  match k with
  | .set => if offset < 0 ∨ offset > s.writeIdx then (s, .fault) else ({ s with readIdx := offset.toNat }, .ok offset.toNat)
  | .cursor =>
    if (offset < 0 ∧ (s.readIdx : Int) < -offset) ∨ (offset > 0 ∧ s.readIdx + offset > s.writeIdx) then (s, .fault)
    else ({ s with readIdx := (s.readIdx + offset).toNat }, .ok (s.readIdx + offset).toNat)
  | .fromEnd =>
    if offset < 0 ∨ offset > s.writeIdx then (s, .fault)
    else ({ s with readIdx := s.writeIdx - offset.toNat }, .ok (s.writeIdx - offset.toNat))

end C3.Stream
