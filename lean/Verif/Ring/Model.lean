import Verif.Codec.Model

/-!
# Model of `lib/std/collections/ringbuffer.c3`

`usz` arithmetic wraps at `2 ^ 64`.  An index or slice outside an array, or a modulo by zero, is
`none`.
-/

set_option autoImplicit false

namespace C3.Ring
open C3.Codec (store)

variable {α : Type}

/-- `struct RingBuffer`, ringbuffer.c3 9–14; `buf.length` is `self.buf.len`. -/
structure RingBuffer (α : Type) where
  buf : List α
  written : Nat
  head : Nat
deriving Repr, DecidableEq

/-- `RingBuffer.init`, ringbuffer.c3 16–19; `zero` is the zero element. -/
def init (n : Nat) (zero : α) : RingBuffer α := ⟨List.replicate n zero, 0, 0⟩

/-- `a % b`. -/
def umod (a b : Nat) : Option Nat := if b = 0 then none else some (a % b)

/-- `RingBuffer.push`, ringbuffer.c3 21–33. -/
def push (self : RingBuffer α) (c : α) : Option (RingBuffer α) :=
  if self.written < self.buf.length then do
    let b ← store self.buf self.written c
    some { self with buf := b, written := self.written + 1 }
  else do
    let b ← store self.buf self.head c
    let h ← umod (self.head + 1) self.buf.length
    some { self with buf := b, head := h }

/-- `RingBuffer.get`, ringbuffer.c3 35–44. -/
def get (self : RingBuffer α) (index : Nat) : Option α := do
  let index ← umod index self.buf.length
  let avail := (2 ^ 64 + self.buf.length - self.head) % 2 ^ 64
  if index < avail then self.buf[self.head + index]?
  else self.buf[index - avail]?

/-- `RingBuffer.pop`, ringbuffer.c3 46–58; the result `none` is the fault `NO_MORE_ELEMENT`. -/
def pop (self : RingBuffer α) : Option (RingBuffer α × Option α) :=
  if self.written = 0 then some (self, none)
  else if self.written < self.buf.length then do
    let v ← self.buf[self.written - 1]?
    some ({ self with written := self.written - 1 }, some v)
  else do
    let h ← umod ((2 ^ 64 + self.head - 1) % 2 ^ 64) self.buf.length
    let v ← self.buf[h]?
    some ({ self with head := h }, some v)

/-- `self.buf[start:n]`. -/
def slice (buf : List α) (start n : Nat) : Option (List α) :=
  if start + n ≤ buf.length then some ((buf.drop start).take n) else none

/-- `buffer[at:n] = values` where `n` is the length of `values`. -/
def copyTo (buffer : List α) (pos : Nat) (values : List α) : Option (List α) :=
  if pos + values.length ≤ buffer.length then
    some (buffer.take pos ++ values ++ buffer.drop (pos + values.length))
  else none

/-- `RingBuffer.read`, ringbuffer.c3 66–97: the buffer afterwards and the count returned. -/
def read (self : RingBuffer α) (index : Nat) (buffer : List α) : Option (List α × Nat) := do
  let index ← umod index self.buf.length
  if self.written < self.buf.length then
    if index ≥ self.written then some (buffer, 0)
    else do
      let n := min (self.written - index) buffer.length
      let v ← slice self.buf index n
      let b ← copyTo buffer 0 v
      some (b, n)
  else do
    let last := (2 ^ 64 + self.buf.length - self.head) % 2 ^ 64
    if index ≥ last then do
      let index := index - last
      if index ≥ self.head then some (buffer, 0)
      else do
        let n := min (self.head - index) buffer.length
        let v ← slice self.buf index n
        let b ← copyTo buffer 0 v
        some (b, n)
    else if buffer.length ≤ self.buf.length - index then do
      let n := buffer.length
      let v ← slice self.buf (self.head + index) n
      let b ← copyTo buffer 0 v
      some (b, n)
    else do
      let n1 := self.buf.length - index
      let v ← slice self.buf (self.head + index) n1
      let b ← copyTo buffer 0 v
      let index := (2 ^ 64 + index - n1) % 2 ^ 64
      let n2 := min ((2 ^ 64 + self.head - index) % 2 ^ 64) (buffer.length - n1)
      let v2 ← slice self.buf index n2
      let b2 ← copyTo b n1 v2
      some (b2, n1 + n2)

/-- The `while` loop of `write`, ringbuffer.c3 102–106; the elements left over. -/
def writeFill (self : RingBuffer α) : List α → Option (RingBuffer α × List α)
  | [] => some (self, [])
  | c :: cs =>
    if self.written < self.buf.length then do
      let b ← store self.buf self.written c
      writeFill { self with buf := b, written := self.written + 1 } cs
    else some (self, c :: cs)

/-- The `foreach` loop of `write`, ringbuffer.c3 107–111. -/
def writeOver (self : RingBuffer α) : List α → Option (RingBuffer α)
  | [] => some self
  | c :: cs => do
    let b ← store self.buf self.head c
    let h ← umod (self.head + 1) self.buf.length
    writeOver { self with buf := b, head := h } cs

/-- `RingBuffer.write`, ringbuffer.c3 99–112. -/
def write (self : RingBuffer α) (buffer : List α) : Option (RingBuffer α) := do
  let (s, rest) ← writeFill self buffer
  writeOver s rest

/-- The calls of a history. -/
inductive Op (α : Type) where
  | push (x : α)
  | write (xs : List α)
  | pop
  | get (i : Nat)

/-- Their results. -/
inductive Res (α : Type) where
  | unit
  | value (v : Option α)
deriving DecidableEq

/-- One call. -/
def step (r : RingBuffer α) : Op α → Option (RingBuffer α × Res α)
  | .push x => (push r x).map (·, .unit)
  | .write xs => (write r xs).map (·, .unit)
  | .pop => (pop r).map fun (r', v) => (r', .value v)
  | .get i => (get r i).map fun v => (r, .value (some v))

/-- A history of calls. -/
def run : RingBuffer α → List (Op α) → Option (RingBuffer α × List (Res α))
  | r, [] => some (r, [])
  | r, op :: ops => do
    let (r1, x) ← step r op
    let (r2, xs) ← run r1 ops
    some (r2, x :: xs)

end C3.Ring
