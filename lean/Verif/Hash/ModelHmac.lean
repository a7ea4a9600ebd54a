import Verif.Hash.Spec

/-! # HMAC and PBKDF2, `lib/std/hash/hmac.c3`

The module is generic; so is this. -/

set_option autoImplicit false

namespace C3.Hash.Hmac

/-- The parameters `HashAlg`, `HASH_BYTES`, `BLOCK_BYTES` of line 1.  `init` gets what was in the
context before; `final` gives the digest and what it leaves. -/
structure Alg where
  Ctx : Type
  hashBytes : Nat
  blockBytes : Nat
  init : Ctx → Ctx
  update : Ctx → List Byte → Option Ctx
  final : Ctx → Option (List Byte × Ctx)

/-- `Hmac`, lines 4–7. -/
structure Hmac (A : Alg) where
  a : A.Ctx
  b : A.Ctx

/-- `buffer[:n] = data[..]` of a buffer of zeros; `none` if it does not fit. -/
def fill (n : Nat) (data : List Byte) : Option (List Byte) :=
  if data.length ≤ n then some (data ++ List.replicate (n - data.length) 0) else none

/-- Lines 48–57: the context `a` and the buffer. -/
def keyBuffer (A : Alg) (a : A.Ctx) (key : List Byte) : Option (A.Ctx × List Byte) :=
  if key.length > A.blockBytes then do
    let a ← A.update (A.init a) key
    let d ← A.final a
    let buffer ← fill A.blockBytes d.1
    some (d.2, buffer)
  else do
    let buffer ← fill A.blockBytes key
    some (a, buffer)

/-- `Hmac.init`, lines 45–70, without the clearing of the buffer. -/
def init (A : Alg) (self : Hmac A) (key : List Byte) : Option (Hmac A) := do
  let r ← keyBuffer A self.a key
  let buffer := r.2.map (· ^^^ 0x36)
  let a ← A.update (A.init r.1) buffer
  let buffer := buffer.map (· ^^^ (0x36 ^^^ 0x5C))
  let b ← A.update (A.init self.b) buffer
  some ⟨a, b⟩

/-- `Hmac.update`, lines 72–75. -/
def update (A : Alg) (self : Hmac A) (data : List Byte) : Option (Hmac A) := do
  let a ← A.update self.a data
  some ⟨a, self.b⟩

/-- `Hmac.final`, lines 77–81. -/
def final (A : Alg) (self : Hmac A) : Option (List Byte) := do
  let d ← A.final self.a
  let b ← A.update self.b d.1
  let r ← A.final b
  some r.1

/-- `hash`, lines 9–15; `h` is what was in the memory of line 11. -/
def hash (A : Alg) (h : Hmac A) (key message : List Byte) : Option (List Byte) := do
  let h ← init A h key
  let h ← update A h message
  final A h

/-- Some `update`s between `init` and `final`. -/
def updates (A : Alg) : Hmac A → List (List Byte) → Option (Hmac A)
  | h, [] => some h
  | h, d :: ds => do
    let h ← update A h d
    updates A h ds

/-- The code of a message given in pieces. -/
def hashPieces (A : Alg) (h : Hmac A) (key : List Byte) (ds : List (List Byte)) : Option (List Byte) := do
  let h ← init A h key
  let h ← updates A h ds
  final A h

/-- The loop of lines 97–106; `it` is an `int`, and the comparison of line 97 is that of the numbers,
as comparisons of `int` and `uint` are. -/
def deriveLoop (A : Alg) (start : Hmac A) (iterations : Nat) (it : BitVec 32) (tmp out : List Byte) :
    Option (List Byte) :=
  if it.toInt < (iterations : Int) then do
    let h ← update A start tmp
    let tmp ← final A h
    deriveLoop A start iterations (it + 1) tmp (List.zipWith (· ^^^ ·) out tmp)
  else some out
partial_fixpoint

/-- The macro `@derive`, lines 86–107: what is in `out` at the end. -/
def derive (A : Alg) (start : Hmac A) (salt : List Byte) (iterations index : Nat) :
    Option (List Byte) := do
  let h ← update A start salt
  let h ← update A h (be 4 (index % 2 ^ 32))
  let tmp ← final A h
  deriveLoop A start iterations 1 tmp tmp

/-- The loop of lines 30–34 from `i` on, `n` times: what is written. -/
def blocks (A : Alg) (start : Hmac A) (salt : List Byte) (iterations i : Nat) : Nat → Option (List Byte)
  | 0 => some []
  | n + 1 => do
    let d ← derive A start salt iterations i
    let ds ← blocks A start salt iterations (i + 1) n
    some (d ++ ds)

/-- `pbkdf2`, lines 21–43, for an output of `len` bytes; `h` is what was in the memory of line 26.
`none` if the contract of lines 18–19 does not hold. -/
def pbkdf2 (A : Alg) (h : Hmac A) (pw salt : List Byte) (iterations len : Nat) : Option (List Byte) :=
  if len > 0 ∧ len < 0x7FFFFFFF / A.hashBytes then do
    let l := len / A.hashBytes
    let r := len % A.hashBytes
    let h ← init A h pw
    let out ← blocks A h salt iterations 1 l
    if r > 0 then do
      let tmp ← derive A h salt iterations (l + 1)
      some (out ++ tmp.take r)
    else some out
  else none

end C3.Hash.Hmac
