/-! # Model of `std::math::bigint`, `lib/std/math/bigint.c3`

The number of words, `MAX_LEN` (line 8, `4096 * 2 / 32`), is the parameter `N`
of every function.  A `uint` is a `Nat` below `2^32`, and `data` is the list of
the words, lowest first.  A failed `assert`, an index out of bounds and a
division by zero are `none`: these stop a program that is built in safe mode.
A function that changes `self` is one that returns the new value. -/

set_option autoImplicit false

namespace C3.BigNum

/-- `BigInt`, lines 13–17. -/
structure Big where
  /-- `data`, line 15 -/
  data : List Nat
  /-- `len`, line 16 -/
  len : Nat
deriving Repr, DecidableEq

/-- `data[i]`. -/
def Big.word (a : Big) (i : Nat) : Nat := a.data.getD i 0

/-- `ZERO`, line 10. -/
def zero (N : Nat) : Big := ⟨List.replicate N 0, 1⟩

/-- `ONE`, line 11. -/
def one (N : Nat) : Big := ⟨1 :: List.replicate (N - 1) 0, 1⟩

/-- `BigInt.is_negative`, lines 125–128. -/
def Big.isNegative (N : Nat) (a : Big) : Bool := (a.word (N - 1) &&& 0x80000000) != 0

/-- `find_length`, lines 166–173. -/
def findLength (data : List Nat) : Nat → Nat
  | 0 => 0
  | n + 1 => if n + 1 > 1 ∧ data.getD n 0 = 0 then findLength data n else n + 1

/-- `BigInt.reduce_len`, lines 161–164. -/
def Big.reduceLen (a : Big) : Big := { a with len := max (findLength a.data a.len) 1 }

/-- `BigInt.is_zero`, line 271. -/
def Big.isZero (a : Big) : Bool := a.len == 1 && a.word 0 == 0

/-- `BigInt.is_one`, lines 488–491. -/
def Big.isOne (a : Big) : Bool := a.len == 1 && a.word 0 == 1

/-- `BigInt.is_odd`, lines 482–485. -/
def Big.isOdd (a : Big) : Bool := (a.word 0 &&& 1) != 0

/-- The loop of `BigInt.init`, lines 31–36, on the words not yet written: the
words, and what is left of `tmp`. -/
def initLoop : Nat → Int → List Nat × Int
  | 0, tmp => ([], tmp)
  | n + 1, tmp =>
    if tmp = 0 then ([], tmp)
    else ((tmp % 2 ^ 32).toNat :: (initLoop n (tmp / 2 ^ 32)).1, (initLoop n (tmp / 2 ^ 32)).2)

/-- `BigInt.init`, lines 26–42, and `from_int`, lines 19–24.  `value` is an
`int128`. -/
def init (N : Nat) (value : Int) : Option Big :=
  let ws := (initLoop N value).1
  let tmp := (initLoop N value).2
  let b : Big := ⟨ws ++ List.replicate (N - ws.length) 0, ws.length⟩
  if (value < 0 ∨ tmp = 0 ∨ b.isNegative N = false) ∧
      (value ≥ 0 ∨ tmp = -1 ∨ b.isNegative N = true) then some b.reduceLen
  else none

/-- The loop of `BigInt.init_with_u128`, lines 49–54. -/
def initU128Loop : Nat → Nat → Option (List Nat)
  | 0, tmp => if tmp = 0 then some [] else none
  | n + 1, tmp =>
    if tmp = 0 then some []
    else do some (tmp % 2 ^ 32 :: (← initU128Loop n (tmp / 2 ^ 32)))

/-- `BigInt.init_with_u128`, lines 44–58. -/
def initU128 (N value : Nat) : Option Big := do
  let ws ← initU128Loop N value
  let b : Big := ⟨ws ++ List.replicate (N - ws.length) 0, ws.length⟩
  if b.isNegative N = false then some { b with len := max ws.length 1 } else none

/-- `BigInt.init_with_array`, lines 63–84; the precondition is line 61. -/
def initArray (N : Nat) (values : List Nat) : Option Big :=
  if values.length ≤ N then
    if values.length = 0 then some ⟨List.replicate N 0, 1⟩
    else
      let data := values.reverse ++ List.replicate (N - values.length) 0
      some ⟨data, findLength data values.length⟩
  else none

/-- The loop of `BigInt.add_this`, lines 144–149, from the given carry: the
words, and the carry after the loop. -/
def addLoop : Nat → Nat → List Nat → List Nat → List Nat × Nat
  | n + 1, carry, x :: a, y :: b =>
    let sum := x + y + carry
    (sum % 2 ^ 32 :: (addLoop n (sum / 2 ^ 32) a b).1, (addLoop n (sum / 2 ^ 32) a b).2)
  | _, carry, a, _ => (a, carry)

/-- `BigInt.add_this`, lines 136–159, and `BigInt.add`, lines 130–134. -/
def add (N : Nat) (a b : Big) : Option Big :=
  let len := max a.len b.len
  let l := addLoop len 0 a.data b.data
  let c : Big := if l.2 ≠ 0 ∧ len < N then ⟨l.1.set len l.2, len + 1⟩ else ⟨l.1, len⟩
  let c := c.reduceLen
  if a.isNegative N ≠ b.isNegative N ∨ a.isNegative N = c.isNegative N then some c else none

/-- The loop of `BigInt.sub_this`, lines 287–292. -/
def subLoop : Nat → Nat → List Nat → List Nat → List Nat × Nat
  | n + 1, carry, x :: a, y :: b =>
    let diff : Int := (x : Int) - y - carry
    let next := if diff < 0 then 1 else 0
    ((diff % 2 ^ 32).toNat :: (subLoop n next a b).1, (subLoop n next a b).2)
  | _, carry, a, _ => (a, carry)

/-- `BigInt.sub_this`, lines 279–310, and `BigInt.sub`, lines 273–277. -/
def sub (N : Nat) (a b : Big) : Option Big :=
  let len := max a.len b.len
  let l := subLoop len 0 a.data b.data
  let c : Big :=
    if l.2 ≠ 0 then ⟨l.1.take len ++ List.replicate (N - len) 0xFFFFFFFF, N⟩ else ⟨l.1, len⟩
  let c := c.reduceLen
  if a.isNegative N = b.isNegative N ∨ a.isNegative N = c.isNegative N then some c else none

/-- The loop of `BigInt.negate`, lines 255–263. -/
def incLoop : Nat → List Nat → List Nat
  | carry, w :: ws =>
    if carry ≠ 0 then (w + 1) % 2 ^ 32 :: incLoop ((w + 1) / 2 ^ 32) ws else w :: ws
  | _, [] => []

/-- `BigInt.negate`, lines 241–269. -/
def negate (N : Nat) (a : Big) : Option Big :=
  if a.isZero then some a
  else
    let c : Big := ⟨incLoop 1 (a.data.map fun w => 2 ^ 32 - 1 - w), a.len⟩
    if c.isNegative N ≠ a.isNegative N then some { c with len := N }.reduceLen else none

/-- `BigInt.unary_minus`, lines 328–334. -/
def unaryMinus (N : Nat) (a : Big) : Option Big := if a.isZero then some a else negate N a

/-- `BigInt.abs`, lines 504–507. -/
def abs (N : Nat) (a : Big) : Option Big :=
  if a.isNegative N then unaryMinus N a else some a

/-- The store of the carry, lines 221–224, on the words of `res` from the place
of the carry on. -/
def storeCarry (mcarry : Nat) : List Nat → Option (List Nat)
  | [] => if mcarry ≠ 0 then none else some []
  | r :: rs => if mcarry ≠ 0 then some (mcarry :: rs) else some (r :: rs)

/-- The inner loop of `BigInt.mult_this` with the store of the carry, lines
209–224, on the words of `res` from the `i`-th on. -/
def rowLoop (x : Nat) : Nat → List Nat → List Nat → Option (List Nat)
  | mcarry, [], rs => storeCarry mcarry rs
  | _, _ :: _, [] => none
  | mcarry, y :: bs, r :: rs => do
    let val := (x * y + r + mcarry) % 2 ^ 64
    some (val % 2 ^ 32 :: (← rowLoop x (val / 2 ^ 32) bs rs))

/-- Lines 208–224: a word that is zero is left out. -/
def row (bs : List Nat) (x : Nat) (rs : List Nat) : Option (List Nat) :=
  if x = 0 then some rs else rowLoop x 0 bs rs

/-- The outer loop of `BigInt.mult_this`, lines 206–225, on the words of `self`
and of `res` from the `i`-th on. -/
def multLoop (bs : List Nat) : List Nat → List Nat → Option (List Nat)
  | [], rs => some rs
  | x :: xs, rs => do
    let rs ← row bs x rs
    match rs with
    | [] => multLoop bs xs []
    | r :: rs => some (r :: (← multLoop bs xs rs))

/-- `if (x.is_negative()) x.negate()`, lines 194–203, 345–355, 388–397. -/
def strip (N : Nat) (a : Big) : Option Big := if a.isNegative N then negate N a else some a

/-- `if (negative) x.negate()`, lines 234–237, 373–376, 401, 416–419. -/
def negateIf (N : Nat) (negative : Bool) (a : Big) : Option Big :=
  if negative then negate N a else some a

/-- `BigInt.mult_this`, lines 181–239, and `BigInt.mult`, lines 175–179. -/
def mult (N : Nat) (a b : Big) : Option Big :=
  if b.isZero then some (zero N)
  else if b.isOne then some a
  else do
    let a' ← strip N a
    let b' ← strip N b
    let rs ← multLoop (b'.data.take b'.len) (a'.data.take a'.len) (List.replicate N 0)
    let res := (⟨rs, min (a'.len + b'.len) N⟩ : Big).reduceLen
    if res.isNegative N = false then negateIf N (a.isNegative N != b.isNegative N) res else none

/-- The position at which the loop of a comparison stops, lines 467 and 478,
plus one: 0 if all of the words are the same. -/
def topDiff (a b : Big) : Nat → Nat
  | 0 => 0
  | n + 1 => if a.word n = b.word n then topDiff a b n else n + 1

/-- `BigInt.less_than`, lines 470–480. -/
def lessThan (N : Nat) (a b : Big) : Bool :=
  if a.isNegative N && !b.isNegative N then true
  else if !a.isNegative N && b.isNegative N then false
  else
    let pos := topDiff a b (max a.len b.len)
    decide (pos > 0) && decide (a.word (pos - 1) < b.word (pos - 1))

/-- `BigInt.greater_than`, lines 460–469. -/
def greaterThan (N : Nat) (a b : Big) : Bool :=
  if a.isNegative N && !b.isNegative N then false
  else if !a.isNegative N && b.isNegative N then true
  else
    let pos := topDiff a b (max a.len b.len)
    decide (pos > 0) && decide (a.word (pos - 1) > b.word (pos - 1))

/-- `BigInt.equals`, lines 454–458. -/
def equals (a b : Big) : Bool :=
  if a.len ≠ b.len then false else decide (a.data.take a.len = b.data.take a.len)

/-- `BigInt.greater_or_equal`, lines 494–497. -/
def greaterOrEqual (N : Nat) (a b : Big) : Bool := greaterThan N a b || equals a b

/-- The loops of `bit_and_this`, `bit_or_this` and `bit_xor_this`, lines 776–779,
794–797, 812–815. -/
def bitLoop (f : Nat → Nat → Nat) : Nat → List Nat → List Nat → List Nat
  | n + 1, x :: a, y :: b => f x y :: bitLoop f n a b
  | _, a, _ => a

/-- `bit_and_this`, lines 773–783, `bit_or_this`, 791–801, `bit_xor_this`,
809–819: `f` is the operation on the words. -/
def bitOp (f : Nat → Nat → Nat) (N : Nat) (a b : Big) : Big :=
  (⟨bitLoop f (max a.len b.len) a.data b.data, N⟩ : Big).reduceLen

/-- `BigInt.bit_and`, lines 767–771. -/
def bitAnd : Nat → Big → Big → Big := bitOp (· &&& ·)

/-- `BigInt.bit_or`, lines 785–789. -/
def bitOr : Nat → Big → Big → Big := bitOp (· ||| ·)

/-- `BigInt.bit_xor`, lines 803–807. -/
def bitXor : Nat → Big → Big → Big := bitOp (· ^^^ ·)

/-- `BigInt.bit_negate_this`, lines 423–429, and `bit_negate`, 431–435. -/
def bitNegate (N : Nat) (a : Big) : Big :=
  (⟨a.data.map fun w => 2 ^ 32 - 1 - w, N⟩ : Big).reduceLen

/-- The loop of `single_byte_divide`, lines 925–933: the remainder so far, and
the words below, highest first.  Returns the words of the quotient, highest
first, and the remainder. -/
def divLoop (divisor : Nat) : Nat → List Nat → List Nat × Nat
  | rem, [] => ([], rem)
  | rem, w :: ws =>
    let dividend := rem * 2 ^ 32 + w
    (dividend / divisor % 2 ^ 32 :: (divLoop divisor (dividend % divisor) ws).1,
      (divLoop divisor (dividend % divisor) ws).2)

/-- The first word of the dividend, lines 914–923: the words of the quotient it
gives, and the remainder. -/
def firstDigit (divisor w : Nat) : List Nat × Nat :=
  if w ≥ divisor then ([w / divisor], w % divisor) else ([], w)

/-- `BigInt.single_byte_divide`, lines 900–945: the quotient and the remainder. -/
def singleDivide (N : Nat) (a b : Big) : Option (Big × Big) :=
  let len := findLength a.data a.len
  let divisor := b.word 0
  match (a.data.take len).reverse with
  | [] => none
  | w :: ws =>
    if divisor = 0 then none
    else
      let f := firstDigit divisor w
      let l := divLoop divisor f.2 ws
      let result := f.1 ++ l.1
      some ((⟨result.reverse ++ List.replicate (N - result.length) 0, result.length⟩ : Big).reduceLen,
        (⟨l.2 :: (List.replicate (len - 1) 0 ++ a.data.drop len), len⟩ : Big).reduceLen)

/-- One pass of the loop of `shift_left`, lines 1067–1075, over the given number
of words: the words, and the carry after them. -/
def shlPass (amount : Nat) : Nat → Nat → List Nat → List Nat × Nat
  | n + 1, carry, w :: ws =>
    let val := (w * 2 ^ amount % 2 ^ 64) ||| carry
    (val % 2 ^ 32 :: (shlPass amount n (val / 2 ^ 32) ws).1, (shlPass amount n (val / 2 ^ 32) ws).2)
  | _, carry, ws => (ws, carry)

/-- The store of the carry, lines 1077–1083: the words, and `buf_len`. -/
def shlStore (len bufLen : Nat) (p : List Nat × Nat) : List Nat × Nat :=
  if p.2 ≠ 0 ∧ bufLen + 1 ≤ len then (p.1.set bufLen p.2, bufLen + 1) else (p.1, bufLen)

/-- The loop of `shift_left`, lines 1063–1085: the words, and `buf_len`. -/
def shlLoop (len : Nat) : Nat → List Nat → Nat → List Nat × Nat
  | 0, data, bufLen => (data, bufLen)
  | count + 1, data, bufLen =>
    let amount := min (count + 1) 32
    let p := shlStore len bufLen (shlPass amount bufLen 0 data)
    shlLoop len (count + 1 - amount) p.1 p.2
termination_by count => count
decreasing_by omega

/-- `shift_left`, lines 1056–1087: the words, and the length returned. -/
def shiftLeft (data : List Nat) (len : Nat) (shift : Int) : List Nat × Nat :=
  shlLoop len shift.toNat data (findLength data len)

/-- `BigInt.shl_this`, lines 821–824, and `BigInt.shl`, lines 448–452. -/
def shl (a : Big) (shift : Int) : Big :=
  ⟨(shiftLeft a.data a.len shift).1, (shiftLeft a.data a.len shift).2⟩

/-- One pass of the loop of `shift_right`, lines 1108–1116, on the words highest
first. -/
def shrPass (amount inv : Nat) : Nat → List Nat → List Nat
  | _, [] => []
  | carry, w :: ws =>
    ((w / 2 ^ amount) ||| carry) % 2 ^ 32 :: shrPass amount inv (w * 2 ^ inv % 2 ^ 64) ws

/-- The loop of `shift_right`, lines 1100–1119. -/
def shrLoop (bufLen : Nat) : Nat → List Nat → List Nat
  | 0, data => data
  | count + 1, data =>
    let amount := min (count + 1) 32
    shrLoop bufLen (count + 1 - amount)
      ((shrPass amount (32 - amount) 0 (data.take bufLen).reverse).reverse ++ data.drop bufLen)
termination_by count => count
decreasing_by omega

/-- `shift_right`, lines 1089–1121: the words, and the length returned. -/
def shiftRight (data : List Nat) (len : Nat) (shift : Int) : List Nat × Nat :=
  let bufLen := findLength data len
  let data := shrLoop bufLen shift.toNat data
  (data, findLength data bufLen)

/-- `BigInt.shr_this`, lines 443–446: it has its `self` by value, so that the
caller's number is not changed. -/
def shrThis (a : Big) (shift : Int) : Big :=
  let _self := shiftRight a.data a.len shift
  a

/-- `BigInt.shr`, lines 437–441. -/
def shr (a : Big) (shift : Int) : Big := shrThis a shift

/-- The shift of the loop in `multi_byte_divide`, lines 960–969: the leading
zeros of the highest word. -/
def leading (val : Nat) : Nat → Nat
  | 0 => 0
  | n + 1 => if (val &&& 2 ^ n) = 0 then leading val n + 1 else 0

/-- The loop of `multi_byte_divide` that corrects `q_hat`, lines 992–1004.  The
products and sums are those of `ulong`. -/
def qHat (first second low qhat rhat : Nat) : Option Nat := do
  if qhat = 0x10000000 ∨
      qhat * second % 2 ^ 64 > (rhat * 2 ^ 32 + low) % 2 ^ 64 then
    let qhat := (qhat + 2 ^ 64 - 1) % 2 ^ 64
    let rhat := (rhat + first) % 2 ^ 64
    if rhat < 0x10000000 then qHat first second low qhat rhat else some qhat
  else some qhat
partial_fixpoint

/-- The loop of `multi_byte_divide` that lowers the product, lines 1014–1019. -/
def lower (N : Nat) (bi2 kk ss : Big) (qhat : Nat) : Option (Big × Nat) := do
  if greaterThan N ss kk then
    let ss ← sub N ss bi2
    lower N bi2 kk ss ((qhat + 2 ^ 64 - 1) % 2 ^ 64)
  else some (ss, qhat)
partial_fixpoint

/-- The loop of `multi_byte_divide`, lines 985–1032, that runs `j` times and
starts at `pos`: the words `r`, and the words of the quotient, highest first. -/
def multiLoop (N : Nat) (bi2 : Big) : Nat → Nat → List Nat → Option (List Nat × List Nat)
  | 0, _, r => some (r, [])
  | j + 1, pos, r => do
    let first := bi2.word (bi2.len - 1)
    let second := bi2.word (bi2.len - 2)
    let dividend := r.getD pos 0 * 2 ^ 32 + r.getD (pos - 1) 0
    if first = 0 then none
    else
      let qhat ← qHat first second (r.getD (pos - 2) 0) (dividend / first) (dividend % first)
      let part := (List.range (bi2.len + 1)).map fun h => r.getD (pos - h) 0
      let kk : Big := ⟨part ++ List.replicate (N - part.length) 0, bi2.len + 1⟩
      let q ← init N qhat
      let ss ← mult N bi2 q
      let l ← lower N bi2 kk ss qhat
      let yy ← sub N kk l.1
      let r := (List.range (bi2.len + 1)).foldl (fun r h => r.set (pos - h) (yy.word (bi2.len - h))) r
      let rest ← multiLoop N bi2 j (pos - 1) r
      some (rest.1, l.2 % 2 ^ 32 :: rest.2)

/-- `BigInt.multi_byte_divide`, lines 952–1054: the quotient and the remainder.
With a dividend of `MAX_LEN` words, `shift_left` reads behind the array `r`. -/
def multiDivide (N : Nat) (a b : Big) : Option (Big × Big) := do
  if N < a.len + 1 then none
  else
    let shift := leading (b.word (b.len - 1)) 32
    let r := a.data.take a.len ++ List.replicate (N - a.len) 0
    let s := shiftLeft r (a.len + 1) shift
    let bi2 := shl b shift
    let l ← multiLoop N bi2 (s.2 - bi2.len) (s.2 - 1) s.1
    let quotient : Big := ⟨l.2.reverse ++ List.replicate (N - l.2.length) 0, l.2.length⟩
    let t := shiftRight l.1 s.2 shift
    some (quotient.reduceLen, ⟨t.1.take t.2 ++ List.replicate (N - t.2) 0, t.2⟩)

/-- Lines 365–372 and 408–415. -/
def divide (N : Nat) (a b : Big) : Option (Big × Big) :=
  if b.len = 1 then singleDivide N a b else multiDivide N a b

/-- `BigInt.div_this`, lines 343–378, and `BigInt.div`, lines 337–341. -/
def div (N : Nat) (a b : Big) : Option Big := do
  let a' ← strip N a
  let b' ← strip N b
  let a'' := if lessThan N a' b' then zero N else a'
  let q ← divide N a'' b'
  negateIf N (a.isNegative N != b.isNegative N) q.1

/-- `BigInt.mod_this`, lines 386–421, and `BigInt.mod`, lines 380–384. -/
def mod (N : Nat) (a b : Big) : Option Big := do
  let b' ← strip N b
  let a' ← strip N a
  if lessThan N a' b' then negateIf N (a.isNegative N) a'
  else
    let q ← divide N a' b'
    negateIf N (a.isNegative N) q.2

end C3.BigNum
