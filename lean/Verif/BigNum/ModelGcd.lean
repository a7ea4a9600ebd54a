import Verif.BigNum.Model

/-! # `BigInt.gcd` and `BigInt.lcm` of `lib/std/math/bigint.c3` -/

set_option autoImplicit false

namespace C3.BigNum

/-- One pass of the loop of `BigInt.gcd`, lines 833–835: `x` and `y`.  After it
`g` is `y`. -/
def gcdPass (N : Nat) (s : Big × Big) : Option (Big × Big) := do
  let r ← mod N s.2 s.1
  some (r, s.1)

/-- The loop of `BigInt.gcd`, lines 831–837.  As a function it has no result
where a pass stops, and where the passes never end. -/
def gcdLoop (N : Nat) (s : Big × Big) (g : Big) : Option Big := do
  if s.1.isZero then some g
  else
    let s' ← gcdPass N s
    gcdLoop N s' s'.2
partial_fixpoint

/-- `x` and `y` of `BigInt.gcd` after `n` passes, if the loop runs as many. -/
def gcdRun (N : Nat) (s : Big × Big) : Nat → Option (Big × Big)
  | 0 => some s
  | n + 1 => do
    let s' ← gcdRun N s n
    if s'.1.isZero then none else gcdPass N s'

/-- `BigInt.gcd`, lines 826–838. -/
def gcd (N : Nat) (a b : Big) : Option Big := do
  let x ← abs N a
  let y ← abs N b
  gcdLoop N (x, y) y

/-- `BigInt.lcm`, lines 840–846. -/
def lcm (N : Nat) (a b : Big) : Option Big := do
  let x ← abs N a
  let y ← abs N b
  let g ← mult N y x
  let d ← gcd N x y
  div N g d

end C3.BigNum
