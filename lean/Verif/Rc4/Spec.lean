/-! # RC4

The cipher as it is usually written: a permutation of the numbers below 256, as a function. -/

set_option autoImplicit false

namespace C3.Rc4.Std

/-- Exchange the values at two places. -/
def swap (S : Nat → Nat) (i j : Nat) : Nat → Nat :=
  fun k => if k = j then S i else if k = i then S j else S k

/-- The key scheduling after `n` rounds: the permutation and the second index. -/
def ksa (key : List Nat) : Nat → (Nat → Nat) × Nat
  | 0 => (id, 0)
  | n + 1 =>
    let S := (ksa key n).1
    let j := ((ksa key n).2 + S n + key.getD (n % key.length) 0) % 256
    (swap S n j, j)

/-- The generator of the keystream: the permutation and both indices. -/
structure Gen where
  S : Nat → Nat
  i : Nat
  j : Nat

/-- One round of the generator. -/
def next (g : Gen) : Gen :=
  let i := (g.i + 1) % 256
  let j := (g.j + g.S i) % 256
  { S := swap g.S i j, i := i, j := j }

/-- The byte a round gives, from the state behind it. -/
def out (g : Gen) : Nat := g.S ((g.S g.i + g.S g.j) % 256)

/-- The state behind `n` rounds. -/
def rounds (g : Gen) : Nat → Gen
  | 0 => g
  | n + 1 => next (rounds g n)

/-- Byte `n` of the keystream of a key. -/
def stream (key : List Nat) (n : Nat) : Nat :=
  out (rounds { S := (ksa key 256).1, i := 0, j := 0 } (n + 1))

end C3.Rc4.Std
