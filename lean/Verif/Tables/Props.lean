import Verif.Tables.LemmasD
import Verif.Tables.LemmasH

/-! # C19: the pointer-keyed tables -/

set_option autoImplicit false

namespace C3.Tables

/-- C19: `STable` is a map.  From a fresh table of any permitted size (a power of two up to 2^30), any
history of fewer than 2^28 `stable_set`s and `stable_get`s of non-`NULL` keys and values runs without
fault and answers as a map does in which a set replaces the value and reports the former one.  The
table is rebuilt several times on the way. -/
theorem C19_stable (size : BitVec 32) (t : STable) (ops : List Op) (rs : List Ptr) (hi : stableInit size = some t)
    (hs : size.toNat ≤ 2 ^ 30) (hl : ops.length < 2 ^ 28) (hr : specRun specStep (fun _ => 0#64) ops = some rs) :
    ∃ t', sRun t ops = some (t', rs) := by
  obtain ⟨es, n, h1, h2⟩ := stableInit_inv size t hi hs
  exact sRun_refines ops t _ es n rs h1 (by omega) hr

example : (stableInit 2#32).isSome ∧ specRun specStep (fun _ => 0#64)
    [.get 5#64, .set 5#64 7#64, .set 9#64 8#64, .set 13#64 1#64, .set 5#64 2#64, .get 5#64, .get 9#64, .get 13#64] =
      some [0#64, 0#64, 0#64, 0#64, 7#64, 2#64, 8#64, 1#64] := ⟨rfl, rfl⟩

/-- C19: exactly the powers of two are permitted sizes. -/
theorem C19_stable_init (size : BitVec 32) : (∃ t, stableInit size = some t) ↔ ∃ n, n < 32 ∧ size.toNat = 2 ^ n := by
  constructor
  · rintro ⟨t, ht⟩
    unfold stableInit at ht
    split at ht
    · rename_i h; exact pow2_of_and size h.1 h.2
    · simp at ht
  · rintro ⟨n, hn, hs⟩
    have h0 : size ≠ 0#32 := by
      intro h; have := Nat.two_pow_pos n; rw [h] at hs; simp at hs; omega
    have h1 : size &&& (size - 1#32) = 0#32 := by
      apply BitVec.eq_of_toNat_eq
      rw [BitVec.toNat_and, mask_toNat size n hs, hs, Nat.and_two_pow_sub_one_eq_mod, Nat.mod_self]
      rfl
    exact ⟨_, by rw [stableInit, if_pos ⟨h0, h1⟩]⟩

example : (1024#32).toNat = 2 ^ 10 := rfl

/-- C19: `HTable` is a map that keeps the first value given for a key: from a fresh table of any size
other than 0, any history answers so.  In particular `htable_set` reports an earlier value if there is
one, which is how its callers detect duplicates. -/
theorem C19_htable (size : BitVec 32) (t : HTable) (ops : List Op) (rs : List Ptr) (hi : htableInit size = some t)
    (hr : specRun specStepFirst (fun _ => 0#64) ops = some rs) : ∃ t', hRun t ops = some (t', rs) :=
  hRun_refines ops t _ rs (htableInit_inv size t hi) hr

example : (htableInit 3#32).isSome ∧ specRun specStepFirst (fun _ => 0#64)
    [.set 5#64 7#64, .set 9#64 8#64, .set 5#64 2#64, .get 5#64, .get 9#64, .get 13#64] =
      some [0#64, 0#64, 7#64, 7#64, 8#64, 0#64] := ⟨rfl, rfl⟩

/-- C19: `DeclTable` keeps for every name the sequence of the declarations entered under it, in the
order they were entered: a program that creates declarations, enters each at most once and looks names
up (fewer than 2^28 steps) gets exactly these. -/
theorem C19_decltable (size : BitVec 32) (t : DeclTable) (h0 : Decl) (ops : List DOp) (rs : List (List Nat))
    (hi : decltableInit size = some t) (hs : size.toNat ≤ 2 ^ 30) (hl : ops.length < 2 ^ 28)
    (hr : specDRun ⟨[], []⟩ ops = some rs) : ∃ p, dRun ⟨[h0], t, []⟩ ops = some (p, rs) := by
  obtain ⟨n, hn⟩ := decltableInit_inv size t hi hs h0
  exact dRun_refines ops _ _ _ n rs hn (by simpa using hl) hr

example : (decltableInit 1#32).isSome ∧ specDRun ⟨[], []⟩
    [.create 100#64, .create 200#64, .create 100#64, .create 100#64, .set 2, .set 1, .get 100#64, .set 0, .get 100#64, .set 3,
      .get 100#64, .get 200#64, .get 300#64] =
      some [[], [], [], [], [], [], [2], [], [2, 0], [], [2, 0, 3], [1], []] := ⟨rfl, by decide⟩

end C3.Tables
