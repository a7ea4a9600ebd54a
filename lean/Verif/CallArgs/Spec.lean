import Mathlib.Data.List.Forall2
import Verif.CallArgs.Model

/-! # Which argument goes to which parameter

Positional arguments go to the parameters in front of the varargs, in order, those that are left to the varargs; named
arguments go to the parameters of the names; a parameter without an argument has its default. -/

set_option autoImplicit false

namespace C3.CallArgs.Spec

/-- What the compiler makes of a declaration (parse_global.c 1640–2020, sema_decls.c): the index of the varargs is that of the
vararg parameter, or the number of parameters if there is none; names of parameters differ. -/
structure WF (sig : Sig) : Prop where
  fixed : sig.variadic = .none → sig.vaargIndex = sig.params.length
  inside : sig.variadic ≠ .none → sig.vaargIndex < sig.params.length
  raw : sig.variadic = .raw → sig.params[sig.vaargIndex]? = some none
  vararg : ∀ (k : Nat) (p : Param), sig.params[k]? = some (some p) → (p.vararg = true ↔ k = sig.vaargIndex)
  names : ∀ (j k : Nat) (p q : Param) (n : Nat), sig.params[j]? = some (some p) → sig.params[k]? = some (some q) →
    p.name = some n → q.name = some n → j = k

/-- The parameter `k` has the name. -/
def Named (sig : Sig) (n : Nat) (k : Nat) : Prop := ∃ p, sig.params[k]? = some (some p) ∧ p.name = some n

/-- The parameter `k` has a default. -/
def HasDefault (sig : Sig) (k : Nat) : Prop := ∃ p, sig.params[k]? = some (some p) ∧ p.hasDefault = true

variable {V : Type}

/-- The slice for the varargs as an argument. -/
def slot : Option (V × Option (List V)) → List (Arg V)
  | none => []
  | some (v, es) => [.splat v es true]

/-- The arguments of a call: values `P` without names, values `N` with names, a slice `S` for the varargs, more values `M` with
names. -/
def written (P : List V) (N : List (Nat × V)) (S : Option (V × Option (List V))) (M : List (Nat × V)) : List (Arg V) :=
  P.map .pos ++ N.map (fun x => .named x.1 x.2) ++ slot S ++ M.map (fun x => .named x.1 x.2)

/-- The value the call gives to the parameter `k`: the positional one, if there is one, otherwise the one named. `ks`
are the parameters of the names. -/
def given (sig : Sig) (P : List V) (ks : List Nat) (vs : List V) (k : Nat) : Option V :=
  if k < P.length ∧ k < sig.vaargIndex then P[k]? else (ks.zip vs).lookup k

/-- When a call is right: the names are those of the parameters `ks`, in the order of the declaration, none of them the
vararg parameter or one that has a positional value; there are not too many positional values; each parameter has a value or a
default. -/
structure Right (sig : Sig) (P : List V) (names : List Nat) (ks : List Nat) : Prop where
  names : List.Forall₂ (Named sig) names ks
  order : ks.Pairwise (· < ·)
  vararg : sig.vaargIndex ∉ ks
  free : ∀ k ∈ ks, ¬ (k < P.length ∧ k < sig.vaargIndex)
  room : sig.variadic = .none → P.length ≤ sig.params.length
  all : ∀ k, k < sig.params.length → k ≠ sig.vaargIndex → (k < P.length ∧ k < sig.vaargIndex) ∨ k ∈ ks ∨ HasDefault sig k

/-- What a call is to be: the value given or the default for each parameter but that of the varargs, the positional values left. -/
def meaning (sig : Sig) (P : List V) (ks : List Nat) (vs : List V) (S : Option V) : Call V :=
  ⟨(List.range sig.params.length).map fun k =>
      match given sig P ks vs k with
      | some v => some (.given v)
      | none => if k = sig.vaargIndex then none else some .default,
    P.drop sig.vaargIndex, S⟩

end C3.CallArgs.Spec
