/-! # Matching the arguments of a call with the parameters

`sema_call_evaluate_arguments`, src/compiler/sema_expr.c 1527–1844, up to the check of formats. What an argument is (its
type, its conversion to the type of the parameter) is left out: every value is taken to be one the parameter takes. The
mode of the function in which it only tests whether a call is possible (`no_match_ref`) is left out as well. -/

set_option autoImplicit false

namespace C3.CallArgs

/-- `Variadic`. `VARIADIC_TYPED` and `VARIADIC_ANY` do not differ in the matching. -/
inductive Variadic where
  | none | typed | raw
  deriving DecidableEq, Repr

/-- A parameter: its name, if it has one, `var.init_expr` and `var.vararg`. -/
structure Param where
  name : Option Nat
  hasDefault : Bool
  vararg : Bool := false
  deriving DecidableEq, Repr

/-- What is used of `Signature` and `CalledDecl`. The parameter of raw varargs is a null pointer. -/
structure Sig where
  params : List (Option Param)
  variadic : Variadic
  vaargIndex : Nat
  deriving DecidableEq, Repr

/-- An argument. `splat v elements fits`: `...v` with the elements if the length is known when compiling, and whether `v` (or the
address of it, if it is an array) converts to the slice the typed vararg parameter is. `vasplat`: `$vasplat` in a macro with the
arguments it stands for. -/
inductive Arg (V : Type) where
  | pos (v : V)
  | named (n : Nat) (v : V)
  | splat (v : V) (elements : Option (List V)) (fits : Bool)
  | vasplat (elements : List V)
  deriving DecidableEq, Repr

inductive Err where
  | unknownName | varargByName | alreadySet | order | afterSplat | afterNamed | tooMany | unknownLength | zeroLength
  | missing
  deriving DecidableEq, Repr

/-- What an element of `actual_args` is: the argument or the default of the parameter (`EXPR_DEFAULT_ARG`). -/
inductive Val (V : Type) where
  | given (v : V)
  | default
  deriving DecidableEq, Repr

/-- The variables of the loop. `actual` is `actual_args` with `none` for null; its indices are below the number of
parameters. `last` is `last_index`. `splat` is `call_expr.vasplat`, and `va_is_splat` says that there is one. -/
structure St (V : Type) where
  actual : Nat → Option (Val V) := fun _ => none
  varargs : List V := []
  splat : Option V := none
  hasNamed : Bool := false
  last : Int := -1

def St.set {V : Type} (st : St V) (k : Nat) (x : Val V) : St V :=
  { st with actual := fun j => if j = k then some x else st.actual j }

/-- `sema_call_find_index_of_named_parameter`, lines 1246–1255; `k` is the index of the first element of the list. -/
def find (n : Nat) : Nat → List (Option Param) → Option Nat
  | _, [] => none
  | k, some p :: l => if p.name = some n then some k else find n (k + 1) l
  | k, none :: l => find n (k + 1) l

/-- Does `params[k]` have a default? For the null pointer there is no answer, it is never asked. -/
def Sig.hasDefault (sig : Sig) (k : Nat) : Bool :=
  match sig.params[k]? with
  | some (some p) => p.hasDefault
  | _ => false

/-- `param->var.vararg` of `params[k]`. -/
def Sig.isVararg (sig : Sig) (k : Nat) : Bool :=
  match sig.params[k]? with
  | some (some p) => p.vararg
  | _ => false

variable {V : Type}

/-- `sema_set_default_argument`, lines 1417–1466: nothing is set if there is no default. Constant parameters of macros are
treated like the others. -/
def setDefault (sig : Sig) (st : St V) (k : Nat) : St V := if sig.hasDefault k then st.set k .default else st

/-- The loop of lines 1680–1690. `j` runs from `j` to `j + n - 1`. -/
def setDefaults (sig : Sig) : Nat → Nat → St V → St V
  | _, 0, st => st
  | j, n + 1, st => setDefaults sig (j + 1) n (if j = sig.vaargIndex then st else setDefault sig st j)

/-- An argument without a name, lines 1699–1774, at the index `i`. -/
def posStep (sig : Sig) (i : Nat) (st : St V) (v : V) : Except Err (St V) :=
  if st.splat.isSome then .error .afterSplat
  else if st.hasNamed then .error .afterNamed
  else if sig.variadic = .none ∧ i ≥ sig.params.length then .error .tooMany
  else if sig.variadic ≠ .none ∧ i ≥ sig.vaargIndex then .ok { st with varargs := st.varargs ++ [v] }
  else .ok (st.set i (.given v))

/-- The elements of a splat, which are put into the list of arguments in its place (lines 1640, 1585; `sema_splat_arraylike_insert`,
1469–1502, `sema_prepare_splat_insert`, 5593–5612) and are the next arguments of the loop. -/
def posSteps (sig : Sig) : Nat → St V → List V → Except Err (St V)
  | _, st, [] => .ok st
  | i, st, v :: l =>
    match posStep sig i st v with
    | .ok st => posSteps sig (i + 1) st l
    | .error e => .error e

/-- Is there a value given already? Line 1668. -/
def isGiven (x : Option (Val V)) : Bool :=
  match x with
  | some (.given _) => true
  | _ => false

/-- A named argument, lines 1647–1698, at the index `i`. -/
def namedStep (sig : Sig) (i : Nat) (st : St V) (n : Nat) (v : V) : Except Err (St V) :=
  match find n 0 sig.params with
  | none => .error .unknownName
  | some k =>
    if sig.isVararg k then .error .varargByName
    else if isGiven (st.actual k) then .error .alreadySet
    else if st.last > (k : Int) then .error .order
    else
      let from' : Int := if st.last = -1 then (i : Int) - 1 else st.last
      let j := (from' + 1).toNat
      let st := setDefaults sig j (k - j) { st with hasNamed := true }
      .ok { st.set k (.given v) with last := k }

/-- Is there no argument, or a named one? Line 1602. -/
def lastOrNamed : List (Arg V) → Bool
  | [] => true
  | .named _ _ :: _ => true
  | _ => false

/-- The loop of lines 1578–1775. The elements of a splat count as arguments in `i`. The length zero: the test of line 1636 is
on the splat, not on what is splatted, and a splat is never a constant. -/
def loop (sig : Sig) : Nat → St V → List (Arg V) → Except Err (St V)
  | _, st, [] => .ok st
  | i, st, .pos v :: l =>
    match posStep sig i st v with
    | .ok st => loop sig (i + 1) st l
    | .error e => .error e
  | i, st, .named n v :: l =>
    match namedStep sig i st n v with
    | .ok st => loop sig (i + 1) st l
    | .error e => .error e
  | i, st, .splat v es fits :: l =>
    if sig.variadic = .typed ∧ i = sig.vaargIndex ∧ lastOrNamed l = true ∧ fits = true then
      loop sig (i + 1) { st with splat := some v } l
    else
      match es with
      | none => .error .unknownLength
      | some [] => .error .zeroLength
      | some es =>
        match posSteps sig i st es with
        | .ok st => loop sig (i + es.length) st l
        | .error e => .error e
  | i, st, .vasplat es :: l =>
    match posSteps sig i st es with
    | .ok st => loop sig (i + es.length) st l
    | .error e => .error e

/-- The arguments of a call after the matching: one for each parameter (`none` for the varargs), the varargs, the
slice that is passed for them. -/
structure Call (V : Type) where
  actual : List (Option (Val V))
  varargs : List V
  splat : Option V
  deriving DecidableEq, Repr

/-- Lines 1779–1787, for one parameter. -/
def fill (sig : Sig) (st : St V) (k : Nat) : Option (Val V) :=
  match st.actual k with
  | some x => some x
  | none =>
    if k = sig.vaargIndex ∧ sig.variadic ≠ .none then none
    else if sig.hasDefault k then some .default else none

/-- Lines 1779–1842. -/
def finish (sig : Sig) (st : St V) : Except Err (Call V) :=
  if (List.range sig.params.length).any fun k => decide (k ≠ sig.vaargIndex) && (fill sig st k).isNone then
    .error .missing
  else .ok ⟨(List.range sig.params.length).map (fill sig st), st.varargs, st.splat⟩

/-- `sema_call_evaluate_arguments`, lines 1527–1844. A method call has its receiver as the first argument (line 1541). -/
def matchArgs (sig : Sig) (args : List (Arg V)) : Except Err (Call V) :=
  match loop sig 0 {} args with
  | .ok st => finish sig st
  | .error e => .error e

end C3.CallArgs
