import Verif.PathStd.Model

/-! # What normalizing a path should do -/

set_option autoImplicit false

namespace C3.PathStd

/-- The names of a path: what is between the separators. -/
def split : List Nat → List (List Nat)
  | [] => [[]]
  | c :: s =>
    if c = 47 then [] :: split s
    else
      match split s with
      | [] => [[c]]
      | x :: xs => (c :: x) :: xs

/-- Names put together again. -/
def join : List (List Nat) → List Nat
  | [] => []
  | [x] => x
  | x :: y :: xs => x ++ 47 :: join (y :: xs)

/-- One more name behind the names `st`: an empty name and `.` do nothing, `..` takes
the last name away, unless that is `kept` or there is none; above the root there
is nothing; a name has no zero byte. -/
def enter (kept : List Nat → Bool) (root : Bool) (st : List (List Nat)) (x : List Nat) :
    Option (List (List Nat)) :=
  if 0 ∈ x then none
  else if x = [] ∨ x = [46] then some st
  else if x = [46, 46] then
    match st.getLast? with
    | none => if root then none else some [x]
    | some y => if kept y then some (st ++ [x]) else some st.dropLast
  else some (st ++ [x])

/-- All names, one after the other. -/
def enterAll (kept : List Nat → Bool) (root : Bool) :
    List (List Nat) → List (List Nat) → Option (List (List Nat))
  | st, [] => some st
  | st, x :: xs => (enter kept root st x).bind fun st => enterAll kept root st xs

/-- The path of these names. -/
def render (root : Bool) (st : List (List Nat)) : List Nat :=
  if root then 47 :: join st else if st = [] then [46] else join st

/-- The form a path is brought to; `none` if there is none. -/
def normalBy (kept : List Nat → Bool) (s : List Nat) : Option (List Nat) :=
  if s = [] then some []
  else (enterAll kept (isAbsolute s) [] (split s)).map (render (isAbsolute s))

/-- The normal form of a path: only `..` is not taken away by `..`. -/
def normal (s : List Nat) : Option (List Nat) := normalBy (fun x => x == [46, 46]) s

/-- Two bytes, of which the first is a dot: `..`, but `.a` too. -/
def dotLike (x : List Nat) : Bool := x.length == 2 && x.head? == some 46

/-- A path or the fault `INVALID_PATH`. -/
def orInvalid : Option (List Nat) → Except Stop (List Nat)
  | some s => .ok s
  | none => .error .invalidPath

end C3.PathStd
