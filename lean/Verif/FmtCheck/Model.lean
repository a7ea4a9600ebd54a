import Verif.Fmt.Model

/-! # The compiler's check of constant format strings

`sema_call_evaluate_arguments` from the label `CHECK_FORMAT` on, src/compiler/sema_expr.c 1845–1938: functions and
macros with the attribute `@format` (`io::printf` and the like) have a constant format compared to the arguments of
the call. The arguments are given by their types (`type_flatten` of what was put into the `any`). -/

set_option autoImplicit false

namespace C3.FmtCheck
open C3.Fmt (Byte ch txt)

/-- What the check tells apart of types. `integer` are `ichar` to `uint128`; `chars` are arrays `char[<n>]` and `ichar[<n>]`;
`pointer` includes pointers to functions; slices, and so `String` and `char[]`, are `other`. -/
inductive Ty where
  | bool | integer | float | enumeration | pointer | chars | other
  deriving DecidableEq, Repr

/-- How the check ends: the call is accepted, refused with one of three errors, or the compiler reads behind the
end of the format or of the vector of arguments. -/
inductive Verdict where
  | accepted | tooFew | tooMany | wrongType | outOfBounds
  deriving DecidableEq, Repr

/-- `type_is_integer`, compiler_internal.h 2682–2686. -/
def isInteger : Ty → Bool
  | .integer => true
  | _ => false

/-- `type_is_number_or_bool`, compiler_internal.h 3124–3128. -/
def isNumberOrBool : Ty → Bool
  | .bool | .integer | .float => true
  | _ => false

/-- `type_is_pointer_type`, compiler_internal.h 2783–2787. -/
def isPointer : Ty → Bool
  | .pointer => true
  | _ => false

/-- `type_flat_is_char_array`, compiler_internal.h 3074–3086. -/
def isChars : Ty → Bool
  | .chars => true
  | _ => false

/-- The `switch`, sema_expr.c 1875–1927, in the cases that go to `NEXT`: is the type right? -/
def conversion (c : Byte) (t : Ty) : Option Bool :=
  if c = ch 's' then some true
  else if c = ch 'c' then some (isInteger t)
  else if c ∈ txt ['d', 'X', 'x', 'B', 'b', 'o', 'a', 'A', 'F', 'f', 'e', 'E', 'g', 'G'] then
    some (isNumberOrBool t || isPointer t)
  else if c = ch 'p' then some (isPointer t || isInteger t)
  else if c = ch 'H' ∨ c = ch 'h' then some (isChars t)
  else none

/-- How the search for the conversion ends. -/
inductive Found where
  | next (tl : List Byte)
  | wrongType
  | done
  | outOfBounds

/-- The loop of lines 1873–1929. `c` is `data[i]`, the list is what can be read from `data[i + 1]` on. -/
def search (t : Ty) : Byte → List Byte → Found
  | c, tl =>
    match conversion c t with
    | some true => .next tl
    | some false => .wrongType
    | none =>
      if c = 0 then .done
      else
        match tl with
        | [] => .outOfBounds
        | c :: tl => search t c tl

/-- Lines 1865–1868: `if (c == '.' && data[++i] == '*') idx++`; what is left to read and of the arguments. -/
def star (c : Byte) (tl : List Byte) (args : List Ty) : Option (List Byte × List Ty) :=
  if c = ch '.' then
    match tl with
    | [] => none
    | d :: tl => some (tl, if d = ch '*' then args.tail else args)
  else some (tl, args)

/-- The loop of lines 1855–1932 with what is behind `DONE`. The format is followed by the zero with which string constants end;
the list is what can be read from `data[i]` on, so `i < len` if it has two elements. Of the arguments those from `idx` on.
`n` bounds the rounds; `tooMany` stands for running out of rounds, which does not happen. -/
def loop : Nat → List Byte → List Ty → Verdict
  | 0, _, _ => .tooMany
  | n + 1, l, args =>
    match l with
    | c :: d :: tl =>
      if c ≠ ch '%' then loop n (d :: tl) args
      else if d = ch '%' then loop n tl args
      else if args = [] then .tooFew
      else
        match star d tl args with
        | none => .outOfBounds
        | some (tl, args) =>
          match args with
          | [] => .outOfBounds
          | t :: args =>
            match search t d tl with
            | .next tl => loop n tl args
            | .wrongType => .wrongType
            | .done => .tooMany
            | .outOfBounds => .outOfBounds
    | _ => if args = [] then .accepted else .tooMany

/-- `CHECK_FORMAT`, sema_expr.c 1845–1938. Not modelled: formats that are not constant and calls with a splat, which are
accepted unseen (line 1848). `.done` is reached with an argument left, so that line 1936 gives the error. -/
def check (format : List Byte) (args : List Ty) : Verdict := loop (format.length + 2) (format ++ [0]) args

end C3.FmtCheck
