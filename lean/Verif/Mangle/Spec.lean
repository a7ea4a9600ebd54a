import Verif.Mangle.Model

/-!
# What mangled names should tell apart

The names of a program for which the mangled names are claimed to be
unambiguous.  `Program` holds what is unique in a program: the file of the type
a module declares under a name (so no two `@local` types share module and
name), which parameters of a generic module are types, and the type of the
integer arguments by their value.
-/

set_option autoImplicit false

namespace C3.Mangle

/-- An identifier: letters, digits and '_'. -/
structure Word (w : Name) : Prop where
  ne : w ≠ []
  word : ∀ c ∈ w, wordChar c = true

/-- Begins with a lower case letter. -/
def Low (w : Name) : Prop := ∃ c, w.head? = some c ∧ 'a' ≤ c ∧ c ≤ 'z'

/-- A part of a module path which has no '_'. -/
structure Simple (w : Name) : Prop extends Word w where
  plain : '_' ∉ w
  low : Low w

/-- The words with a meaning in mangled names. -/
inductive Code : Name → Prop
  | basic (b : Basic) : Code b.name
  | any : Code ['a', 'n', 'y']
  | ptr : Code ['p']
  | slice : Code ['s', 'a']
  | opt : Code ['f']
  | yes : Code ['t']
  | vec (n : Nat) : Code ('v' :: digits n)
  | arr (n : Nat) : Code ('a' :: digits n)

/-- What is unique in a program. -/
structure Program where
  /-- The file of the type a module declares under a name. -/
  file : Mod → Name → Nat
  /-- Which parameters of a generic module are types. -/
  kinds : List Name → List Bool
  /-- The type of an integer argument of this value. -/
  intType : Int → Basic

/-- Is the argument a type? -/
def Arg.isType : Arg → Bool
  | .type _ => true
  | _ => false

/-- Which arguments are types. -/
def Args.kinds : Args → List Bool
  | .nil => []
  | .cons a as => a.isType :: as.kinds

mutual

/-- Types made of basic types, types declared without `@extern` and `@export`,
and generic types; no function types and no arrays of length 0. -/
def Ty.Good (P : Program) : Ty → Prop
  | .basic _ => True
  | .any => True
  | .ptr t => t.Good P
  | .slice t => t.Good P
  | .flex t => t.Good P
  | .opt t => t.Good P
  | .vec _ t => t.Good P
  | .arr n t => n ≠ 0 ∧ t.Good P
  | .func _ _ _ => False
  | .user file m name ext isExtern isExport =>
    ext = none ∧ isExtern = false ∧ isExport = false ∧ file = P.file m name ∧ Word name ∧ m.Good P

/-- Modules without external name.  The paths of generic modules have no '_'
and are no code word. -/
def Mod.Good (P : Program) : Mod → Prop
  | .plain path ext => ext = none ∧ path ≠ [] ∧ ∀ s ∈ path, Word s
  | .inst path ext args =>
    ext = none ∧ path ≠ [] ∧ (∀ s ∈ path, Simple s) ∧ (∀ s, path = [s] → ¬ Code s) ∧
      args.kinds = P.kinds path ∧ args.Good P

/-- Argument lists of such arguments. -/
def Args.Good (P : Program) : Args → Prop
  | .nil => True
  | .cons a as => a.Good P ∧ as.Good P

/-- Arguments which are types, bools, integers, and values of enums whose name
has no '_'. -/
def Arg.Good (P : Program) : Arg → Prop
  | .type t => t.Good P
  | .bool _ => True
  | .enum (.user file m name ext isExtern isExport) value =>
    (ext = none ∧ isExtern = false ∧ isExport = false ∧ file = P.file m name ∧ Word name ∧
      m.Good P) ∧ '_' ∉ name ∧ Word value
  | .enum _ _ => False
  | .fault _ _ => False
  | .int b v => b = P.intType v

end

/-- A use of a generic module. -/
structure Use where
  path : List Name
  args : Args

/-- The instance the use should get. -/
def Use.inst (u : Use) : Mod := .inst u.path none u.args

/-- The modules the uses get, one after the other. -/
def instantiateAll : List Mod → List Use → List Mod
  | _, [] => []
  | known, u :: us =>
    let (m, known') := instantiate known u.path none u.args
    m :: instantiateAll known' us

/-- The type name a method is declared on. -/
inductive Owner : Ty → Prop
  | basic (b : Basic) : Owner (.basic b)
  | any : Owner .any
  | user (file : Nat) (m : Mod) (name : Name) (h : ¬ Low name) :
    Owner (.user file m name none false false)

/-- The module in whose name space the declaration is: for methods of a user
defined type the module of the type. -/
def GDecl.home (d : GDecl) : Mod :=
  match d.parent with
  | some t => t.home d.m
  | none => d.m

/-- The names of types which are keywords. -/
inductive Keyword : Name → Prop
  | basic (b : Basic) : Keyword b.name
  | any : Keyword ['a', 'n', 'y']

/-- Declarations for which the symbols are claimed to be unambiguous: names
without `@extern` and `@export`, in modules whose path is made of identifiers
in lower case which are no keywords, and methods of basic or user defined
types. -/
structure GDecl.Good (P : Program) (d : GDecl) : Prop where
  ext : d.ext = none
  isExtern : d.isExtern = false
  isExport : d.isExport = false
  word : Word d.name
  mod : d.home.Good P
  path : ∀ path e, d.home = .plain path e → ∀ s ∈ path, Low s ∧ ¬ Keyword s
  owner : ∀ t, d.parent = some t → Owner t ∧ t.Good P

end C3.Mangle
