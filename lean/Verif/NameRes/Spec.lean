import Verif.NameRes.Model

/-!
# Which declarations a file may name

Modules have paths such as `std::io::file`; what a file sees follows from the paths of the modules, from what it imports, and from
whether a declaration is `@public` (the default), `@private` or `@local`.
-/

set_option autoImplicit false

namespace C3.NameRes

/-- `["std", "io"]` is written `std::io`. -/
def joinPath : List Name → Name
  | [] => []
  | [s] => s
  | s :: t :: r => s ++ ':' :: ':' :: joinPath (t :: r)

/-- `s` is the text of the path of these identifiers. -/
structure IsPath (s : Name) (segs : List Name) : Prop where
  text : s = joinPath segs
  nonempty : segs ≠ []
  ident : ∀ x ∈ segs, x ≠ [] ∧ ':' ∉ x

/-- The path of a module.  A module made from a generic one stands where the generic one stands. -/
def HasPath (P : Prog) (m : Nat) (segs : List Name) : Prop :=
  ∃ mm, P.modules[m]? = some mm ∧
    ((mm.generic = none ∧ IsPath mm.name segs) ∨ ∃ t tm, mm.generic = some t ∧ P.modules[t]? = some tm ∧ IsPath tm.name segs)

/-- The modules are the same, or one is a submodule of the other. -/
def Related (P : Prog) (a b : Nat) : Prop := ∃ A B, HasPath P a A ∧ HasPath P b B ∧ (A <+: B ∨ B <+: A)

/-- Does an import give access to a module?  To the one imported, and unless it is `@norecurse`, to those related to it. -/
def Import.Reaches (P : Prog) (i : Import) (m : Nat) : Prop := i.module = m ∨ (i.nonRecurse = false ∧ Related P i.module m)

/-- May the declaration be used in the file `f`? -/
def Accessible (P : Prog) (f : Nat) (d : Decl) : Prop :=
  ∃ u m mm, P.units[f]? = some u ∧ P.moduleOf d = some m ∧ P.modules[m]? = some mm ∧
    ((m = u.module ∧ (d.vis = .loc → d.file = f)) ∨
      (m ≠ u.module ∧ mm.generic = none ∧
        ((d.vis = .pub ∧
            (Related P m u.module ∨ (∃ A, HasPath P m A ∧ ["std".toList, "core".toList] <+: A) ∨ ∃ i ∈ u.imports, i.Reaches P m)) ∨
          (d.vis = .priv ∧ ∃ i ∈ u.imports, i.privAsPublic = true ∧ i.Reaches P m))))

/-- Does the path that is written before a name fit a declaration?  It may leave out identifiers at the front. -/
def Fits (P : Prog) (path : Option Name) (d : Decl) : Prop :=
  ∀ p, path = some p → ∃ m mm A B, P.moduleOf d = some m ∧ P.modules[m]? = some mm ∧ IsPath mm.name A ∧ IsPath p B ∧ B <:+ A

/-- Every module has its path, its parent (the module of the path without the last identifier) and its top module. -/
structure Hierarchy (ms : List Module) : Prop where
  path : ∀ (m : Nat) (mm : Module), ms[m]? = some mm → ∃ segs, IsPath mm.name segs
  unique : ∀ (m n : Nat) (mm nn : Module), ms[m]? = some mm → ms[n]? = some nn → mm.name = nn.name → m = n
  parent : ∀ (m : Nat) (mm : Module) (segs : List Name) (x : Name), ms[m]? = some mm → IsPath mm.name (segs ++ [x]) →
    (segs = [] → mm.parent = none) ∧ (segs ≠ [] → ∃ p pm, mm.parent = some p ∧ ms[p]? = some pm ∧ IsPath pm.name segs)
  top : ∀ (m : Nat) (mm : Module) (x : Name) (segs : List Name), ms[m]? = some mm → IsPath mm.name (x :: segs) →
    ∃ t tm, mm.top = some t ∧ ms[t]? = some tm ∧ tm.name = x

/-- What holds before names are resolved.  The hierarchy is what `sema_analyse_pass_module_hierarchy` and `sema_analyse_pass_top` establish
(`C63_hierarchy`); imports are of other modules, each once (`sema_analysis_pass_process_imports` reports an error otherwise), and never of a
module made from a generic one, as its name cannot be written; files and declarations are in modules that are there and not generic. -/
structure WF (P : Prog) : Prop extends Hierarchy P.modules where
  generic : ∀ (m : Nat) (mm : Module) (t : Nat), P.modules[m]? = some mm → mm.generic = some t →
    ∃ tm, P.modules[t]? = some tm ∧ tm.generic = none ∧ tm.isGeneric = true
  unitModule : ∀ (f : Nat) (u : CUnit), P.units[f]? = some u → ∃ mm, P.modules[u.module]? = some mm ∧ mm.isGeneric = false
  imports : ∀ (f : Nat) (u : CUnit) (i : Import), P.units[f]? = some u → i ∈ u.imports →
    i.module ≠ u.module ∧ ∃ mm, P.modules[i.module]? = some mm ∧ mm.generic = none
  importsOnce : ∀ (f : Nat) (u : CUnit), P.units[f]? = some u → u.imports.Pairwise (fun i j => i.module ≠ j.module)
  declFile : ∀ (i : Nat) (d : Decl), P.decls[i]? = some d → ∃ u, P.units[d.file]? = some u

/-- The tables are those that registering all declarations, in some order, gives, and no error was reported. -/
structure Filled (P : Prog) (T : Tables) (order : List Nat) : Prop where
  all : order.Perm (List.range P.decls.length)
  ok : registerAll P order Tables.empty = some T

/-- Weak aliases can be analysed: following them ends at a type. -/
def FoldOk (P : Prog) : Prop := ∀ (i : Nat) (d : Decl), P.decls[i]? = some d → (foldWeak P i).isSome = true

/-- Declaration `i` is `d`, and it has the name. -/
structure Named (P : Prog) (sym : Name) (i : Nat) (d : Decl) : Prop where
  decl : P.decls[i]? = some d
  named : d.kind.named = true
  name : d.name = sym

/-- A declaration that the name, after the path, may stand for in the file. -/
def Candidate (P : Prog) (f : Nat) (path : Option Name) (sym : Name) (i : Nat) : Prop :=
  ∃ d, Named P sym i d ∧ d.vis ≠ .loc ∧ Accessible P f d ∧ Fits P path d

/-- One of the file itself: a name without a path may also stand for what is `@local` there. -/
def OfFile (P : Prog) (f : Nat) (path : Option Name) (sym : Name) (i : Nat) : Prop :=
  path = none ∧ ∃ d, Named P sym i d ∧ d.file = f

/-- One of the module of the file. -/
def OfModule (P : Prog) (f : Nat) (path : Option Name) (sym : Name) (i : Nat) : Prop :=
  ∃ d u, Named P sym i d ∧ d.vis ≠ .loc ∧ P.units[f]? = some u ∧ P.moduleOf d = some u.module ∧ Fits P path d

/-- A public one of a module that is imported by name, if there is a path. -/
def OfImport (P : Prog) (f : Nat) (path : Option Name) (sym : Name) (i : Nat) : Prop :=
  path ≠ none ∧ ∃ d u m, Named P sym i d ∧ d.vis = .pub ∧ P.units[f]? = some u ∧ P.moduleOf d = some m ∧
    (∃ imp ∈ u.imports, imp.module = m) ∧ Fits P path d

/-- A builtin: marked with `@builtin`, so that it needs no path. -/
def IsBuiltin (P : Prog) (i : Nat) : Prop := ∃ d, P.decls[i]? = some d ∧ d.auto = true

/-- The one with the property. -/
def Only (Q : Nat → Prop) (i : Nat) : Prop := Q i ∧ ∀ j, Q j → j = i

/-- What a name stands for that is not a local variable: what the file itself declares, else what its module declares, else (if there is
a path) the only one in the modules it imports by name, else the only one of all, or the only builtin one. -/
def Chosen (P : Prog) (f : Nat) (path : Option Name) (sym : Name) (i : Nat) : Prop :=
  OfFile P f path sym i ∨
    ((∀ j, ¬OfFile P f path sym j) ∧
      (OfModule P f path sym i ∨
        ((∀ j, ¬OfModule P f path sym j) ∧
          (Only (OfImport P f path sym) i ∨
            ((∀ j, ¬OfImport P f path sym j) ∧
              (Only (Candidate P f path sym) i ∨ Only (fun j => Candidate P f path sym j ∧ IsBuiltin P j) i))))))

end C3.NameRes
