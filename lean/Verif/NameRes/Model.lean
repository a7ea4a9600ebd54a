import Init

/-!
# How a name is resolved

`src/compiler/sema_name_resolution.c` (with the tables filled by `src/compiler/context.c`, `src/compiler/decltable.c` and
`src/compiler/sema_passes.c`): the declaration that `name` or `some::path::name` stands for in a file.

Simplified throughout:
* Interned strings are compared by their text instead of by their address, and modules, declarations and files are numbers (their
  places in `Prog.modules`, `Prog.decls` and `Prog.units`) instead of addresses.
* The hash tables (`htable_*`, and the open addressing of `decltable.c`) are functions from names to entries.
* A failed analysis, a null pointer that is followed and a failed `ASSERT` are all `none`; no declaration is poisoned, as no error was
  reported before.
* The messages of the errors are reduced to which one it is.
-/

set_option autoImplicit false

namespace C3.NameRes

/-- The text of an interned string (`src/compiler/symtab.c`). -/
abbrev Name := List Char

/-- `Visibility`, `src/compiler/enums.h` 1475–1480. -/
inductive Vis where
  | pub
  | priv
  | loc
  deriving DecidableEq, Repr

/-- The `DeclKind`s, `src/compiler/enums.h`, as far as they matter here: `erased` is `DECL_ERASED`; `method` is a `DECL_FUNC` or
`DECL_MACRO` with a `type_parent`; `value` is `DECL_VAR`, `DECL_DEFINE`, `DECL_FUNC`, `DECL_MACRO` or `DECL_FAULT`; `typ` is a user
defined type other than a `DECL_TYPEDEF`, or an attribute; `typedef` is `DECL_TYPEDEF`; `ct` is `DECL_CT_*`. -/
inductive Kind where
  | erased
  | method
  | value
  | typ
  | typedef
  | ct
  deriving DecidableEq, Repr

/-- A `Type *`: the type of a `DECL_TYPEDEF` (`TYPE_TYPEDEF` with that `decl`), or any other. -/
inductive Ty where
  | typedef (decl : Nat)
  | other (id : Nat)
  deriving DecidableEq, Repr

/-- `Decl`, `src/compiler/compiler_internal.h` 580–680: the fields that are used.  `file` is `decl->unit`; `aliased` is
`typedef_decl.type_info->type` once the declaration is analysed, `none` if analysing it fails. -/
structure Decl where
  name : Name
  kind : Kind
  file : Nat
  vis : Vis
  auto : Bool := false
  weak : Bool := false
  type : Ty := .other 0
  aliased : Option Ty := none
  deriving DecidableEq, Repr

/-- `Module`, `src/compiler/compiler_internal.h` 1510–1537. -/
structure Module where
  name : Name
  isGeneric : Bool := false
  generic : Option Nat := none
  parent : Option Nat := none
  top : Option Nat := none
  deriving DecidableEq, Repr

/-- `ImportDecl`, `src/compiler/compiler_internal.h`. -/
structure Import where
  module : Nat
  privAsPublic : Bool := false
  nonRecurse : Bool := false
  deriving DecidableEq, Repr

/-- `CompilationUnit`, `src/compiler/compiler_internal.h`. -/
structure CUnit where
  module : Nat
  imports : List Import := []
  deriving DecidableEq, Repr

/-- What the slot of a name in a `DeclTable` holds: nothing, a declaration, or a `DECL_DECLARRAY`. -/
inductive Entry where
  | empty
  | single (d : Nat)
  | array (ds : List Nat)
  deriving DecidableEq, Repr

/-- The tables: `compiler.context.symbols`, `module->symbols` of every module, and `unit->local_symbols` of every file. -/
structure Tables where
  globals : Name → Entry
  modules : Nat → Name → Option Nat
  files : Nat → Name → Option Nat

/-- The parts of `compiler.context` that are read. -/
structure Prog where
  modules : List Module
  units : List CUnit
  decls : List Decl

/-! ## Filling the tables -/

/-- `decltable_set`, `src/compiler/decltable.c` 42–69: what becomes of the entry of the name. -/
def Entry.add (d : Nat) : Entry → Entry
  | .empty => .single d
  | .single old => .array [old, d]
  | .array ds => .array (ds ++ [d])

/-- Writing one place of a function. -/
def update {α β : Type} [DecidableEq α] (f : α → β) (a : α) (b : β) : α → β := fun x => if x = a then b else f x

/-- The module of a declaration: `decl->unit->module`. -/
def Prog.moduleOf (P : Prog) (d : Decl) : Option Nat := (P.units[d.file]?).map (·.module)

/-- Does `unit_register_global_decl` (`src/compiler/context.c` 194–282) get to the end of its `switch` for such a declaration? -/
def Kind.named : Kind → Bool
  | .erased => false
  | .method => false
  | .ct => false
  | _ => true

/-- `unit_register_global_decl` and `decl_register`, `src/compiler/context.c` 152–298, for the declaration number `i`.  `none`: the name
was taken and `sema_shadow_error` is reported. -/
def register (P : Prog) (T : Tables) (i : Nat) : Option Tables := do
  let d ← P.decls[i]?
  let m ← P.moduleOf d
  if d.kind.named then
    let T1 := if d.vis = .loc then T else { T with globals := update T.globals d.name ((T.globals d.name).add i) }
    if (T1.files d.file d.name).isSome then none
    else
      let T2 := { T1 with files := update T1.files d.file (update (T1.files d.file) d.name (some i)) }
      if d.vis = .loc then some T2
      else if (T2.modules m d.name).isSome then none
      else some { T2 with modules := update T2.modules m (update (T2.modules m) d.name (some i)) }
  else some T

/-- The tables before anything is registered. -/
def Tables.empty : Tables := ⟨fun _ => .empty, fun _ _ => none, fun _ _ => none⟩

/-- `register_global_decls` for all files, `src/compiler/sema_passes.c` 125–132, in the order the modules are analysed in. -/
def registerAll (P : Prog) : List Nat → Tables → Option Tables
  | [], T => some T
  | i :: is, T => do registerAll P is (← register P T i)

/-! ## Paths -/

/-- `matches_subpath`, lines 13–31. -/
def matchesSubpath (check find : Name) : Bool :=
  if find = check then true
  else if check.length < find.length + 3 then false
  else
    let start := check.length - find.length
    if check[start - 1]? ≠ some ':' || check[start - 2]? ≠ some ':' then false
    else check.drop start == find

/-- The loop of `parent_path`, `src/compiler/sema_passes.c` 7–18; `n` is `i + 1`.  `none`: the length wraps below zero. -/
def parentLoop (s : Name) : Nat → Option Nat
  | 0 => some 0
  | i + 1 => if s[i]? = some ':' then (if i = 0 then none else some (i - 1)) else parentLoop s i

/-- `parent_path`, `src/compiler/sema_passes.c` 7–18. -/
def parentPath (s : Name) : Option Name := (parentLoop s s.length).map s.take

/-! ## Visibility -/

/-- `while ((temp = a->generic_module)) a = temp;`, lines 215–216. -/
def toTemplate (P : Prog) (a : Nat) : Option Nat := do
  let m ← P.modules[a]?
  match m.generic with
  | some t => toTemplate P t
  | none => some a
partial_fixpoint

/-- `while (a->name->len > b->name->len) a = a->parent_module;`, line 226. -/
def climb (P : Prog) (len : Nat) (a : Nat) : Option Nat := do
  let m ← P.modules[a]?
  if m.name.length > len then
    let p ← m.parent
    climb P len p
  else some a
partial_fixpoint

/-- `module_inclusion_match`, lines 211–228. -/
def inclusionMatch (P : Prog) (a b : Nat) : Option Bool := do
  let a ← toTemplate P a
  let b ← toTemplate P b
  let ma ← P.modules[a]?
  let mb ← P.modules[b]?
  if ma.top ≠ mb.top then some false
  else if ma.name.length < mb.name.length then
    let x ← climb P ma.name.length b
    some (x == a)
  else
    let x ← climb P mb.name.length a
    some (x == b)

/-- `kw_std__core`, `src/compiler/symtab.c` 147. -/
def stdCore : Name := "std::core".toList

/-- The loop over the parents in `decl_is_visible`, lines 250–255. -/
def underStdCore (P : Prog) (m : Nat) : Option Bool := do
  let x ← P.modules[m]?
  if x.name = stdCore then some true
  else
    match x.parent with
    | none => some false
    | some p => underStdCore P p
partial_fixpoint

/-- The loop over the imports in `decl_is_visible`, lines 256–265. -/
def importCheck (P : Prog) (isPublic : Bool) (m : Nat) : List Import → Option Bool
  | [] => some false
  | i :: is =>
    if !isPublic && !i.privAsPublic then importCheck P isPublic m is
    else if i.module = m then some true
    else if i.nonRecurse then importCheck P isPublic m is
    else do
      let b ← inclusionMatch P i.module m
      if b then some true else importCheck P isPublic m is

/-- `decl_is_visible`, lines 230–267. -/
def declIsVisible (P : Prog) (u : CUnit) (d : Decl) : Option Bool := do
  let m ← P.moduleOf d
  if m = u.module then some true
  else
    let mm ← P.modules[m]?
    if mm.generic.isSome then some false
    else if d.vis ≠ .pub then importCheck P false m u.imports
    else
      let b ← inclusionMatch P m u.module
      if b then some true
      else
        let c ← underStdCore P m
        if c then some true else importCheck P true m u.imports

/-! ## Which of several declarations is preferred -/

/-- `sema_fold_weak`, lines 269–281. -/
def foldWeak (P : Prog) (i : Nat) : Option Ty := do
  let d ← P.decls[i]?
  if d.weak then
    let t ← d.aliased
    match t with
    | .other k => some (.other k)
    | .typedef j => foldWeak P j
  else some d.type
partial_fixpoint

/-- Is the declaration in a module that was made from a generic one? -/
def inInstance (P : Prog) (d : Decl) : Option Bool := do
  let m ← P.moduleOf d
  let mm ← P.modules[m]?
  some mm.generic.isSome

/-- `sema_first_is_preferred`, lines 293–319; `none` is `BOOL_ERR`. -/
def firstIsPreferred (P : Prog) (i j : Nat) : Option Bool := do
  let d ← P.decls[i]?
  let d2 ← P.decls[j]?
  let g ← inInstance P d
  let g2 ← inInstance P d2
  if (d.auto && !d2.auto) || (g2 && !g) then some true
  else if d2.kind ≠ .typedef || !d2.weak then some false
  else
    let w2 ← foldWeak P j
    if w2 = d.type then some true
    else if d.kind ≠ .typedef || !d.weak then some false
    else
      let w ← foldWeak P i
      some (w = w2)

/-- What the loop over candidates holds: `decl` and `ambiguous`. -/
structure Cur where
  decl : Option Nat := none
  ambiguous : Option Nat := none
  deriving DecidableEq, Repr

/-- `sema_resolve_ambiguity`, lines 321–355. -/
def resolveAmbiguity (P : Prog) (c : Cur) (candidate : Nat) : Option Cur :=
  match c.decl with
  | none => some { c with decl := some candidate }
  | some original => do
    let preferred ← firstIsPreferred P candidate original
    if preferred then some ⟨some candidate, none⟩
    else if c.ambiguous.isSome then some c
    else
      let keep ← firstIsPreferred P original candidate
      if keep then some c else some { c with ambiguous := some candidate }

/-! ## The searches -/

/-- The fields of `NameResolve` that are written (`src/compiler/compiler_internal.h`), `path_found` as a flag. -/
structure Res where
  found : Option Nat := none
  ambiguous : Option Nat := none
  priv : Option Nat := none
  maybe : Option Nat := none
  pathFound : Bool := false
  deriving DecidableEq, Repr

/-- `sema_find_decl_in_module`, lines 123–130: the declaration, and whether `path_found` is set. -/
def findInModule (T : Tables) (m : Nat) (mm : Module) (path : Option Name) (sym : Name) : Option Nat × Bool :=
  match path with
  | none => (T.modules m sym, false)
  | some p =>
    if p.length > mm.name.length then (none, false)
    else if !matchesSubpath mm.name p then (none, false)
    else (T.modules m sym, true)

/-- The loop of `sema_find_decl_in_imports`, lines 138–186; `decl` is the local variable. -/
def importsLoop (P : Prog) (T : Tables) (path : Option Name) (sym : Name) (wantGeneric : Bool) :
    List Import → Option Nat → Res → Option (Option Nat × Res)
  | [], decl, r => some (decl, r)
  | i :: is, decl, r => do
    let mm ← P.modules[i.module]?
    if mm.isGeneric ≠ wantGeneric then importsLoop P T path sym wantGeneric is decl r
    else if path.isNone && (decl.isSome || !i.privAsPublic) then importsLoop P T path sym wantGeneric is decl r
    else
      let r := { r with pathFound := r.pathFound || (findInModule T i.module mm path sym).2 }
      match (findInModule T i.module mm path sym).1 with
      | none => importsLoop P T path sym wantGeneric is decl r
      | some found => do
        let d ← P.decls[found]?
        if d.vis = .loc then none
        else if d.vis ≠ .pub && decl.isSome then importsLoop P T path sym wantGeneric is decl r
        else if d.vis ≠ .pub && !i.privAsPublic then
          importsLoop P T path sym wantGeneric is decl { r with priv := some found }
        else
          match decl with
          | some cur =>
            if path.isNone then do
              let c ← resolveAmbiguity P ⟨some cur, r.ambiguous⟩ found
              importsLoop P T path sym wantGeneric is c.decl { r with ambiguous := c.ambiguous }
            else importsLoop P T path sym wantGeneric is decl { r with ambiguous := some found }
          | none => importsLoop P T path sym wantGeneric is (some found) { r with priv := none }

/-- `sema_find_decl_in_imports`, lines 132–189. -/
def findInImports (P : Prog) (T : Tables) (u : CUnit) (path : Option Name) (sym : Name) (wantGeneric : Bool) (r : Res) : Option Res := do
  let x ← importsLoop P T path sym wantGeneric u.imports none r
  some { x.2 with found := x.1 }

/-- `path && !matches_subpath(decl->unit->module->name, path)`, lines 376 and 401, negated. -/
def pathOk (P : Prog) (path : Option Name) (d : Decl) : Option Bool := do
  let m ← P.moduleOf d
  let mm ← P.modules[m]?
  match path with
  | none => some true
  | some p => some (matchesSubpath mm.name p)

/-- The loop over the candidates in `sema_find_decl_in_global`, lines 399–409: `decl` and `ambiguous`, and `maybe_decl`. -/
def globalLoop (P : Prog) (u : CUnit) (path : Option Name) : List Nat → Cur → Option Nat → Option (Cur × Option Nat)
  | [], c, maybe => some (c, maybe)
  | i :: is, c, maybe => do
    let d ← P.decls[i]?
    let ok ← pathOk P path d
    if !ok then globalLoop P u path is c maybe
    else
      let vis ← declIsVisible P u d
      if !vis then globalLoop P u path is c (some i)
      else
        let c ← resolveAmbiguity P c i
        globalLoop P u path is c maybe

/-- `sema_is_path_found`, lines 191–202, over all modules: the lists of generic and other modules are told apart by `is_generic`. -/
def isPathFound (P : Prog) (path : Name) (wantGeneric : Bool) : Bool :=
  P.modules.any fun m => m.isGeneric == wantGeneric && matchesSubpath m.name path

/-- `sema_find_decl_in_global`, lines 357–424.  `module_list` is `NULL` when there is no path. -/
def findInGlobal (P : Prog) (T : Tables) (u : CUnit) (path : Option Name) (sym : Name) (wantGeneric : Bool) (r : Res) : Option Res :=
  match T.globals sym with
  | .empty =>
    match path with
    | none => some { r with found := none }
    | some p => some { r with found := none, pathFound := r.pathFound || isPathFound P p wantGeneric }
  | .single i => do
    let d ← P.decls[i]?
    let ok ← pathOk P path d
    if !ok then some r
    else
      let vis ← declIsVisible P u d
      if !vis then
        if d.vis = .priv then some { r with priv := some i } else some { r with maybe := some i }
      else some { r with priv := none, found := some i }
  | .array is => do
    let x ← globalLoop P u path is {} none
    let r := { r with ambiguous := x.1.ambiguous, found := x.1.decl }
    match x.2 with
    | none => some { r with priv := none, maybe := none }
    | some i => do
      let d ← P.decls[i]?
      if d.vis = .priv then some { r with priv := some i, maybe := none } else some { r with priv := none, maybe := some i }

/-- `kw_std`. -/
def std : Name := "std".toList

/-- `sema_resolve_path_symbol`, lines 426–460.  The table of `compiler.context.std_module` is never filled. -/
def resolvePath (P : Prog) (T : Tables) (f : Nat) (path : Name) (sym : Name) (r : Res) : Option Res := do
  let u ← P.units[f]?
  let r := { r with ambiguous := none, pathFound := false, found := none }
  if path = std then some { r with pathFound := true }
  else
    let mm ← P.modules[u.module]?
    let own := matchesSubpath mm.name path
    if own && (T.modules u.module sym).isSome then some { r with found := T.modules u.module sym }
    else
      let r := if own then { r with pathFound := true } else r
      let r ← findInImports P T u (some path) sym false r
      if r.found.isSome then some r
      else findInGlobal P T u (some path) sym false r

/-- A local variable: `VARDECL_ERASE`, `VARDECL_REWRAPPED` with its `alias`, or another. -/
inductive Local where
  | erase (name : Name)
  | rewrapped (name : Name) (alias_ : Nat)
  | plain (name : Name) (id : Nat)
  deriving DecidableEq, Repr

/-- `cur->name`. -/
def Local.name : Local → Name
  | .erase n => n
  | .rewrapped n _ => n
  | .plain n _ => n

/-- `sema_find_local`, lines 472–499, for a name that does not begin with `$`: `locals` are the variables of `context->locals` below
`current_local`, the last one first. -/
def findLocal (sym : Name) : List Local → Option Nat
  | [] => none
  | l :: ls =>
    if l.name = sym then
      match l with
      | .erase _ => none
      | .rewrapped _ a => some a
      | .plain _ i => some i
    else findLocal sym ls

/-- What a name stands for: a local variable, or a declaration; or which error is reported. -/
inductive Outcome where
  | local_ (id : Nat)
  | decl (d : Nat)
  | ambiguous (d other : Nat)
  | private_ (d : Nat)
  | notImported (d : Nat)
  | noModule
  | notFound
  deriving DecidableEq, Repr

/-- `sema_resolve_no_path_symbol`, lines 501–533. -/
def resolveNoPath (P : Prog) (T : Tables) (f : Nat) (locals : List Local) (sym : Name) (r : Res) : Option (Option Nat × Res) := do
  let u ← P.units[f]?
  match findLocal sym locals with
  | some i => some (some i, r)
  | none =>
    if (T.files f sym).isSome then some (none, { r with found := T.files f sym })
    else if (T.modules u.module sym).isSome then some (none, { r with found := T.modules u.module sym })
    else
      let r ← findInImports P T u none sym false r
      if r.found.isSome then some (none, r)
      else
        let r ← findInGlobal P T u none sym false r
        some (none, r)

/-- The end of `sema_resolve_symbol_common`, lines 791–799, and `sema_report_error_on_decl`, lines 627–737. -/
def outcome (r : Res) : Outcome :=
  match r.found, r.ambiguous with
  | some d, none => .decl d
  | some d, some o => .ambiguous d o
  | none, _ =>
    match r.priv with
    | some d => .private_ d
    | none =>
      match r.maybe with
      | some d => .notImported d
      | none => .notFound

/-- `sema_resolve_symbol_common`, lines 738–807.  Left out: the errors that are reported when the path names a generic module or an
imported one that has no such name (they are `noModule` here), `unit_register_external_symbol`, and the error for names that depend on
`@if` in an `@if`. -/
def resolve (P : Prog) (T : Tables) (f : Nat) (locals : List Local) (path : Option Name) (sym : Name) : Option Outcome :=
  match path with
  | some p => do
    let r ← resolvePath P T f p sym {}
    if r.found.isNone && r.maybe.isNone && r.priv.isNone && !r.pathFound then some .noModule else some (outcome r)
  | none => do
    let x ← resolveNoPath P T f locals sym {}
    match x.1 with
    | some i => some (.local_ i)
    | none => some (outcome x.2)

end C3.NameRes
