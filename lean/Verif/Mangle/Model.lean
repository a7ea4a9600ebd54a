/-!
# Mangled names

Model of the names the compiler derives from types, declarations and the
arguments of generic modules.  Two things are decided by comparing these names:
which symbol of the object files a declaration or a `typeid` denotes, and
whether two uses of a generic module share one instance.

Names are lists of characters.  The program's own declarations are given by
what the code reads of them: the module, the name, the file (two `@local`
declarations of one module may have the same name in different files), and
the `@extern`, `@export` and external name fields.
-/

set_option autoImplicit false

namespace C3.Mangle

/-- Interned C strings. -/
abbrev Name := List Char

/-- The types named by `type->name` in a mangled name: the cases TYPE_VOID,
TYPE_BOOL, ALL_INTS, ALL_FLOATS, TYPE_ANYFAULT and TYPE_TYPEID of
`type_mangle_introspect_name_to_buffer`, src/compiler/types.c 562–568. -/
inductive Basic
  | void | bool | ichar | short | int | long | int128
  | char | ushort | uint | ulong | uint128
  | float16 | bfloat | float | double | float128 | fault | typeid
deriving DecidableEq, Repr

/-- `type->name` of these types: `type_setup`, src/compiler/types.c 1348–1374
and 1388 (`fault`). -/
def Basic.name : Basic → Name
  | .void => "void".toList
  | .bool => "bool".toList
  | .ichar => "ichar".toList
  | .short => "short".toList
  | .int => "int".toList
  | .long => "long".toList
  | .int128 => "int128".toList
  | .char => "char".toList
  | .ushort => "ushort".toList
  | .uint => "uint".toList
  | .ulong => "ulong".toList
  | .uint128 => "uint128".toList
  | .float16 => "float16".toList
  | .bfloat => "bfloat".toList
  | .float => "float".toList
  | .double => "double".toList
  | .float128 => "float128".toList
  | .fault => "fault".toList
  | .typeid => "typeid".toList

mutual

/-- Canonical types, `struct Type_` of src/compiler/compiler_internal.h.  The
user defined kinds (enum, struct, union, bitstruct, distinct, interface) are
one constructor holding the fields of `Decl` that are read: file of the unit,
module, name, `extname`, `is_extern`, `is_export`.  `func` is a function type
or a pointer to it (both are mangled alike), given by its prototype: return
type, parameters, and whether it has raw variadic arguments. -/
inductive Ty
  | basic (b : Basic)
  | any
  | ptr (t : Ty)
  | slice (t : Ty)
  | flex (t : Ty)
  | opt (t : Ty)
  | vec (n : Nat) (t : Ty)
  | arr (n : Nat) (t : Ty)
  | func (r : Ty) (ps : Tys) (raw : Bool)
  | user (file : Nat) (m : Mod) (name : Name) (ext : Option Name) (isExtern isExport : Bool)

/-- Lists of types. -/
inductive Tys
  | nil
  | cons (t : Ty) (ts : Tys)

/-- Modules: written ones, with the identifiers of their path and `extname`,
and the instances of generic modules, with the path and `extname` of the
generic module and the arguments. -/
inductive Mod
  | plain (path : List Name) (ext : Option Name)
  | inst (path : List Name) (ext : Option Name) (args : Args)

/-- Argument lists of generic modules. -/
inductive Args
  | nil
  | cons (a : Arg) (as : Args)

/-- Arguments of generic modules: types, and constants which are bool, enum
values (the type and the name of the value), faults (the module and the name)
and integers (with their type). -/
inductive Arg
  | type (t : Ty)
  | bool (b : Bool)
  | enum (t : Ty) (value : Name)
  | fault (m : Mod) (name : Name)
  | int (b : Basic) (v : Int)

end

/-- The path of a module as it is written: `Path.module`. -/
def pathText : List Name → Name
  | [] => []
  | [s] => s
  | s :: ss => s ++ ':' :: ':' :: pathText ss

/-- The loop of `scratch_buffer_append_module`, src/compiler/module.c 20–39.
`skip` is set after the `name++` of the case ':'.  The assertion that ':' is
followed by ':' is not modelled: paths are made of identifiers separated by
"::". -/
def appendLoop (isExport : Bool) : (skip : Bool) → Name → Name
  | _, [] => []
  | true, _ :: rest => appendLoop isExport false rest
  | false, c :: rest =>
    if c = ':' then (if isExport then '_' else '.') :: appendLoop isExport true rest
    else if c = '.' then (if isExport then '_' else '.') :: appendLoop isExport false rest
    else c :: appendLoop isExport false rest

/-- `scratch_buffer_append_module`, src/compiler/module.c 13–40, given
`module->extname` and `module->name->module`. -/
def appendModule (isExport : Bool) (ext : Option Name) (text : Name) : Name :=
  match ext with
  | some e => e
  | none => appendLoop isExport false text

/-- `scratch_buffer_set_extern_decl_name`, src/compiler/ast.c 462–498, for a
declaration which is not a method, given the module's text. -/
def declName (ext : Option Name) (isExtern isExport : Bool) (modExt : Option Name)
    (modText : Name) (name : Name) : Name :=
  match ext with
  | some e => e
  | none =>
    if isExtern then name
    else
      appendModule isExport modExt modText ++
        (if isExport then ['_', '_'] else ['.']) ++ name

/-- `scratch_buffer_append_unsigned_int`: decimal digits. -/
def digits (n : Nat) : Name := Nat.toDigits 10 n


mutual

/-- `type_append_name_to_scratch`, src/compiler/types.c 111–179. -/
def Ty.shown : Ty → Name
  | .basic b => b.name
  | .any => "any".toList
  | .ptr t => t.shown ++ ['*']
  | .slice t => t.shown ++ ['[', ']']
  | .flex t => t.shown ++ ['[', '*', ']']
  | .opt t => t.shown ++ ['!']
  | .vec n t => t.shown ++ ('[' :: '<' :: digits n) ++ ['>', ']']
  | .arr n t => t.shown ++ ('[' :: digits n) ++ [']']
  | .func r ps raw => r.shown ++ '(' :: ps.shownShort raw ++ [')']
  | .user _ _ name _ _ _ => name

/-- `type_append_func_to_scratch`, src/compiler/types.c 183–202: the parameters,
separated by ",", of a function type within another one. -/
def Tys.shownShort (raw : Bool) : Tys → Name
  | .nil => []
  | .cons t .nil => if raw then t.shown ++ [','] else t.shown
  | .cons t ts => t.shown ++ ',' :: ts.shownShort raw

/-- The parameters, separated by ", ": src/compiler/sema_types.c 648–652. -/
def Tys.shown : Tys → Name
  | .nil => []
  | .cons t .nil => t.shown
  | .cons t ts => t.shown ++ ',' :: ' ' :: ts.shown

end

/-- `char_is_alphanum_`, src/utils/lib.h. -/
def wordChar (c : Char) : Bool :=
  (('a' ≤ c && c ≤ 'z') || ('A' ≤ c && c ≤ 'Z')) || ('0' ≤ c && c ≤ '9') || c == '_'

/-- The loop over the name of a function type, src/compiler/types.c 612–631. -/
def funcChars : Name → Name
  | [] => []
  | c :: rest =>
    if wordChar c then c :: funcChars rest
    else if c = '$' then '$' :: '$' :: funcChars rest
    else '$' :: funcChars rest

/-- The name of a raw function type: `func_create_new_func_proto`,
src/compiler/sema_types.c 644–654. -/
def funcName (r : Ty) (ps : Tys) : Name :=
  "fn ".toList ++ r.shown ++ '(' :: ps.shown ++ [')']

/-- An integer argument, sema_decls.c 4790–4811: the decimal value, with '_'
for '-'.  The value is the mathematical one; printing of 128 bit numbers is
modelled in `Verif.Bigint`. -/
def intText (v : Int) : Name :=
  if v < 0 then '_' :: digits v.natAbs else digits v.natAbs

mutual

/-- `type_mangle_introspect_name_to_buffer`, src/compiler/types.c 552–643.  The
branch for `type->function.decl` is not modelled: raw function types are made
without a declaration (sema_types.c 654). -/
def Ty.mangle : Ty → Name
  | .any => ['a', 'n', 'y', '$']
  | .basic b => b.name
  | .ptr t => 'p' :: '$' :: t.mangle
  | .slice t => 's' :: 'a' :: '$' :: t.mangle
  | .flex t => 'a' :: '0' :: '$' :: t.mangle
  | .opt t => 'f' :: '$' :: t.mangle
  | .vec n t => 'v' :: digits n ++ '$' :: t.mangle
  | .arr n t => 'a' :: digits n ++ '$' :: t.mangle
  | .func r ps _ => funcChars (funcName r ps)
  | .user _ m name ext isExtern isExport =>
    declName ext isExtern isExport m.ext m.text name

/-- `module->name->module`: the written path, or the name generated for the
instance. -/
def Mod.text : Mod → Name
  | .plain path _ => pathText path
  | .inst path ext args =>
    appendModule true ext (pathText path) ++ '$' :: args.text ++ ['$']

/-- `module->extname`; instances have none: `module_instantiate_generic` makes
the module without it (sema_decls.c 4663). -/
def Mod.ext : Mod → Option Name
  | .plain _ ext => ext
  | .inst _ _ _ => none

/-- The loop over the parameters: sema_decls.c 4740–4813. -/
def Args.text : Args → Name
  | .nil => []
  | .cons a .nil => a.text
  | .cons a as => a.text ++ '$' :: as.text

/-- One parameter: sema_decls.c 4746–4812, with `mangled` set. -/
def Arg.text : Arg → Name
  | .type t => t.mangle
  | .bool b => if b then ['t'] else ['f']
  | .enum t value => t.mangle ++ '_' :: value
  | .fault _ name => Basic.fault.name ++ '_' :: name
  | .int _ v => intText v

end

/-- `sema_generate_parameterized_name_to_scratch` with `mangled` set,
src/compiler/sema_decls.c 4686–4815: the name of the instance of a generic
module. -/
def instName (path : List Name) (ext : Option Name) (args : Args) : Name :=
  appendModule true ext (pathText path) ++ '$' :: args.text ++ ['$']

/-- The instance a use of a generic module gets: `global_context_find_module`
of the generated name, and a new module when there is none.
`sema_analyse_parameterized_identifier`, src/compiler/sema_decls.c 4893–4909.
`known` are the modules in the order they were made. -/
def instantiate (known : List Mod) (path : List Name) (ext : Option Name) (args : Args) :
    Mod × List Mod :=
  match known.find? (fun m => m.text == instName path ext args) with
  | some m => (m, known)
  | none => (.inst path ext args, known ++ [.inst path ext args])

/-- The symbol of a `typeid`: `llvm_get_introspection_global`,
src/compiler/llvm_codegen_type.c 437–439 and 453–455. -/
def typeidSymbol (t : Ty) : Name := "$ct.".toList ++ t.mangle

/-- A global declaration: function, method (with the parent type), variable or
constant. -/
structure GDecl where
  m : Mod
  name : Name
  parent : Option Ty := none
  ext : Option Name := none
  isExtern : Bool := false
  isExport : Bool := false

/-- User defined types: `type_is_user_defined`. -/
def Ty.isUser : Ty → Bool
  | .user .. => true
  | _ => false

/-- The module of a user defined type's declaration, otherwise the given one. -/
def Ty.home (t : Ty) (m : Mod) : Mod :=
  match t with
  | .user _ m' _ _ _ _ => m'
  | _ => m

/-- `scratch_buffer_set_extern_decl_name`, src/compiler/ast.c 462–498: the name
in the object file of a function, method or variable. -/
def GDecl.symbol (d : GDecl) : Name :=
  match d.parent with
  | none => declName d.ext d.isExtern d.isExport d.m.ext d.m.text d.name
  | some p =>
    match d.ext with
    | some e => e
    | none =>
      if d.isExtern then d.name
      else
        let m := p.home d.m
        appendModule d.isExport m.ext m.text ++
          (if d.isExport then ['_', '_'] else ['.']) ++ p.shown ++
          (if d.isExport then ['_', '_'] else ['.']) ++ d.name

end C3.Mangle
