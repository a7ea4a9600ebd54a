import Verif.Mangle.LemmasUse

/-!
# Properties of mangled names
-/

set_option autoImplicit false

namespace C3.Mangle

/-! ## A small program -/

theorem word_of {w : Name} (h : w ≠ [] ∧ w.all wordChar = true) : Word w :=
  ⟨h.1, fun c hc => List.all_eq_true.1 h.2 c hc⟩

theorem simple_of {w : Name} (h : w ≠ [] ∧ w.all wordChar = true) (hp : '_' ∉ w) (hl : Low w) :
    Simple w := ⟨word_of h, hp, hl⟩

theorem not_code_of {w : Name} (h : 'l' ∈ w ∧ 't' ∈ w ∧ 's' ∈ w) : ¬ Code w := by
  obtain ⟨h1, h2, h3⟩ := h
  intro c
  cases c with
  | basic b => cases b <;> revert h1 h2 h3 <;> decide
  | vec n =>
    rcases List.mem_cons.1 h1 with e | e
    · exact absurd e (by decide)
    · exact absurd (digits_digit e) (by decide)
  | arr n =>
    rcases List.mem_cons.1 h1 with e | e
    · exact absurd e (by decide)
    · exact absurd (digits_digit e) (by decide)
  | _ => revert h1; decide

/-- The module `std::collections::list` has one parameter, a type, the module
`list` an integer and an enum value, and every type is declared in the first
file. -/
def demoProgram : Program where
  file _ _ := 0
  kinds p := if p = [['l', 'i', 's', 't']] then [false, false] else [true]
  intType _ := .int

/-- `my_app::Color`. -/
def demoColor : Ty :=
  .user 0 (.plain [['m', 'y', '_', 'a', 'p', 'p']] none) ['C', 'o', 'l', 'o', 'r'] none false false

/-- `List {T}`. -/
def demoList (t : Ty) : Ty :=
  .user 0 (.inst [['s', 't', 'd'], ['l', 'i', 's', 't']] none (.cons (.type t) .nil))
    ['L', 'i', 's', 't'] none false false

/-- `Sized {-3, RED}`. -/
def demoSized : Ty :=
  .user 0 (.inst [['l', 'i', 's', 't']] none
    (.cons (.int .int (-3)) (.cons (.enum demoColor ['R', 'E', 'D']) .nil)))
    ['S', 'i', 'z', 'e', 'd'] none false false

theorem demoColor_good : demoColor.Good demoProgram := by
  refine ⟨rfl, rfl, rfl, rfl, word_of (by decide), rfl, by simp, ?_⟩
  intro s hs
  rw [List.mem_singleton.1 hs]; exact word_of (by decide)

theorem demoList_good {t : Ty} (h : t.Good demoProgram) : (demoList t).Good demoProgram := by
  refine ⟨rfl, rfl, rfl, rfl, word_of (by decide), rfl, by simp, ?_, ?_, rfl, h, trivial⟩
  · intro s hs
    simp only [List.mem_cons, List.not_mem_nil, or_false] at hs
    rcases hs with e | e <;> subst e
    · exact simple_of (by decide) (by decide) ⟨_, rfl, by decide, by decide⟩
    · exact simple_of (by decide) (by decide) ⟨_, rfl, by decide, by decide⟩
  · intro s e; simp at e

theorem demoSized_good : demoSized.Good demoProgram := by
  refine ⟨rfl, rfl, rfl, rfl, word_of (by decide), rfl, by simp, ?_, ?_, rfl, rfl,
    ⟨⟨rfl, rfl, rfl, rfl, word_of (by decide), rfl, by simp, ?_⟩, by decide, word_of (by decide)⟩,
    trivial⟩
  · intro s hs
    rw [List.mem_singleton.1 hs]
    exact simple_of (by decide) (by decide) ⟨_, rfl, by decide, by decide⟩
  · intro s e
    rw [← (List.cons.inj e).1]; exact not_code_of (by decide)
  · intro s hs
    rw [List.mem_singleton.1 hs]; exact word_of (by decide)

/-! ## C67: the symbols of type ids -/

/-- Different types have different `typeid` symbols, for types as in
`Ty.Good`.  What is missing is shown by the theorems after this one. -/
theorem C67_typeid_partial (P : Program) (t t' : Ty) (h : t.Good P) (h' : t'.Good P) :
    typeidSymbol t = typeidSymbol t' ↔ t = t' := by
  constructor
  · intro e
    rw [typeidSymbol, typeidSymbol] at e
    have e := List.append_cancel_left e
    exact (Ty.inj P t t' [] [] h h' (Or.inl rfl) (Or.inl rfl) (by simpa using e)).1
  · intro e; rw [e]

example : (Ty.arr 4 (.ptr (demoList demoColor))).Good demoProgram ∧
    (Ty.vec 4 (.slice demoSized)).Good demoProgram ∧
    typeidSymbol (.arr 4 (.ptr (demoList demoColor))) =
      "$ct.a4$p$std_list$my_app.Color$.List".toList ∧
    typeidSymbol (.slice demoSized) = "$ct.sa$list$_3$my_app.Color_RED$.Sized".toList := by
  refine ⟨⟨by decide, demoList_good demoColor_good⟩, demoSized_good, by decide, by decide⟩

/-- Two `@local` types of a module with the same name, declared in different
files, have one symbol. -/
theorem C67_local_types (f f' : Nat) (hf : f ≠ f') (m : Mod) (name : Name) :
    Ty.user f m name none false false ≠ Ty.user f' m name none false false ∧
    typeidSymbol (.user f m name none false false) =
      typeidSymbol (.user f' m name none false false) := by
  refine ⟨fun e => hf ?_, rfl⟩
  injection e

example : typeidSymbol demoColor = typeidSymbol (.user 1 (.plain [['m', 'y', '_', 'a', 'p', 'p']] none)
    ['C', 'o', 'l', 'o', 'r'] none false false) := by decide

/-- Function types whose parameters are types of the same name in different
modules have one symbol. -/
theorem C67_function_types (f f' : Nat) (m m' : Mod) (hm : m ≠ m') (name : Name) (r : Ty)
    (raw : Bool) :
    Ty.func r (.cons (.user f m name none false false) .nil) raw ≠
      Ty.func r (.cons (.user f' m' name none false false) .nil) raw ∧
    typeidSymbol (.func r (.cons (.user f m name none false false) .nil) raw) =
      typeidSymbol (.func r (.cons (.user f' m' name none false false) .nil) raw) := by
  refine ⟨fun e => hm ?_, ?_⟩
  · injection e with _ e; injection e with e; injection e
  · simp [typeidSymbol, Ty.mangle, funcName, Tys.shown, Ty.shown]

example : Mod.plain [['a']] none ≠ .plain [['b']] none ∧
    typeidSymbol (.func (.basic .void)
      (.cons (.user 0 (.plain [['a']] none) ['F', 'o', 'o'] none false false) .nil) false) =
      "$ct.fn$void$Foo$".toList := ⟨by simp, by decide⟩

/-- Whether a function takes raw variadic arguments is not in the symbol. -/
theorem C67_variadic_types (r : Ty) (ps : Tys) :
    Ty.func r ps false ≠ Ty.func r ps true ∧
    typeidSymbol (.func r ps false) = typeidSymbol (.func r ps true) := by
  refine ⟨fun e => by injection e; contradiction, ?_⟩
  simp [typeidSymbol, Ty.mangle]

example : typeidSymbol (.func (.basic .int) (.cons (.ptr (.basic .char)) .nil) true) =
    "$ct.fn$int$char$$".toList := by decide

theorem funcChars_append (a b : Name) : funcChars (a ++ b) = funcChars a ++ funcChars b := by
  induction a with
  | nil => rfl
  | cons c a ih =>
    rw [List.cons_append, funcChars, funcChars]
    split
    · rw [ih]; rfl
    · split
      · rw [ih]; rfl
      · rw [ih]; rfl

/-- A function of a slice and a function of a pointer to a pointer have one
symbol. -/
theorem C67_slice_or_pointer (r t : Ty) (raw : Bool) :
    Ty.func r (.cons (.slice t) .nil) raw ≠ Ty.func r (.cons (.ptr (.ptr t)) .nil) raw ∧
    typeidSymbol (.func r (.cons (.slice t) .nil) raw) =
      typeidSymbol (.func r (.cons (.ptr (.ptr t)) .nil) raw) := by
  refine ⟨fun e => ?_, ?_⟩
  · injection e with _ e; injection e with e; cases e
  · have h1 : funcChars ['[', ']'] = ['$', '$'] := by decide
    have h2 : funcChars ['*'] = ['$'] := by decide
    simp [typeidSymbol, Ty.mangle, funcName, Tys.shown, Ty.shown, funcChars_append, funcChars]
    simp [wordChar]

example : typeidSymbol (.func (.basic .void) (.cons (.slice (.basic .int)) .nil) false) =
    "$ct.fn$void$int$$$".toList ∧
    typeidSymbol (.func (.basic .void) (.cons (.ptr (.ptr (.basic .int))) .nil) false) =
    "$ct.fn$void$int$$$".toList := by decide

/-- Types given the same external name have one symbol. -/
theorem C67_extern_types (f f' : Nat) (m m' : Mod) (n n' e : Name) (hn : n ≠ n') :
    Ty.user f m n (some e) true false ≠ Ty.user f' m' n' (some e) true false ∧
    typeidSymbol (.user f m n (some e) true false) =
      typeidSymbol (.user f' m' n' (some e) true false) := by
  refine ⟨fun h => hn ?_, ?_⟩
  · injection h
  · simp [typeidSymbol, Ty.mangle, declName]

example : typeidSymbol (.user 0 (.plain [['a']] none) ['F'] (some ['X']) true false) =
    typeidSymbol (.user 0 (.plain [['b']] none) ['G'] (some ['X']) true false) := by decide

/-- Exported types of the modules `a::b` and `a_b` have one symbol. -/
theorem C67_export_types (f f' : Nat) (a b n : Name) (ha : Word a) (hb : Word b) :
    Ty.user f (.plain [a, b] none) n none false true ≠
      Ty.user f' (.plain [a ++ '_' :: b] none) n none false true ∧
    typeidSymbol (.user f (.plain [a, b] none) n none false true) =
      typeidSymbol (.user f' (.plain [a ++ '_' :: b] none) n none false true) := by
  refine ⟨fun e => ?_, ?_⟩
  · injection e with _ e; injection e with e; simp at e
  · have h1 := appendLoop_path_true (ws := [a, b])
      (by intro w hw; simp at hw; rcases hw with rfl | rfl <;> assumption)
    have h2 := appendLoop_path_true (ws := [a ++ '_' :: b]) (word_one (word_enum ha hb))
    simp only [typeidSymbol, Ty.mangle, declName, Mod.ext, Mod.text, appendModule]
    rw [h1, h2]
    simp [joined]

example : Word ['a'] ∧ Word ['b', '1'] := ⟨word_of (by decide), word_of (by decide)⟩

/-- The type `Name` of the instance of a module `p` for `true` and a type, and
the pointer to the type `Name` of the instance of a module `t` for the type,
have one symbol. -/
theorem C67_nested_types (P : Program) (t : Ty) (h : t.Good P) (n : Name) :
    Ty.user 0 (.inst [['p']] none (.cons (.bool true) (.cons (.type t) .nil))) n none false false ≠
      Ty.ptr (.user 0 (.inst [['t']] none (.cons (.type t) .nil)) n none false false) ∧
    typeidSymbol
      (.user 0 (.inst [['p']] none (.cons (.bool true) (.cons (.type t) .nil))) n none false false) =
    typeidSymbol (.ptr (.user 0 (.inst [['t']] none (.cons (.type t) .nil)) n none false false)) := by
  refine ⟨(by intro e; cases e), ?_⟩
  have hc := Ty.colon P t h
  have e1 : appendLoop true false (pathText [['p']]) = ['p'] := by decide
  have e2 : appendLoop true false (pathText [['t']]) = ['t'] := by decide
  have h1 : appendLoop false false ('p' :: '$' :: 't' :: '$' :: (t.mangle ++ ['$'])) =
      'p' :: '$' :: 't' :: '$' :: (t.mangle ++ ['$']) := appendLoop_id (by simp [hc])
  have h2 : appendLoop false false ('t' :: '$' :: (t.mangle ++ ['$'])) =
      't' :: '$' :: (t.mangle ++ ['$']) := appendLoop_id (by simp [hc])
  simp [typeidSymbol, Ty.mangle, declName_plain, Mod.text, Mod.ext, appendModule, e1, e2,
    Args.text, Arg.text, h1, h2]

example : typeidSymbol (.ptr (.user 0 (.inst [['t']] none (.cons (.type (.basic .int)) .nil))
    ['F', 'o', 'o'] none false false)) = "$ct.p$t$int$.Foo".toList := by decide

/-! ## C68: instances of generic modules -/

/-- Uses of generic modules with the same arguments get the same instance. -/
theorem C68_same (known : List Mod) (us : List Use) (i j : Nat) (u : Use)
    (hi : us[i]? = some u) (hj : us[j]? = some u) :
    (instantiateAll known us)[i]? = (instantiateAll known us)[j]? := by
  rcases Nat.le_total i j with h | h
  · exact same_use h hi hj
  · exact (same_use h hj hi).symm

example : instantiateAll [] [⟨[['l']], .cons (.bool true) .nil⟩, ⟨[['l']], .cons (.bool false) .nil⟩,
    ⟨[['l']], .cons (.bool true) .nil⟩] =
    [.inst [['l']] none (.cons (.bool true) .nil), .inst [['l']] none (.cons (.bool false) .nil),
      .inst [['l']] none (.cons (.bool true) .nil)] := rfl

/-- Each use gets the instance for its own arguments, so that uses share an
instance only if the generic module and the arguments are the same.  For
arguments as in `Arg.Good`; what is missing is shown by the theorems after this
one. -/
theorem C68_instances_partial (P : Program) (known : List Mod) (us : List Use)
    (hk : ∀ m ∈ known, m.Good P) (hu : ∀ u ∈ us, u.inst.Good P) :
    instantiateAll known us = us.map Use.inst :=
  instantiateAll_eq us known hk hu

/-- Uses of `list {int}`, `list {my_app::Color*}` and again `list {int}`. -/
def demoUses : List Use :=
  [⟨[['s', 't', 'd'], ['l', 'i', 's', 't']], .cons (.type (.basic .int)) .nil⟩,
    ⟨[['s', 't', 'd'], ['l', 'i', 's', 't']], .cons (.type (.ptr demoColor)) .nil⟩,
    ⟨[['s', 't', 'd'], ['l', 'i', 's', 't']], .cons (.type (.basic .int)) .nil⟩]

example : ∀ u ∈ demoUses, u.inst.Good demoProgram := by
  have h1 : (demoList (.basic .int)).Good demoProgram := demoList_good trivial
  have h2 : (demoList (.ptr demoColor)).Good demoProgram := demoList_good demoColor_good
  intro u hu
  simp only [demoUses, List.mem_cons, List.not_mem_nil, or_false] at hu
  rcases hu with rfl | rfl | rfl
  · exact h1.2.2.2.2.2
  · exact h2.2.2.2.2.2
  · exact h1.2.2.2.2.2

/-- Two uses share the instance made for the first though they should not. -/
def Confused (u u' : Use) : Prop :=
  u.inst ≠ u'.inst ∧ instantiateAll [] [u, u'] = [u.inst, u.inst]

theorem confused {u u' : Use} (h : u.inst ≠ u'.inst)
    (e : instName u'.path none u'.args = instName u.path none u.args) : Confused u u' :=
  ⟨h, shares e⟩

/-- The instance for one `@local` type is used for another of that name. -/
theorem C68_local_types (path : List Name) (f f' : Nat) (hf : f ≠ f') (m : Mod) (name : Name) :
    Confused ⟨path, .cons (.type (.user f m name none false false)) .nil⟩
      ⟨path, .cons (.type (.user f' m name none false false)) .nil⟩ := by
  refine confused (fun e => hf ?_) rfl
  injection e with _ _ e; injection e with e; injection e with e; injection e

example : Confused ⟨[['l']], .cons (.type demoColor) .nil⟩ ⟨[['l']], .cons (.type (.user 1
    (.plain [['m', 'y', '_', 'a', 'p', 'p']] none) ['C', 'o', 'l', 'o', 'r'] none false false)) .nil⟩ :=
  C68_local_types _ 0 1 (by decide) _ _

/-- The instance of the module `a::b` is used for `a_b`. -/
theorem C68_module_paths (a b : Name) (ha : Word a) (hb : Word b) (args : Args) :
    Confused ⟨[a, b], args⟩ ⟨[a ++ '_' :: b], args⟩ := by
  refine confused (fun e => ?_) ?_
  · injection e with e; simp at e
  · rw [instName_eq, instName_eq]
    · simp [joined]
    · intro w hw; simp at hw; rcases hw with rfl | rfl <;> assumption
    · exact word_one (word_enum ha hb)

example : instName [['a'], ['b']] none (.cons (.type (.basic .int)) .nil) =
    instName [['a', '_', 'b']] none (.cons (.type (.basic .int)) .nil) := by decide

/-- The instance for a fault is used for the fault of the same name of another
module. -/
theorem C68_faults (path : List Name) (m m' : Mod) (hm : m ≠ m') (name : Name) :
    Confused ⟨path, .cons (.fault m name) .nil⟩ ⟨path, .cons (.fault m' name) .nil⟩ := by
  refine confused (fun e => hm ?_) ?_
  · injection e with _ _ e; injection e with e; injection e
  · simp [instName, Args.text, Arg.text]

example : instName [['l']] none (.cons (.fault (.plain [['i', 'o']] none) ['E', 'O', 'F']) .nil) =
    "l$fault_EOF$".toList := by decide

/-- The instance for the value `Y_Z` of an enum `X` is used for the value `Z` of
the enum `X_Y`. -/
theorem C68_enums (path : List Name) (f f' : Nat) (m : Mod) (x y z : Name) :
    Confused
      ⟨path, .cons (.enum (.user f m x none false false) (y ++ '_' :: z)) .nil⟩
      ⟨path, .cons (.enum (.user f' m (x ++ '_' :: y) none false false) z) .nil⟩ := by
  refine confused (fun e => ?_) ?_
  · injection e with _ _ e; injection e with e; injection e with e; injection e with _ _ e
    have := congrArg List.length e
    simp at this
  · simp [instName, Args.text, Arg.text, Ty.mangle, declName_plain]

example : instName [['l']] none (.cons (.enum (.user 0 (.plain [['a']] none) ['F', 'o'] none false
    false) ['B', '_', 'X']) .nil) = "l$a.Fo_B_X$".toList := by decide

/-- The instance for an integer is used for the same value of another type. -/
theorem C68_integers (path : List Name) (b b' : Basic) (hb : b ≠ b') (v : Int) :
    Confused ⟨path, .cons (.int b v) .nil⟩ ⟨path, .cons (.int b' v) .nil⟩ := by
  refine confused (fun e => hb ?_) ?_
  · injection e with _ _ e; injection e with e; injection e
  · simp [instName, Args.text, Arg.text]

example : Confused ⟨[['l']], .cons (.int .char 5) .nil⟩ ⟨[['l']], .cons (.int .long 5) .nil⟩ :=
  C68_integers _ _ _ (by decide) _

/-- The instance for a function type is used for the function type of a type of
the same name of another module. -/
theorem C68_function_types (path : List Name) (f f' : Nat) (m m' : Mod) (hm : m ≠ m')
    (name : Name) (r : Ty) (raw : Bool) :
    Confused
      ⟨path, .cons (.type (.func r (.cons (.user f m name none false false) .nil) raw)) .nil⟩
      ⟨path, .cons (.type (.func r (.cons (.user f' m' name none false false) .nil) raw)) .nil⟩ := by
  refine confused (fun e => hm ?_) ?_
  · injection e with _ _ e; injection e with e; injection e with e; injection e with _ e
    injection e with e; injection e
  · simp [instName, Args.text, Arg.text, Ty.mangle, funcName, Tys.shown, Ty.shown]

example : instName [['l']] none (.cons (.type (.func (.basic .void) (.cons demoColor .nil) false)) .nil) =
    "l$fn$void$Color$$".toList := by decide

/-! ## C69: the symbols of functions and variables -/

/-- Declarations with the same symbol have the same name, are methods of the
same type or no methods, and are in the same module (for methods of a user
defined type: the module of the type).  For declarations as in `GDecl.Good`;
what is missing is shown by the theorems after this one. -/
theorem C69_symbols_partial (P : Program) (d d' : GDecl) (h : d.Good P) (h' : d'.Good P)
    (e : d.symbol = d'.symbol) : d.home = d'.home ∧ d.parent = d'.parent ∧ d.name = d'.name :=
  symbol_inj h h' e

/-- The method `run` of `my_app::Color`, declared by another module. -/
def demoMethod : GDecl where
  m := .plain [['m', 'a', 'i', 'n']] none
  name := ['r', 'u', 'n']
  parent := some demoColor

example : demoMethod.Good demoProgram ∧ demoMethod.symbol = "my_app.Color.run".toList := by
  refine ⟨⟨rfl, rfl, rfl, word_of (by decide), demoColor_good.2.2.2.2.2, ?_, ?_⟩, by decide⟩
  · intro path e h s hs
    injection h with h
    rw [← h, List.mem_singleton] at hs
    subst hs
    refine ⟨⟨_, rfl, by decide, by decide⟩, ?_⟩
    intro c
    have hx : '_' ∈ ['m', 'y', '_', 'a', 'p', 'p'] := by decide
    revert hx
    generalize ['m', 'y', '_', 'a', 'p', 'p'] = w at c
    cases c with
    | basic b => cases b <;> decide
    | any => decide
  · intro t ht
    injection ht with ht
    subst ht
    refine ⟨.user _ _ _ ?_, demoColor_good⟩
    rintro ⟨c, h1, h2, _⟩
    injection h1 with h1
    subst h1
    exact absurd h2 (by decide)

/-- Exported declarations of the modules `a::b` and `a_b` have one symbol. -/
theorem C69_exported (a b n : Name) (ha : Word a) (hb : Word b) :
    (GDecl.mk (.plain [a, b] none) n none none false true).symbol =
      (GDecl.mk (.plain [a ++ '_' :: b] none) n none none false true).symbol := by
  have h1 := appendLoop_path_true (ws := [a, b])
    (by intro w hw; simp at hw; rcases hw with rfl | rfl <;> assumption)
  have h2 := appendLoop_path_true (ws := [a ++ '_' :: b]) (word_one (word_enum ha hb))
  simp only [GDecl.symbol, declName, Mod.ext, Mod.text, appendModule]
  rw [h1, h2]
  simp [joined]

example : (GDecl.mk (.plain [['a'], ['b']] none) ['c'] none none false true).symbol =
    "a_b__c".toList := by decide

/-- Methods of the slices of two types of the same name of different modules,
declared by one module under the same name, have one symbol. -/
theorem C69_slice_methods (f f' : Nat) (m m1 m2 : Mod) (hm : m1 ≠ m2) (t n : Name) :
    Ty.slice (.user f m1 t none false false) ≠ .slice (.user f' m2 t none false false) ∧
    (GDecl.mk m n (some (.slice (.user f m1 t none false false))) none false false).symbol =
      (GDecl.mk m n (some (.slice (.user f' m2 t none false false))) none false false).symbol := by
  refine ⟨fun e => hm ?_, ?_⟩
  · injection e with e; injection e
  · simp [GDecl.symbol, Ty.home, Ty.shown]

example : (GDecl.mk (.plain [['c']] none) ['f'] (some (.slice demoColor)) none false false).symbol =
    "c.Color[].f".toList := by decide

end C3.Mangle
