import Verif.NameRes.Model

/-!
# The passes that set up the hierarchy of modules

`sema_analyse_pass_module_hierarchy` and `sema_analyse_pass_top`, `src/compiler/sema_passes.c` 20–59, as they are run for all modules by
`sema_analyze_to_stage`, `src/compiler/semantic_analyser.c` 278–293.

Simplified: `module_list` and `generic_module_list` are one list, told apart by `isGeneric`, in which the order of the modules does not
matter; the stage of a module is whether the first of these passes was begun for it.
-/

set_option autoImplicit false

namespace C3.NameRes

/-- A module, and whether its `stage` is `ANALYSIS_MODULE_HIERARCHY`. -/
abbrev Staged := Module × Bool

/-- `sema_analyse_pass_module_hierarchy`, `src/compiler/sema_passes.c` 27–59, under `sema_analyze_stage`,
`src/compiler/semantic_analyser.c` 142–152; `fuel` bounds how deep parents are created, `none` is also what running out of it gives. -/
def hierarchyPass : Nat → Nat → List Staged → Option (List Staged)
  | 0, _, _ => none
  | fuel + 1, i, st => do
    let m ← st[i]?
    if m.2 then some st
    else
      let p ← parentPath m.1.name
      if p = [] then some (st.set i (m.1, true))
      else
        match st.findIdx? (fun x => !x.1.isGeneric && x.1.name == p) with
        | some j => some (st.set i ({ m.1 with parent := some j }, true))
        | none =>
          match st.findIdx? (fun x => x.1.name == p) with
          | some j => hierarchyPass fuel j (st.set i ({ m.1 with parent := some j }, true))
          | none => hierarchyPass fuel st.length (st.set i ({ m.1 with parent := some st.length }, true) ++ [({ name := p }, false)])

/-- The loop of `sema_analyze_to_stage`, `src/compiler/semantic_analyser.c` 278–293; `fuel` as before. -/
def hierarchyAll : List Nat → List Staged → Option (List Staged)
  | [], st => some st
  | i :: is, st => do
    let m ← st[i]?
    hierarchyAll is (← hierarchyPass (m.1.name.length + 2) i st)

/-- `while (parent->parent_module) parent = parent->parent_module;`, `src/compiler/sema_passes.c` 23. -/
def rootOf (ms : List Module) (m : Nat) : Option Nat := do
  let x ← ms[m]?
  match x.parent with
  | some p => rootOf ms p
  | none => some m
partial_fixpoint

/-- `sema_analyse_pass_top`, `src/compiler/sema_passes.c` 20–25, for all modules: it reads only parents. -/
def topAll (ms : List Module) : List Module := ms.zipIdx.map fun x => { x.1 with top := rootOf ms x.2 }

/-- Both passes. -/
def passes (ms : List Module) : Option (List Module) := do
  let st ← hierarchyAll (List.range ms.length) (ms.map (fun m => (m, false)))
  some (topAll (st.map (·.1)))

end C3.NameRes
