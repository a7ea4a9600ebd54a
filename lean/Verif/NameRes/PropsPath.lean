import Verif.NameRes.LemmasExact
import Verif.NameRes.Demo

/-!
# C63: modules form a hierarchy by their paths, and it decides what a file may use
-/

set_option autoImplicit false

namespace C3.NameRes

/-- **C63** A path fits a module just if its identifiers are the last ones of the path of the module. -/
theorem C63_subpath {check find : Name} {A B : List Name} (hA : IsPath check A) (hB : IsPath find B) :
    matchesSubpath check find = true ↔ B <:+ A := matchesSubpath_iff hA hB

example : matchesSubpath "std::io::file".toList "io::file".toList = true ∧ matchesSubpath "std::io::file".toList "o::file".toList = false := by
  decide

/-- **C63** The parent of a path is the path without its last identifier, and of one identifier there is none. -/
theorem C63_parent {s : Name} {segs : List Name} {x : Name} (h : IsPath s (segs ++ [x])) : parentPath s = some (joinPath segs) := by
  rw [h.text]
  exact parentPath_append h.ident

example : parentPath "std::io::file".toList = some "std::io".toList ∧ parentPath "std".toList = some [] := by decide

/-- **C63** The passes over the modules give each its parent and its top module, adding those that no file declares; they change nothing
else about the modules there are. -/
theorem C63_hierarchy {ms : List Module} (hpath : ∀ m ∈ ms, ∃ segs, IsPath m.name segs)
    (huniq : ∀ (i j : Nat) (x y : Module), ms[i]? = some x → ms[j]? = some y → x.name = y.name → i = j)
    (hnew : ∀ m ∈ ms, m.parent = none) :
    ∃ ms', passes ms = some ms' ∧ Hierarchy ms' ∧
      ∀ (i : Nat) (m : Module), ms[i]? = some m →
        ∃ m', ms'[i]? = some m' ∧ m'.name = m.name ∧ m'.isGeneric = m.isGeneric ∧ m'.generic = m.generic :=
  passes_ok hpath huniq hnew

/-- For example `std::io::file` and `app`: `std::io` and `std` are added. -/
example : (hierarchyAll [0, 1] [({ name := "std::io::file".toList }, false), ({ name := "app".toList }, false)]).map
    (fun st => st.map (fun x => (String.ofList x.1.name, x.1.parent))) =
      some [("std::io::file", some 2), ("app", none), ("std::io", some 3), ("std", none)] := by decide +kernel

/-- **C63** `module_inclusion_match` never runs past the top of the hierarchy, and holds just if one of the modules is, or is in, the
other. -/
theorem C63_inclusion {P : Prog} (wf : WF P) {a b : Nat} {ma mb : Module} (ha : P.modules[a]? = some ma) (hb : P.modules[b]? = some mb) :
    ∃ r, inclusionMatch P a b = some r ∧ (r = true ↔ Related P a b) := inclusionMatch_eq wf ha hb

theorem demo_path {m : Nat} {mm : Module} {A : List Name} (hm : demo.modules[m]? = some mm) (hg : mm.generic = none) (h : IsPath mm.name A) :
    HasPath demo m A := ⟨mm, hm, .inl ⟨hg, h⟩⟩

theorem demo_lib : HasPath demo 1 ["lib".toList] := demo_path rfl rfl (isPath_of_check (by decide +kernel))

theorem demo_impl : HasPath demo 2 ["lib".toList, "impl".toList] := demo_path rfl rfl (isPath_of_check (by decide +kernel))

theorem demo_related : Related demo 1 2 := ⟨_, _, demo_lib, demo_impl, .inl ⟨["impl".toList], rfl⟩⟩

/-- For example `lib` and `lib::impl`. -/
example : inclusionMatch demo 1 2 = some true := by
  obtain ⟨r, h1, h2⟩ := C63_inclusion demo_wf (a := 1) (b := 2) rfl rfl
  rw [h1, h2.2 demo_related]

/-- **C63** `decl_is_visible` of a declaration that is not `@local` holds just if the file may use it: it is in the same module; or it is
public, and in a related module, in `std::core`, or reached by an import; or it is `@private`, and reached by an import that is
`@public`. -/
theorem C63_visible {P : Prog} (wf : WF P) {f : Nat} {u : CUnit} (hu : P.units[f]? = some u) {i : Nat} {d : Decl}
    (hd : P.decls[i]? = some d) (hv : d.vis ≠ .loc) : ∃ r, declIsVisible P u d = some r ∧ (r = true ↔ Accessible P f d) :=
  declIsVisible_eq wf hu hd hv

/-- `hash` of `lib::impl` may be used in `app`, which imports `lib`. -/
theorem demo_hash : Accessible demo 0 { name := "hash".toList, kind := .value, file := 2, vis := .pub } :=
  ⟨_, 2, _, rfl, rfl, rfl, .inr ⟨by decide, rfl, .inl ⟨rfl, .inr (.inr ⟨{ module := 1 }, by decide, .inr ⟨rfl, demo_related⟩⟩)⟩⟩⟩

example : declIsVisible demo { module := 0, imports := [{ module := 1 }, { module := 4, privAsPublic := true }] }
    { name := "hash".toList, kind := .value, file := 2, vis := .pub } = some true := by
  obtain ⟨r, h1, h2⟩ := C63_visible demo_wf (f := 0) rfl (i := 3) rfl (by decide)
  exact h1.trans (by rw [h2.2 demo_hash])

/-- **C63** Once all declarations are registered without an error, what a file and a module list under a name is what they declare (a
module lists what is not `@local`), and a name is there at most once. -/
theorem C63_tables {P : Prog} {T : Tables} {order : List Nat} (fl : Filled P T order) :
    (∀ f sym i, T.files f sym = some i ↔ ∃ d, Named P sym i d ∧ d.file = f) ∧
    (∀ m sym i, T.modules m sym = some i ↔ ∃ d, Named P sym i d ∧ d.vis ≠ .loc ∧ P.moduleOf d = some m) := by
  constructor
  · intro f sym i
    rw [files_iff fl]
    exact ⟨fun h => h.2, fun h => ⟨rfl, h⟩⟩
  · intro m sym i
    rw [fl.holds.modules]
    constructor
    · rintro ⟨_, d, h1, h2, h3, h4, h5⟩
      exact ⟨d, ⟨h1, h2, h4⟩, h3, h5⟩
    · rintro ⟨d, ⟨h1, h2, h4⟩, h3, h5⟩
      exact ⟨fl.mem h1, d, h1, h2, h3, h4, h5⟩

example : demoTables.files 1 "main".toList = some 7 ∧ demoTables.modules 1 "main".toList = none := by decide +kernel

end C3.NameRes
