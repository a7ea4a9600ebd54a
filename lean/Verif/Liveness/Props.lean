import Verif.Liveness.LemmasRoots

/-!
# Liveness: the property theorems
-/

set_option autoImplicit false

namespace C3.Liveness

open Spec

/-- C29: tracing ends for every analysed program, however its declarations refer to each other; every root is live, and
only used declarations are. -/
theorem C29_sound (p : Program) (h : Analysed p) :
    ∃ live, traceLiveness p = some live ∧ (∀ d, Root p d → live d) ∧ ∀ d, live d → Used p d := by
  obtain ⟨live, e, hl⟩ := traces_reach p.env ((roots p).map .decl) (by
    intro n hn
    obtain ⟨d, hd, rfl⟩ := List.mem_map.1 hn
    exact ok_root p h d hd)
  refine ⟨live, by rw [traceLiveness_eq p h, e], fun d hd => ?_, fun d hd => ?_⟩
  · exact (hl d).2 ⟨_, List.mem_map_of_mem ((mem_roots p d).2 hd), .refl⟩
  · obtain ⟨n, hn, hr⟩ := (hl d).1 hd
    obtain ⟨r, hrm, rfl⟩ := List.mem_map.1 hn
    exact ⟨r, (mem_roots p r).1 hrm, hr.uses⟩

/-- C29, partial: exactly the used declarations are live if at most one statement is to be run at each return.  In
general only the first of the statements to be run there is traced (`C29_cleanup_untraced`). -/
theorem C29_live_partial (p : Program) (h : Analysed p)
    (hs : ∀ r n, Root p r → Uses p.env (.decl r) n → SingleCleanup n) :
    ∃ live, traceLiveness p = some live ∧ ∀ d, live d ↔ Used p d := by
  obtain ⟨live, e, hl⟩ := traces_reach p.env ((roots p).map .decl) (by
    intro n hn
    obtain ⟨d, hd, rfl⟩ := List.mem_map.1 hn
    exact ok_root p h d hd)
  refine ⟨live, by rw [traceLiveness_eq p h, e], fun d => ⟨fun hd => ?_, ?_⟩⟩
  · obtain ⟨n, hn, hr⟩ := (hl d).1 hd
    obtain ⟨r, hrm, rfl⟩ := List.mem_map.1 hn
    exact ⟨r, (mem_roots p r).1 hrm, hr.uses⟩
  · rintro ⟨r, hr, hu⟩
    exact (hl d).2 ⟨_, List.mem_map_of_mem ((mem_roots p r).2 hr),
      uses_reach p.env _ _ (fun x hx => hs r x hr hx) hu⟩

/-- A call of a function. -/
def callOf (d : DeclId) : Expr := .mk none (.call [] .none (.func none (some d)))

/-- `fn void main() { f(); return; g(); }` and `fn void f() { main(); }`; `g` is never called. -/
def cyclic : Program where
  env := {
    decls := [
      { kind := .func ⟨[], none⟩ (some (.compound [.expr (some (callOf 1)), .return_ false none [] [],
          .expr (some (callOf 2))])) },
      { kind := .func ⟨[], none⟩ (some (.compound [.expr (some (callOf 0))])) },
      { kind := .func ⟨[], none⟩ none }]
    asserts := true
    pure_ := fun _ => false }
  main := some 0
  methodExtensions := []
  units := [⟨[0, 1, 2], [], [], []⟩]
  testing := false
  benchmarking := false

/-- What is used in it. -/
def cyclicNodes : List Node :=
  [.decl 0, .decl 1, .expr (callOf 0), .expr (callOf 1), .stmt (.expr (some (callOf 0))),
    .stmt (.expr (some (callOf 1))), .stmt (.return_ false none [] []),
    .stmt (.compound [.expr (some (callOf 0))]),
    .stmt (.compound [.expr (some (callOf 1)), .return_ false none [] [], .expr (some (callOf 2))])]

theorem cyclic_root (r : DeclId) (h : Root cyclic r) : r = 0 := by
  cases h with
  | main _ h => simpa [cyclic, eq_comm] using h
  | extension _ _ h => simp [cyclic] at h
  | kept u _ decl hu hm hd hk =>
    simp only [cyclic, List.mem_singleton] at hu
    subst hu
    rcases hm with hm | hm | hm | hm <;> simp at hm
    rcases hm with rfl | rfl | rfl <;> simp [cyclic] at hd <;> subst hd <;> simp at hk
  | function u _ decl hu hm hd hk =>
    simp only [cyclic, List.mem_singleton] at hu
    subst hu
    simp at hm
    rcases hm with rfl | rfl | rfl <;> simp [cyclic] at hd <;> subst hd <;> simp at hk

theorem cyclic_uses (r : DeclId) (n : Node) (hr : Root cyclic r) (h : Uses cyclic.env (.decl r) n) :
    n ∈ cyclicNodes := by
  obtain rfl := cyclic_root r hr
  refine uses_mem cyclic.env (· ∈ cyclicNodes) _ _ (by simp [cyclicNodes]) (fun a ha b hb => ?_) h
  simp only [cyclicNodes, List.mem_cons, List.not_mem_nil, or_false] at ha
  rcases ha with rfl | rfl | rfl | rfl | rfl | rfl | rfl | rfl | rfl <;>
    simp [parts, cyclic, declParts, sigParts, stmtN, typeN, callOf, exprParts, declN, stmtParts, exprN, upToJump,
      List.findIdx_cons, Leaves] at hb <;>
    first
      | (subst hb; simp [cyclicNodes, callOf])
      | (rcases hb with rfl | rfl <;> simp [cyclicNodes, callOf])

theorem cyclic_analysed : Analysed cyclic where
  extensions := by simp [cyclic]
  functions := by simp [cyclic]
  methods := by simp [cyclic]
  vars := by simp [cyclic]
  localExtensions := by simp [cyclic]
  nodes r n hr h := by
    have hn := cyclic_uses r n hr h
    simp only [cyclicNodes, List.mem_cons, List.not_mem_nil, or_false] at hn
    rcases hn with rfl | rfl | rfl | rfl | rfl | rfl | rfl | rfl | rfl <;> simp [NodeOk, cyclic, callOf]

/-- The two functions that call each other are live, the one called after the return is not. -/
example : ∃ live, traceLiveness cyclic = some live ∧ live 0 = true ∧ live 1 = true ∧ live 2 = false := by
  obtain ⟨live, e, h⟩ := C29_live_partial cyclic cyclic_analysed (by
    intro r n hr h
    have hn := cyclic_uses r n hr h
    simp only [cyclicNodes, List.mem_cons, List.not_mem_nil, or_false] at hn
    rcases hn with rfl | rfl | rfl | rfl | rfl | rfl | rfl | rfl | rfl <;> simp [SingleCleanup])
  have h0 : Root cyclic 0 := .main 0 rfl
  refine ⟨live, e, (h 0).2 ⟨0, h0, .refl⟩, (h 1).2 ⟨0, h0, ?_⟩, ?_⟩
  · refine .head (b := .stmt (.compound [.expr (some (callOf 1)), .return_ false none [] [],
      .expr (some (callOf 2))])) ?_ (.head (b := .stmt (.expr (some (callOf 1)))) ?_
      (.head (b := .expr (callOf 1)) ?_ (.single ?_)))
    all_goals simp [parts, cyclic, declParts, sigParts, stmtN, typeN, callOf, exprParts, declN, stmtParts, exprN,
      upToJump, List.findIdx_cons, Leaves]
  · refine Bool.eq_false_iff.2 fun h2 => ?_
    obtain ⟨r, hr, hu⟩ := (h 2).1 h2
    simpa [cyclicNodes] using cyclic_uses r _ hr hu

/-- `fn void main() { return; }` with two statements to be run at the return, calls of `f` and `g`. -/
def cleanups : Program where
  env := {
    decls := [
      { kind := .func ⟨[], none⟩ (some (.return_ false none [.expr (some (callOf 1)), .expr (some (callOf 2))] [])) },
      { kind := .func ⟨[], none⟩ none },
      { kind := .func ⟨[], none⟩ none }]
    asserts := true
    pure_ := fun _ => false }
  main := some 0
  methodExtensions := []
  units := []
  testing := false
  benchmarking := false

def cleanupNodes : List Node :=
  [.decl 0, .decl 1, .decl 2, .expr (callOf 1), .expr (callOf 2), .stmt (.expr (some (callOf 1))),
    .stmt (.expr (some (callOf 2))),
    .stmt (.return_ false none [.expr (some (callOf 1)), .expr (some (callOf 2))] [])]

theorem cleanups_root (r : DeclId) (h : Root cleanups r) : r = 0 := by
  cases h with
  | main _ h => simpa [cleanups, eq_comm] using h
  | extension _ _ h => simp [cleanups] at h
  | kept u _ decl hu => simp [cleanups] at hu
  | function u _ decl hu => simp [cleanups] at hu

theorem cleanups_analysed : Analysed cleanups where
  extensions := by simp [cleanups]
  functions := by simp [cleanups]
  methods := by simp [cleanups]
  vars := by simp [cleanups]
  localExtensions := by simp [cleanups]
  nodes r n hr h := by
    obtain rfl := cleanups_root r hr
    have hn : n ∈ cleanupNodes := by
      refine uses_mem cleanups.env (· ∈ cleanupNodes) _ _ (by simp [cleanupNodes]) (fun a ha b hb => ?_) h
      simp only [cleanupNodes, List.mem_cons, List.not_mem_nil, or_false] at ha
      rcases ha with rfl | rfl | rfl | rfl | rfl | rfl | rfl | rfl <;>
        simp [parts, cleanups, declParts, sigParts, stmtN, typeN, callOf, exprParts, declN, stmtParts, exprN] at hb <;>
        first
          | (subst hb; simp [cleanupNodes, callOf])
          | (rcases hb with rfl | rfl <;> simp [cleanupNodes, callOf])
    simp only [cleanupNodes, List.mem_cons, List.not_mem_nil, or_false] at hn
    rcases hn with rfl | rfl | rfl | rfl | rfl | rfl | rfl | rfl <;> simp [NodeOk, cleanups, callOf]

/-- C29 fails as stated for the statements to be run at a return: only the first is traced, so that a function called
in the second is not live because of it. -/
theorem C29_cleanup_untraced : ∃ p : Program, Analysed p ∧ ∃ live, traceLiveness p = some live ∧
    ∃ d, Used p d ∧ live d = false := by
  refine ⟨cleanups, cleanups_analysed, ?_⟩
  obtain ⟨live, e, hl⟩ := traces_reach cleanups.env ((roots cleanups).map .decl) (by
    intro n hn
    obtain ⟨d, hd, rfl⟩ := List.mem_map.1 hn
    exact ok_root cleanups cleanups_analysed d hd)
  refine ⟨live, by rw [traceLiveness_eq cleanups cleanups_analysed, e], 2, ⟨0, .main 0 rfl, ?_⟩, ?_⟩
  · refine .head (b := .stmt (.return_ false none [.expr (some (callOf 1)), .expr (some (callOf 2))] [])) ?_
      (.head (b := .stmt (.expr (some (callOf 2)))) ?_ (.head (b := .expr (callOf 2)) ?_ (.single ?_)))
    all_goals simp [parts, cleanups, declParts, sigParts, stmtN, typeN, callOf, exprParts, declN, stmtParts, exprN]
  · refine Bool.eq_false_iff.2 fun h2 => ?_
    obtain ⟨n, hn, hr⟩ := (hl 2).1 h2
    obtain ⟨r, hrm, rfl⟩ := List.mem_map.1 hn
    obtain rfl := cleanups_root r ((mem_roots cleanups r).1 hrm)
    let S : List Node := [.decl 0, .decl 1, .expr (callOf 1), .stmt (.expr (some (callOf 1))),
      .stmt (.return_ false none [.expr (some (callOf 1)), .expr (some (callOf 2))] [])]
    have := reach_mem cleanups.env (· ∈ S) _ _ (by simp [S]) (fun a ha b hb => by
      simp only [S, List.mem_cons, List.not_mem_nil, or_false] at ha
      rcases ha with rfl | rfl | rfl | rfl | rfl <;>
        simp [traced, parts, cleanups, declParts, sigParts, stmtN, typeN, callOf, exprParts, declN, stmtParts,
          exprN] at hb <;>
        subst hb <;> simp [S, callOf]) hr
    simp [S] at this

end C3.Liveness
