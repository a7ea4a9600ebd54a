import Verif.Liveness.LemmasReach

/-!
# The roots, and the traced parts against all parts
-/

set_option autoImplicit false

namespace C3.Liveness

open Spec Relation

def keeps (env : Env) (keep : DeclId → Decl → Bool) (d : DeclId) : Bool :=
  match env.decls[d]? with
  | some decl => keep d decl
  | none => false

theorem traceIf_eq (env : Env) (keep : DeclId → Decl → Bool) (live : Live) (ds : List DeclId)
    (h : ∀ d ∈ ds, d < env.decls.length) :
    traceIf env keep live ds = traces env live ((ds.filter (keeps env keep)).map .decl) := by
  induction ds generalizing live with
  | nil => rfl
  | cons d ds ih =>
    have hd := h d (by simp)
    have ih := fun l => ih l fun m hm => h m (List.mem_cons_of_mem _ hm)
    rw [traceIf, List.filter_cons]
    simp only [keeps, List.getElem?_eq_getElem hd, Option.bind_eq_bind, Option.bind_some]
    cases keep d env.decls[d]
    · simpa using ih live
    · simp only [if_true, List.map_cons, traces, trace, Option.bind_eq_bind]
      congr 1
      funext l
      exact ih l

def keep (p : Program) (d : DeclId) (decl : Decl) : Bool := decl.isExport || p.noStrip d decl

def keepFunction (p : Program) (d : DeclId) (decl : Decl) : Bool :=
  keep p d decl || decl.finalizer || decl.init || decl.test && p.testing || decl.benchmark && p.benchmarking

def unitRoots (p : Program) (u : CompUnit) : List DeclId :=
  u.functions.filter (keeps p.env (keepFunction p)) ++ u.methods.filter (keeps p.env (keep p)) ++
  u.vars.filter (keeps p.env (keep p)) ++ u.localMethodExtensions.filter (keeps p.env (keep p))

def roots (p : Program) : List DeclId :=
  p.main.toList ++ p.methodExtensions.filter (keeps p.env (keep p)) ++ p.units.flatMap (unitRoots p)

theorem traceUnits_eq (p : Program) (h : Analysed p) (us : List CompUnit) (hu : ∀ u ∈ us, u ∈ p.units) (live : Live) :
    traceUnits p live us = traces p.env live ((us.flatMap (unitRoots p)).map .decl) := by
  induction us generalizing live with
  | nil => rfl
  | cons u us ih =>
    have hm := hu u (by simp)
    rw [traceUnits, List.flatMap_cons, List.map_append, traces_append, unitRoots]
    simp only [List.map_append, traces_append, traceIf_eq p.env _ _ _ (h.functions u hm),
      traceIf_eq p.env _ _ _ (h.methods u hm), traceIf_eq p.env _ _ _ (h.vars u hm),
      traceIf_eq p.env _ _ _ (h.localExtensions u hm), ih fun v hv => hu v (List.mem_cons_of_mem _ hv)]
    simp only [Option.bind_eq_bind, Option.bind_assoc]
    rfl

theorem traceLiveness_eq (p : Program) (h : Analysed p) :
    traceLiveness p = traces p.env (fun _ => false) ((roots p).map .decl) := by
  rw [traceLiveness, roots]
  simp only [List.map_append, traces_append, traceDecl_opt, declN, traceIf_eq p.env _ _ _ h.extensions,
    traceUnits_eq p h p.units fun _ hu => hu, Option.bind_eq_bind, Option.bind_assoc]
  rfl

theorem keeps_iff (env : Env) (k : DeclId → Decl → Bool) (d : DeclId) :
    keeps env k d ↔ ∃ decl, env.decls[d]? = some decl ∧ k d decl := by
  unfold keeps
  cases env.decls[d]? <;> simp

theorem keep_root (p : Program) (d : DeclId) (decl : Decl) (hd : p.env.decls[d]? = some decl)
    (u : CompUnit) (hu : u ∈ p.units)
    (hm : d ∈ u.functions ∨ d ∈ u.methods ∨ d ∈ u.vars ∨ d ∈ u.localMethodExtensions) (h : keep p d decl) :
    Root p d := by
  simp only [keep, Program.noStrip, Bool.or_eq_true, Bool.and_eq_true, List.contains_iff_mem] at h
  rcases h with h | h | ⟨h, h'⟩
  · exact .kept u d decl hu hm hd (.inl h)
  · exact .kept u d decl hu hm hd (.inr h)
  · exact .extension d decl h' hd (.inr (.inr h))

theorem mem_roots (p : Program) (d : DeclId) : d ∈ roots p ↔ Root p d := by
  constructor
  · intro h
    simp only [roots, List.mem_append, List.mem_filter, List.mem_flatMap, keeps_iff] at h
    rcases h with (h | ⟨h, decl, hd, hk⟩) | ⟨u, hu, h⟩
    · exact .main d (by simpa using h)
    · refine .extension d decl h hd ?_
      simp only [keep, Program.noStrip, Bool.or_eq_true, Bool.and_eq_true] at hk
      rcases hk with h | h | h
      · exact .inl h
      · exact .inr (.inl h)
      · exact .inr (.inr h.1)
    · simp only [unitRoots, List.mem_append, List.mem_filter, keeps_iff] at h
      rcases h with ((⟨h, decl, hd, hk⟩ | ⟨h, decl, hd, hk⟩) | ⟨h, decl, hd, hk⟩) | ⟨h, decl, hd, hk⟩
      · simp only [keepFunction, Bool.or_eq_true, Bool.and_eq_true] at hk
        rcases hk with (((hk | hk) | hk) | hk) | hk
        · exact keep_root p d decl hd u hu (.inl h) hk
        · exact .function u d decl hu h hd (.inl hk)
        · exact .function u d decl hu h hd (.inr (.inl hk))
        · exact .function u d decl hu h hd (.inr (.inr (.inl hk)))
        · exact .function u d decl hu h hd (.inr (.inr (.inr hk)))
      · exact keep_root p d decl hd u hu (.inr (.inl h)) hk
      · exact keep_root p d decl hd u hu (.inr (.inr (.inl h))) hk
      · exact keep_root p d decl hd u hu (.inr (.inr (.inr h))) hk
  · intro h
    simp only [roots, List.mem_append, List.mem_filter, List.mem_flatMap, keeps_iff]
    cases h with
    | main d h => exact .inl (.inl (by simpa using h))
    | extension d decl h hd hk =>
      refine .inl (.inr ⟨h, decl, hd, ?_⟩)
      simp only [keep, Program.noStrip, Bool.or_eq_true, Bool.and_eq_true, List.contains_iff_mem]
      rcases hk with h' | h' | h'
      · exact .inl h'
      · exact .inr (.inl h')
      · exact .inr (.inr ⟨h', h⟩)
    | kept u d decl hu hm hd hk =>
      refine .inr ⟨u, hu, ?_⟩
      have hk' : keep p d decl = true := by
        simp only [keep, Program.noStrip, Bool.or_eq_true, Bool.and_eq_true]
        rcases hk with h' | h'
        · exact .inl h'
        · exact .inr (.inl h')
      simp only [unitRoots, List.mem_append, List.mem_filter, keeps_iff]
      rcases hm with hm | hm | hm | hm
      · exact .inl (.inl (.inl ⟨hm, decl, hd, by simp [keepFunction, hk']⟩))
      · exact .inl (.inl (.inr ⟨hm, decl, hd, hk'⟩))
      · exact .inl (.inr ⟨hm, decl, hd, hk'⟩)
      · exact .inr ⟨hm, decl, hd, hk'⟩
    | function u d decl hu hm hd hk =>
      refine .inr ⟨u, hu, ?_⟩
      simp only [unitRoots, List.mem_append, List.mem_filter, keeps_iff]
      refine .inl (.inl (.inl ⟨hm, decl, hd, ?_⟩))
      simp only [keepFunction, Bool.or_eq_true, Bool.and_eq_true]
      rcases hk with h' | h' | h' | h'
      · exact .inl (.inl (.inl (.inr h')))
      · exact .inl (.inl (.inr h'))
      · exact .inl (.inr h')
      · exact .inr h'

theorem traced_sub (env : Env) (n m : Node) (h : m ∈ traced env n) : m ∈ parts env n := by
  unfold traced at h
  split at h
  · rename_i x e c f
    simp only [parts, stmtParts, List.mem_append] at h ⊢
    rcases h with (h | h) | h
    · exact .inl (.inl h)
    · refine .inl (.inr ?_)
      cases c <;> simp [stmtN] at h ⊢
      exact .inl h
    · refine .inr ?_
      cases f <;> simp [stmtN] at h ⊢
      exact .inl h
  · exact h

theorem parts_sub (env : Env) (n m : Node) (hs : SingleCleanup n) (h : m ∈ parts env n) : m ∈ traced env n := by
  unfold traced
  split
  · rename_i x e c f
    simp only [parts, stmtParts, List.mem_append] at h ⊢
    obtain ⟨hc, hf⟩ := hs
    rcases h with (h | h) | h
    · exact .inl (.inl h)
    · refine .inl (.inr ?_)
      match c, hc with
      | [], _ => simp at h
      | [s], _ => simpa [stmtN] using h
    · refine .inr ?_
      match f, hf with
      | [], _ => simp at h
      | [s], _ => simpa [stmtN] using h
  · exact h

theorem Reach.uses {env : Env} {n m : Node} (h : Reach env n m) : Uses env n m :=
  ReflTransGen.mono (fun a b => traced_sub env a b) _ _ h

theorem ok_root (p : Program) (h : Analysed p) (d : DeclId) (hd : d ∈ roots p) : Ok p.env (.decl d) :=
  fun m hm => h.nodes d m ((mem_roots p d).1 hd) hm.uses

theorem uses_reach (env : Env) (n m : Node) (hs : ∀ x, Uses env n x → SingleCleanup x) (h : Uses env n m) :
    Reach env n m := by
  induction h with
  | refl => exact .refl
  | tail hab hbc ih => exact .tail ih (parts_sub env _ _ (hs _ hab) hbc)

theorem uses_mem (env : Env) (S : Node → Prop) (n m : Node) (h0 : S n)
    (hc : ∀ a, S a → ∀ b ∈ parts env a, S b) (h : Uses env n m) : S m := by
  induction h with
  | refl => exact h0
  | tail _ hbc ih => exact hc _ ih _ hbc

theorem reach_mem (env : Env) (S : Node → Prop) (n m : Node) (h0 : S n)
    (hc : ∀ a, S a → ∀ b ∈ traced env a, S b) (h : Reach env n m) : S m := by
  induction h with
  | refl => exact h0
  | tail _ hbc ih => exact hc _ ih _ hbc

end C3.Liveness
