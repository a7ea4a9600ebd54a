import Verif.Flow.Model
import Verif.Flow.Spec

/-! # The analysis keeps the meaning: what runs before each jump is what was deferred -/

set_option autoImplicit false
set_option linter.unusedSectionVars false
set_option linter.unusedVariables false
set_option linter.unusedSimpArgs false

namespace C3.Flow

variable {σ : Type}

/-- No `if` has both a label and a constant condition. -/
def plainIf : Option Nat → Cond σ → Bool
  | some _, .const _ => false
  | _, _ => true

mutual
def Plain : Stmt σ → Bool
  | .block body => PlainSeq body
  | .ite l c t e => plainIf l c && PlainSeq t && PlainSeq e
  | .loop _ _ _ _ body => PlainSeq body
  | .switch _ _ _ cases => PlainCases cases
  | .defer _ body => PlainSeq body
  | .inl body _ => PlainSeq body
  | _ => true
def PlainSeq : Seq σ → Bool
  | .nil => true
  | .cons s rest => Plain s && PlainSeq rest
def PlainCases : Cases σ → Bool
  | .nil => true
  | .cons body rest => PlainSeq body && PlainCases rest
end

/-! ## Deferred statements -/

/-- Deferred code is left at its end or not at all. -/
def closed (r : LExit) : Prop := r = .norm ∨ r = .stop

structure CtxOk (n : Nat) (c : Ctx σ) : Prop where
  bottom : ∀ e ∈ c.env, e.bottom ≤ c.chain.length
  chain : ∀ d ∈ c.chain, ∀ s, closed (lexecSeq n d.2 s).2

theorem lexecSeq_block (n : Nat) (body rest : LSeq σ) (s : σ) : lexecSeq n (.cons (.block body) rest) s =
    if (lexecSeq n body s).2 = .norm then lexecSeq n rest (lexecSeq n body s).1 else lexecSeq n body s := by
  rw [lexecSeq]; rfl

theorem closed_copies {n : Nat} {chain : List (Kind × LSeq σ)} (h : ∀ d ∈ chain, ∀ s, closed (lexecSeq n d.2 s).2) (b : Bool) (s : σ) :
    closed (lexecSeq n (copies b chain) s).2 := by
  induction chain generalizing s with
  | nil => left; simp [copies, lexecSeq]
  | cons d chain ih =>
    obtain ⟨k, body⟩ := d
    have h2 : ∀ d ∈ chain, ∀ s, closed (lexecSeq n d.2 s).2 := fun d hd => h d (List.mem_cons_of_mem _ hd)
    rw [copies]
    split
    · exact ih h2 s
    · have h1 := h (k, body) List.mem_cons_self s
      rw [lexecSeq_block]
      by_cases hn : (lexecSeq n body s).2 = .norm
      · rw [if_pos hn]; exact ih h2 _
      · rw [if_neg hn]; exact h1

theorem closed_get {n : Nat} {c : Ctx σ} (h : CtxOk n c) (m : Nat) (b : Bool) (s : σ) :
    closed (lexecSeq n (context_get_defers c.chain m b) s).2 :=
  closed_copies (fun d hd => h.chain d (List.mem_of_mem_take hd)) b s

theorem get_self (chain : List (Kind × LSeq σ)) (b : Bool) : context_get_defers chain chain.length b = .nil := by
  simp [context_get_defers, copies]

theorem get_cons {chain : List (Kind × LSeq σ)} {m : Nat} (hm : m ≤ chain.length) (k : Kind) (body : LSeq σ) (b : Bool) :
    context_get_defers ((k, body) :: chain) m b =
      if (b && k == .onCatch) || (!b && k == .onTry) then context_get_defers chain m b
      else .cons (.block body) (context_get_defers chain m b) := by
  unfold context_get_defers
  rw [List.length_cons, Nat.succ_sub hm, List.take_succ_cons, copies]

/-! ## How a jump ends -/

/-- What is left to do after a statement that stands in `c`. -/
def finish (n : Nat) (c : Ctx σ) : σ × Exit → σ × LExit
  | (s, .norm) => (s, .norm)
  | (s, .stop) => (s, .stop)
  | (s, .ret f) => andThen (lexecSeq n (context_get_defers c.chain 0 !f) s) (.ret f)
  | (s, .brk l) =>
    match findBreak l c.env with
    | some (m, e) => andThen (lexecSeq n (context_get_defers c.chain e.bottom true) s) (.brk m)
    | none => (s, .stop)
  | (s, .cont l) =>
    match findCont l c.env with
    | some (m, e) => andThen (lexecSeq n (context_get_defers c.chain e.bottom true) s) (.cont m)
    | none => (s, .stop)
  | (s, .next l k) =>
    match findNext l k c.env with
    | some (m, e) => andThen (lexecSeq n (context_get_defers c.chain e.bottom true) s) (.next m k)
    | none => (s, .stop)

def finishSeq (n : Nat) (c : Ctx σ) (start : Nat) : σ × Exit → σ × LExit
  | (s, .norm) => lexecSeq n (context_get_defers c.chain start true) s
  | r => finish n c r

/-- The exits that are possible. -/
def Valid (c : Ctx σ) (brks : List Nat) (rets : Nat) : Exit → Prop
  | .norm => True
  | .stop => True
  | .ret _ => c.inDefer = false ∧ 0 < rets
  | .brk l => ∃ m e, findBreak l c.env = some (m, e) ∧ m ∈ brks
  | .cont l => ∃ m e, findCont l c.env = some (m, e)
  | .next l k => ∃ m e, findNext l k c.env = some (m, e)

theorem Valid.mono {c : Ctx σ} {b b' : List Nat} {r r' : Nat} {x : Exit} (h : Valid c b r x) (hb : ∀ m ∈ b, m ∈ b') (hr : r ≤ r') :
    Valid c b' r' x := by
  cases x with
  | norm => trivial
  | stop => trivial
  | ret f => exact ⟨h.1, Nat.lt_of_lt_of_le h.2 hr⟩
  | brk l => obtain ⟨m, e, h1, h2⟩ := h; exact ⟨m, e, h1, hb m h2⟩
  | cont l => exact h
  | next l k => exact h

theorem andThen_of_closed {r : σ × LExit} (h : closed r.2) (x : LExit) :
    andThen r x = (r.1, if r.2 = .norm then x else .stop) := by
  unfold andThen
  rcases h with h | h <;> obtain ⟨a, b⟩ := r <;> simp at h <;> subst h <;> simp

theorem andThen_ne_norm (r : σ × LExit) {x : LExit} (hx : x ≠ .norm) : (andThen r x).2 ≠ .norm := by
  unfold andThen; split <;> assumption

theorem finish_ne_norm {n : Nat} {c : Ctx σ} {s : σ} {x : Exit} (hx : x ≠ .norm) : (finish n c (s, x)).2 ≠ .norm := by
  cases x with
  | norm => exact absurd rfl hx
  | stop => simp [finish]
  | ret f => exact andThen_ne_norm _ (by simp)
  | brk l => rw [finish]; split <;> first | exact andThen_ne_norm _ (by simp) | simp
  | cont l => rw [finish]; split <;> first | exact andThen_ne_norm _ (by simp) | simp
  | next l k => rw [finish]; split <;> first | exact andThen_ne_norm _ (by simp) | simp

theorem finishSeq_of_ne {n : Nat} {c : Ctx σ} {start : Nat} {r : σ × Exit} (hx : r.2 ≠ .norm) : finishSeq n c start r = finish n c r := by
  obtain ⟨s, x⟩ := r
  cases x <;> first | exact absurd rfl hx | rfl

theorem finishSeq_self {n : Nat} {c : Ctx σ} (r : σ × Exit) : finishSeq n c c.chain.length r = finish n c r := by
  obtain ⟨s, x⟩ := r
  cases x <;> first | rfl | simp [finishSeq, finish, get_self, lexecSeq]

/-! ## The innermost statement -/

def hitBreak (l : Option Nat) (e : Entry) : Bool := match l, e.sort with
  | some l, _ => e.label == some l
  | none, .ite => false
  | none, _ => true

def hitCont (l : Option Nat) (e : Entry) : Bool := match l, e.sort with
  | some l, _ => e.label == some l
  | none, .loop => true
  | none, _ => false

def hitNext (l : Option Nat) (e : Entry) : Bool := match l, e.sort with
  | some l, _ => e.label == some l
  | none, .switch _ => true
  | none, _ => false

def caught (e : Entry) : Exit → Bool
  | .brk l => hitBreak l e
  | .cont l => hitCont l e
  | .next l _ => hitNext l e
  | _ => false

theorem findBreak_cons (l : Option Nat) (e : Entry) (env : List Entry) :
    findBreak l (e :: env) = if hitBreak l e then some (0, e) else (findBreak l env).map fun r => (r.1 + 1, r.2) := rfl

theorem findCont_cons (l : Option Nat) (e : Entry) (env : List Entry) :
    findCont l (e :: env) = if hitCont l e then (match e.sort with | .loop => some (0, e) | _ => none)
      else (findCont l env).map fun r => (r.1 + 1, r.2) := rfl

theorem findNext_cons (l : Option Nat) (k : Nat) (e : Entry) (env : List Entry) :
    findNext l k (e :: env) = if hitNext l e then (match e.sort with | .switch m => if k < m then some (0, e) else none | _ => none)
      else (findNext l k env).map fun r => (r.1 + 1, r.2) := rfl

/-- A jump as it is seen inside of one more statement. -/
def into : LExit → LExit
  | .brk n => .brk (n + 1)
  | .cont n => .cont (n + 1)
  | .next n k => .next (n + 1) k
  | x => x

theorem outOf_into (x : LExit) : outOf (into x) = x := by cases x <;> rfl
theorem outOfIf_into (x : LExit) : outOfIf (into x) = x := by cases x <;> rfl
theorem isBreak0_into (x : LExit) : isBreak0 (into x) = false := by cases x <;> rfl
theorem next0_into (x : LExit) : next0 (into x) = none := by cases x <;> rfl
theorem goesOn0_into (x : LExit) : goesOn0 (into x) = true ↔ x = .norm := by cases x <;> simp [into, goesOn0]

/-- The context in one more statement. -/
abbrev Ctx.push (c : Ctx σ) (label : Option Nat) (k : Construct) : Ctx σ := { c with env := ⟨label, k, c.chain.length⟩ :: c.env }

theorem CtxOk.push {n : Nat} {c : Ctx σ} (h : CtxOk n c) (label : Option Nat) (k : Construct) : CtxOk n (c.push label k) := by
  refine ⟨fun e he => ?_, h.chain⟩
  rcases List.mem_cons.mp he with he | he
  · subst he; exact Nat.le_refl _
  · exact h.bottom e he

theorem andThen_into {n : Nat} {c : Ctx σ} (h : CtxOk n c) (m : Nat) (b : Bool) (s : σ) (x : LExit) :
    andThen (lexecSeq n (context_get_defers c.chain m b) s) (into x) =
      ((andThen (lexecSeq n (context_get_defers c.chain m b) s) x).1, into (andThen (lexecSeq n (context_get_defers c.chain m b) s) x).2) := by
  rw [andThen_of_closed (closed_get h m b s), andThen_of_closed (closed_get h m b s)]
  split <;> rfl

theorem finish_pass {n : Nat} {c : Ctx σ} (h : CtxOk n c) {label : Option Nat} {k : Construct} {brks : List Nat} {rets : Nat} {s : σ} {x : Exit}
    (hv : Valid (c.push label k) brks rets x) (hx : caught ⟨label, k, c.chain.length⟩ x = false) :
    finish n (c.push label k) (s, x) = ((finish n c (s, x)).1, into (finish n c (s, x)).2) ∧ Valid c (outer brks) rets x := by
  have hout : ∀ (l : List Nat) (m : Nat), m + 1 ∈ l → m ∈ outer l := by
    intro l m hm
    induction l with
    | nil => cases hm
    | cons a l ih =>
      cases a with
      | zero =>
        simp only [outer]
        rcases List.mem_cons.mp hm with h | h
        · omega
        · exact ih h
      | succ a =>
        simp only [outer]
        rcases List.mem_cons.mp hm with h | h
        · have : m = a := by omega
          subst this; exact List.mem_cons_self
        · exact List.mem_cons_of_mem _ (ih h)
  cases x with
  | norm => exact ⟨rfl, trivial⟩
  | stop => exact ⟨rfl, trivial⟩
  | ret f => exact ⟨andThen_into h 0 (!f) s (.ret f), hv⟩
  | brk l =>
    obtain ⟨m, e, h1, h2⟩ := hv
    simp only [caught] at hx
    rw [findBreak_cons, hx] at h1
    simp only [Bool.false_eq_true, if_false, Option.map_eq_some_iff] at h1
    obtain ⟨⟨m', e'⟩, h1, h3⟩ := h1
    simp only [Prod.mk.injEq] at h3
    obtain ⟨h3, h4⟩ := h3
    subst h3 h4
    refine ⟨?_, m', e', h1, hout _ _ h2⟩
    simp only [finish, findBreak_cons, hx, h1, Bool.false_eq_true, if_false, Option.map_some]
    exact andThen_into h _ true s (.brk m')
  | cont l =>
    obtain ⟨m, e, h1⟩ := hv
    simp only [caught] at hx
    rw [findCont_cons, hx] at h1
    simp only [Bool.false_eq_true, if_false, Option.map_eq_some_iff] at h1
    obtain ⟨⟨m', e'⟩, h1, h3⟩ := h1
    simp only [Prod.mk.injEq] at h3
    obtain ⟨h3, h4⟩ := h3
    subst h3 h4
    refine ⟨?_, m', e', h1⟩
    simp only [finish, findCont_cons, hx, h1, Bool.false_eq_true, if_false, Option.map_some]
    exact andThen_into h _ true s (.cont m')
  | next l q =>
    obtain ⟨m, e, h1⟩ := hv
    simp only [caught] at hx
    rw [findNext_cons, hx] at h1
    simp only [Bool.false_eq_true, if_false, Option.map_eq_some_iff] at h1
    obtain ⟨⟨m', e'⟩, h1, h3⟩ := h1
    simp only [Prod.mk.injEq] at h3
    obtain ⟨h3, h4⟩ := h3
    subst h3 h4
    refine ⟨?_, m', e', h1⟩
    simp only [finish, findNext_cons, hx, h1, Bool.false_eq_true, if_false, Option.map_some]
    exact andThen_into h _ true s (.next m' q)

theorem finish_brk {n : Nat} {c : Ctx σ} {label : Option Nat} {k : Construct} {brks : List Nat} {rets : Nat} {s : σ} {l : Option Nat}
    (hv : Valid (c.push label k) brks rets (.brk l)) (hx : hitBreak l ⟨label, k, c.chain.length⟩ = true) :
    finish n (c.push label k) (s, .brk l) = (s, .brk 0) ∧ 0 ∈ brks := by
  obtain ⟨m, e, h1, h2⟩ := hv
  rw [findBreak_cons, hx] at h1
  simp only [if_true, Option.some.injEq, Prod.mk.injEq] at h1
  obtain ⟨h3, h4⟩ := h1
  subst h3
  refine ⟨?_, h2⟩
  simp [finish, findBreak_cons, hx, get_self, lexecSeq, andThen]

theorem finish_cont {n : Nat} {c : Ctx σ} {label : Option Nat} {k : Construct} {brks : List Nat} {rets : Nat} {s : σ} {l : Option Nat}
    (hv : Valid (c.push label k) brks rets (.cont l)) (hx : hitCont l ⟨label, k, c.chain.length⟩ = true) :
    finish n (c.push label k) (s, .cont l) = (s, .cont 0) ∧ k = .loop := by
  obtain ⟨m, e, h1⟩ := hv
  rw [findCont_cons, hx] at h1
  simp only [if_true] at h1
  cases k with
  | loop => simp [finish, findCont_cons, hx, get_self, lexecSeq, andThen]
  | ite => cases h1
  | switch q => cases h1

theorem finish_next {n : Nat} {c : Ctx σ} {label : Option Nat} {k : Construct} {brks : List Nat} {rets : Nat} {s : σ} {l : Option Nat} {q : Nat}
    (hv : Valid (c.push label k) brks rets (.next l q)) (hx : hitNext l ⟨label, k, c.chain.length⟩ = true) :
    finish n (c.push label k) (s, .next l q) = (s, .next 0 q) ∧ ∃ m, k = .switch m ∧ q < m := by
  obtain ⟨m, e, h1⟩ := hv
  rw [findNext_cons, hx] at h1
  simp only [if_true] at h1
  cases k with
  | loop => cases h1
  | ite => cases h1
  | switch p =>
    simp only at h1
    split at h1
    · rename_i hp
      refine ⟨?_, p, rfl, hp⟩
      simp [finish, findNext_cons, hx, hp, get_self, lexecSeq, andThen]
    · cases h1

theorem findBreak_mem {l : Option Nat} {env : List Entry} {m : Nat} {e : Entry} (h : findBreak l env = some (m, e)) : e ∈ env := by
  induction env generalizing m with
  | nil => cases h
  | cons a env ih =>
    rw [findBreak_cons] at h
    split at h
    · simp only [Option.some.injEq, Prod.mk.injEq] at h; rw [← h.2]; exact List.mem_cons_self
    · simp only [Option.map_eq_some_iff, Prod.mk.injEq] at h
      obtain ⟨⟨a1, a2⟩, h1, h2, h3⟩ := h
      simp only at h3; subst h3; exact List.mem_cons_of_mem _ (ih h1)

theorem findCont_mem {l : Option Nat} {env : List Entry} {m : Nat} {e : Entry} (h : findCont l env = some (m, e)) : e ∈ env := by
  induction env generalizing m with
  | nil => cases h
  | cons a env ih =>
    rw [findCont_cons] at h
    split at h
    · split at h
      · simp only [Option.some.injEq, Prod.mk.injEq] at h; rw [← h.2]; exact List.mem_cons_self
      · cases h
    · simp only [Option.map_eq_some_iff, Prod.mk.injEq] at h
      obtain ⟨⟨a1, a2⟩, h1, h2, h3⟩ := h
      simp only at h3; subst h3; exact List.mem_cons_of_mem _ (ih h1)

theorem findNext_mem {l : Option Nat} {k : Nat} {env : List Entry} {m : Nat} {e : Entry} (h : findNext l k env = some (m, e)) : e ∈ env := by
  induction env generalizing m with
  | nil => cases h
  | cons a env ih =>
    rw [findNext_cons] at h
    split at h
    · split at h
      · split at h
        · simp only [Option.some.injEq, Prod.mk.injEq] at h; rw [← h.2]; exact List.mem_cons_self
        · cases h
      · cases h
    · simp only [Option.map_eq_some_iff, Prod.mk.injEq] at h
      obtain ⟨⟨a1, a2⟩, h1, h2, h3⟩ := h
      simp only at h3; subst h3; exact List.mem_cons_of_mem _ (ih h1)

end C3.Flow
