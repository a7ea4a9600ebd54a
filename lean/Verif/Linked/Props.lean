import Verif.Linked.LemmasStep

set_option autoImplicit false

/-! Properties of the linked list of the standard library. -/

namespace C3.Linked

variable {α : Type}

/-! ## C150: a linked list is a sequence -/

/-- Whatever calls a program makes on a list, initialised or all zero, wherever the allocator puts the nodes: the results are
those of the same calls on a sequence. -/
theorem C150_sequence (h : Heap α) (l : LinkedList) (hl : l = zero ∨ l = init) (ops : List (Op α)) (os : List (Out α))
    (t : State α) (run : Runs ⟨h, l⟩ ops os t) : ∃ vs, onSequenceAll [] ops = some (vs, os) := by
  obtain ⟨ys, _, e⟩ := runs_rep (rep_start (h := h) hl) run
  exact ⟨vals ys, e⟩

/-- So two runs of the same calls give the same results, wherever the nodes are put. -/
theorem C150_determined (h h' : Heap α) (ops : List (Op α)) (os os' : List (Out α)) (t t' : State α)
    (run : Runs ⟨h, init⟩ ops os t) (run' : Runs ⟨h', init⟩ ops os' t') : os = os' := by
  obtain ⟨vs, e⟩ := C150_sequence h init (Or.inr rfl) ops os t run
  obtain ⟨vs', e'⟩ := C150_sequence h' init (Or.inr rfl) ops os' t' run'
  rw [e] at e'
  exact (Prod.mk.inj (Option.some.inj e')).2

/-! ## C151: no call fails but for its contract -/

/-- After any calls, the next one goes wrong (a panic, a null pointer, a node that was freed) exactly if the index it is given breaks
the contract of the function. -/
theorem C151_progress (h : Heap α) (l : LinkedList) (hl : l = zero ∨ l = init) (ops : List (Op α)) (os : List (Out α))
    (t : State α) (run : Runs ⟨h, l⟩ ops os t) (vs : List α) (hv : onSequenceAll [] ops = some (vs, os))
    (p : Nat) (f : Free t.heap p) (op : Op α) : exec t p op = none ↔ onSequence vs op = none := by
  obtain ⟨ys, r, e⟩ := runs_rep (rep_start (h := h) hl) run
  have e' : onSequenceAll [] ops = some (vals ys, os) := e
  rw [e'] at hv
  obtain ⟨rfl, _⟩ := Prod.mk.inj (Option.some.inj hv)
  have a := agrees r f op
  unfold Agrees at a
  cases ho : onSequence (vals ys) op with
  | none => rw [ho] at a; simp [a]
  | some w =>
    obtain ⟨vs, o⟩ := w
    rw [ho] at a
    obtain ⟨s', xs', ex, _⟩ := a
    simp [ex]

/-! ## C152: a list owns one node for each element and touches no other memory -/

/-- After any calls, the live nodes are those that were live before, unchanged, and one more for each element. -/
theorem C152_memory (h : Heap α) (l : LinkedList) (hl : l = zero ∨ l = init) (ops : List (Op α)) (os : List (Out α))
    (t : State α) (run : Runs ⟨h, l⟩ ops os t) (vs : List α) (hv : onSequenceAll [] ops = some (vs, os)) :
    (∀ q, h q ≠ none → t.heap q = h q) ∧
    ∃ ps : List Nat, ps.Nodup ∧ ps.length = vs.length ∧ ∀ q, (t.heap q ≠ none ↔ h q ≠ none ∨ q ∈ ps) := by
  obtain ⟨ys, r, e⟩ := runs_rep (rep_start (h := h) hl) run
  have e' : onSequenceAll [] ops = some (vals ys, os) := e
  rw [e'] at hv
  obtain ⟨rfl, _⟩ := Prod.mk.inj (Option.some.inj hv)
  refine ⟨fun q hq => r.frame q (fun hm => hq (r.own q hm)), ptrs ys, r.nodup, by simp, fun q => ?_⟩
  by_cases hm : q ∈ ptrs ys
  · exact ⟨fun _ => Or.inr hm, fun _ => seg_live r.seg q hm⟩
  · rw [r.frame q hm]
    exact ⟨Or.inl, fun hh => hh.elim id (fun hh => absurd hh hm)⟩

/-- `clear` and `free` give everything back: the memory is as it was before the first call. -/
theorem C152_clear (h : Heap α) (l : LinkedList) (hl : l = zero ∨ l = init) (ops : List (Op α)) (os : List (Out α))
    (t : State α) (run : Runs ⟨h, l⟩ ops os t) :
    ∃ t', clear t = some t' ∧ t'.heap = h ∧ len t' = 0 ∧ isEmpty t' = true := by
  obtain ⟨ys, r, _⟩ := runs_rep (rep_start (h := h) hl) run
  obtain ⟨s', e, eh, r'⟩ := clear_rep r
  refine ⟨s', e, eh, r'.size, ?_⟩
  have : s'.list.first = 0 := r'.first
  simp [isEmpty, this]

/-! Concrete cases: an empty memory, nodes at chosen addresses. -/

/-- Runs calls with the given addresses. -/
def runAll : State Nat → List (Nat × Op Nat) → Option (State Nat × List (Out Nat))
  | s, [] => some (s, [])
  | s, (p, op) :: rest =>
    match exec s p op with
    | none => none
    | some (s, o) =>
      match runAll s rest with
      | none => none
      | some (s, os) => some (s, o :: os)

/-- 7, 5, 9 pushed; 6 inserted at 2; 5 removed; the middle read; a node address used again. -/
def demo : List (Nat × Op Nat) :=
  [(40, .push 5), (80, .push 9), (16, .pushFront 7), (24, .insertAt 2 6), (1, .remove (· == 5)), (40, .push 8), (1, .get 1),
   (1, .get 3), (1, .removeLastMatch (· == 9)), (1, .pop), (1, .popFront), (1, .len)]

example : (runAll ⟨fun _ => none, zero⟩ demo).map (·.2) =
    some [.done, .done, .done, .done, .number 1, .done, .value 6, .value 8, .bool true, .value 8, .value 7, .number 1] := by
  decide +kernel

example : (onSequenceAll ([] : List Nat) (demo.map (·.2))).map (·.2) = (runAll ⟨fun _ => none, zero⟩ demo).map (·.2) := by
  decide +kernel

/-- An index behind the end. -/
example : (runAll ⟨fun _ => none, zero⟩ [(40, .push 5), (1, .get 1)]).isNone = true := by decide +kernel

/-- A run in the sense of the theorems: two elements, read from the end, then removed. -/
example : ∃ t : State Nat, Runs ⟨fun _ => none, zero⟩ [.push 5, .pushFront 9, .get 1, .pop] [.done, .done, .value 5, .value 5] t :=
  ⟨_, .cons (p := 3) ⟨by decide, rfl⟩ rfl <| .cons (p := 2) ⟨by decide, rfl⟩ rfl <| .cons (p := 1) ⟨by decide, rfl⟩ rfl <|
    .cons (p := 1) ⟨by decide, rfl⟩ rfl <| .nil _⟩

end C3.Linked
