import Verif.Linked.Model

set_option autoImplicit false

/-! What a linked list is to its user: a sequence. -/

namespace C3.Linked

variable {α : Type}

/-- The calls a program can make on a list; `eq` stands for the comparison with the value that is passed. -/
inductive Op (α : Type) where
  | pushFront (v : α) | push (v : α) | first | last | clear | len | get (i : Nat) | set (i : Nat) (v : α)
  | removeAt (i : Nat) | insertAt (i : Nat) (v : α) | remove (eq : α → Bool) | pop | isEmpty | popFront
  | removeLast | removeFirst | removeFirstMatch (eq : α → Bool) | removeLastMatch (eq : α → Bool)

/-- What a call gives back. -/
inductive Out (α : Type) where
  | done | fault | value (v : α) | number (n : Nat) | bool (b : Bool)
deriving DecidableEq, Repr

def Out.ofRes : Res α → Out α
  | .ok v => .value v
  | .noMoreElement => .fault

def Out.ofDone : Res Unit → Out α
  | .ok _ => .done
  | .noMoreElement => .fault

/-- A call on the model; `p` is the address the allocator returns if the call allocates. `none`: a panic or undefined behaviour. -/
def exec (s : State α) (p : Nat) : Op α → Option (State α × Out α)
  | .pushFront v => (pushFront s p v).map fun s => (s, .done)
  | .push v => (push s p v).map fun s => (s, .done)
  | .first => (Linked.first s).map fun r => (s, .ofRes r)
  | .last => (Linked.last s).map fun r => (s, .ofRes r)
  | .clear => (Linked.clear s).map fun s => (s, .done)
  | .len => some (s, .number (Linked.len s))
  | .get i => (Linked.get s i).map fun v => (s, .value v)
  | .set i v => (Linked.set s i v).map fun s => (s, .done)
  | .removeAt i => (Linked.removeAt s i).map fun s => (s, .done)
  | .insertAt i v => (Linked.insertAt s p i v).map fun s => (s, .done)
  | .remove eq => (Linked.remove s eq).map fun r => (r.1, .number r.2)
  | .pop => (Linked.pop s).map fun r => (r.1, .ofRes r.2)
  | .isEmpty => some (s, .bool (Linked.isEmpty s))
  | .popFront => (Linked.popFront s).map fun r => (r.1, .ofRes r.2)
  | .removeLast => (Linked.removeLast s).map fun r => (r.1, .ofDone r.2)
  | .removeFirst => (Linked.removeFirst s).map fun r => (r.1, .ofDone r.2)
  | .removeFirstMatch eq => (Linked.removeFirstMatch s eq).map fun r => (r.1, .bool r.2)
  | .removeLastMatch eq => (Linked.removeLastMatch s eq).map fun r => (r.1, .bool r.2)

/-- A value if there is one, else the fault. -/
def Out.ofOption : Option α → Out α
  | some v => .value v
  | none => .fault

/-- The same call on a plain sequence. `none`: the call breaks a contract of the library. -/
def onSequence (vs : List α) : Op α → Option (List α × Out α)
  | .pushFront v => some (v :: vs, .done)
  | .push v => some (vs ++ [v], .done)
  | .first => some (vs, .ofOption vs.head?)
  | .last => some (vs, .ofOption vs.getLast?)
  | .clear => some ([], .done)
  | .len => some (vs, .number vs.length)
  | .get i => vs[i]?.map fun v => (vs, .value v)
  | .set i v => if i < vs.length then some (vs.set i v, .done) else none
  | .removeAt i => if i < vs.length then some (vs.eraseIdx i, .done) else none
  | .insertAt i v => if i ≤ vs.length then some (vs.take i ++ v :: vs.drop i, .done) else none
  | .remove eq => some (vs.filter fun v => !eq v, .number (vs.filter eq).length)
  | .pop => some (vs.dropLast, .ofOption vs.getLast?)
  | .isEmpty => some (vs, .bool vs.isEmpty)
  | .popFront => some (vs.tail, .ofOption vs.head?)
  | .removeLast => some (vs.dropLast, if vs = [] then .fault else .done)
  | .removeFirst => some (vs.tail, if vs = [] then .fault else .done)
  | .removeFirstMatch eq => some (vs.eraseP eq, .bool (vs.any eq))
  | .removeLastMatch eq => some ((vs.reverse.eraseP eq).reverse, .bool (vs.any eq))

/-- Calls on a sequence, one after the other. -/
def onSequenceAll : List α → List (Op α) → Option (List α × List (Out α))
  | vs, [] => some (vs, [])
  | vs, op :: ops =>
    match onSequence vs op with
    | none => none
    | some (vs, o) =>
      match onSequenceAll vs ops with
      | none => none
      | some (vs, os) => some (vs, o :: os)

/-- An address an allocator may return: not null, and nothing lives there. -/
def Free (h : Heap α) (p : Nat) : Prop := p ≠ 0 ∧ h p = none

/-- A program calls the functions of the list one after the other, none of them fails, and the allocator returns any free
address each time. -/
inductive Runs : State α → List (Op α) → List (Out α) → State α → Prop where
  | nil (s : State α) : Runs s [] [] s
  | cons {s s' t : State α} {p : Nat} {op : Op α} {o : Out α} {ops : List (Op α)} {os : List (Out α)} :
      Free s.heap p → exec s p op = some (s', o) → Runs s' ops os t → Runs s (op :: ops) (o :: os) t

end C3.Linked
