import Verif.Vec.Model

/-! # Specification of the vector: a sequence -/

set_option autoImplicit false

namespace C3.Vec

/-- Calls on a sequence; `none` outside the precondition. -/
def specStep (s : List Elem) : Op → Option (List Elem × List Elem)
  | .add x => some (s ++ [x], [])
  | .insertFirst x => some (x :: s, [])
  | .insertAt i x => if i.toNat ≤ s.length then some (s.take i.toNat ++ x :: s.drop i.toNat, []) else none
  | .pop => if s = [] then none else some (s.dropLast, [])
  | .eraseFront n => if n.toNat ≤ s.length then some (s.drop n.toNat, []) else none
  | .eraseAt i => if i.toNat < s.length then some (s.eraseIdx i.toNat, []) else none
  | .resize n => if n.toNat ≤ s.length then some (s.take n.toNat, []) else none
  | .set i x => if i.toNat < s.length then some (s.set i.toNat x, []) else none
  | .get i => (s[i.toNat]?).map fun e => (s, [e])
  | .last => some (s, [s.getLastD 0#64])
  | .size => some (s, [BitVec.ofNat 64 s.length])
  | .foreach => some (s, s)

def specRun : List Elem → List Op → Option (List Elem × List (List Elem))
  | s, [] => some (s, [])
  | s, op :: ops => do
    let (s1, r) ← specStep s op
    let (s2, rs) ← specRun s1 ops
    some (s2, r :: rs)

end C3.Vec
