import Verif.Hash.SpecMd5
import Verif.Hash.LemmasBits
import Verif.Hash.LemmasMd5

set_option autoImplicit false

namespace C3.Hash.Md5

theorem f_eq (x y z : Word) : z ^^^ (x &&& (y ^^^ z)) = Rfc.F x y z := by
  apply BitVec.eq_of_getElem_eq
  intro i hi
  simp only [Rfc.F, BitVec.getElem_xor, BitVec.getElem_and, BitVec.getElem_or, BitVec.getElem_not]
  generalize x[i] = a
  generalize y[i] = b
  generalize z[i] = c
  revert a b c; decide

theorem g_eq (x y z : Word) : y ^^^ (z &&& (x ^^^ y)) = Rfc.G x y z := by
  apply BitVec.eq_of_getElem_eq
  intro i hi
  simp only [Rfc.G, BitVec.getElem_xor, BitVec.getElem_and, BitVec.getElem_or, BitVec.getElem_not]
  generalize x[i] = a
  generalize y[i] = b
  generalize z[i] = c
  revert a b c; decide

/-- Which of the macros a step uses. -/
def which (t : Nat) : Nat :=
  if t < 16 then 0 else if t < 32 then 1 else if t < 48 then 2 + t % 2 else 4

/-- Where the first variable is at a step. -/
def place (t : Nat) : Nat := (4 - t % 4) % 4

/-- The constants of the steps. -/
def T (t : Nat) : Word := (calls.map (·.t)).getD t 0

/-- The call of a step, by rule. -/
def call (t : Nat) : Call :=
  ⟨which t, place t, (place t + 1) % 4, (place t + 2) % 4, (place t + 3) % 4, Rfc.index t, T t, Rfc.shift t⟩

theorem calls_eq : calls = (List.range 64).map call := by decide +kernel

theorem func_eq (t : Nat) (x y z : Word) : func (which t) x y z = Rfc.func t x y z := by
  rw [which, Rfc.func]
  by_cases h0 : t < 16
  · rw [if_pos h0, if_pos h0]; exact f_eq x y z
  rw [if_neg h0, if_neg h0]
  by_cases h1 : t < 32
  · rw [if_pos h1, if_pos h1]; exact g_eq x y z
  rw [if_neg h1, if_neg h1]
  by_cases h2 : t < 48
  · rw [if_pos h2, if_pos h2]
    rcases Nat.mod_two_eq_zero_or_one t with e | e <;> rw [e]
    · rfl
    · exact (BitVec.xor_assoc x y z).symm
  rw [if_neg h2, if_neg h2]
  rfl

theorem load_eq (b : List Byte) (n : Nat) : load b n = Rfc.X b n := by
  rw [load, Rfc.X, Nat.mul_comm n 4]

theorem shift_lt (t : Nat) : Rfc.shift t < 32 := by
  have h : ∀ (l : List Nat), (∀ x ∈ l, x < 32) → ∀ i, l.getD i 0 < 32 := by
    intro l hl i
    rw [List.getD_eq_getElem?_getD]
    cases e : l[i]? with
    | none => simp
    | some x => exact hl x (List.mem_of_getElem? e)
  rw [Rfc.shift]
  split
  · exact h _ (by decide) _
  split
  · exact h _ (by decide) _
  split
  · exact h _ (by decide) _
  · exact h _ (by decide) _

theorem mask_eq (x : Word) : x &&& 0xffffffff = x := BitVec.and_allOnes (x := x)

/-- The four variables if the first one is at `p`. -/
def vars (p : Nat) (h : Rfc.Regs) : List Word :=
  (List.range 4).map fun q => [h.A, h.B, h.C, h.D].getD ((q + 4 - p) % 4) 0

theorem vars_at (p : Nat) (hp : p < 4) (h : Rfc.Regs) :
    at' (vars p h) p = h.A ∧ at' (vars p h) ((p + 1) % 4) = h.B ∧ at' (vars p h) ((p + 2) % 4) = h.C ∧
    at' (vars p h) ((p + 3) % 4) = h.D := by
  match p, hp with
  | 0, _ | 1, _ | 2, _ | 3, _ => exact ⟨rfl, rfl, rfl, rfl⟩

theorem vars_set (p : Nat) (hp : p < 4) (h : Rfc.Regs) (w : Word) :
    (vars p h).set p w = vars ((p + 3) % 4) ⟨h.D, w, h.B, h.C⟩ := by
  match p, hp with
  | 0, _ | 1, _ | 2, _ | 3, _ => rfl

theorem place_lt (t : Nat) : place t < 4 := by rw [place]; omega

theorem place_succ (t : Nat) : place (t + 1) = (place t + 3) % 4 := by rw [place, place]; omega

theorem exec_eq (b : List Byte) (t : Nat) (h : Rfc.Regs) :
    exec b (vars (place t) h) (call t) = vars (place (t + 1)) (Rfc.step T b h t) := by
  obtain ⟨v0, v1, v2, v3⟩ := vars_at (place t) (place_lt t) h
  simp only [exec, call, v0, v1, v2, v3, func_eq, load_eq, mask_eq]
  rw [rotl_eq _ _ (shift_lt t), vars_set _ (place_lt t), place_succ, Rfc.step]
  congr 2
  rw [BitVec.add_comm]
  congr 2
  ac_rfl

theorem steps_eq (b : List Byte) (h : Rfc.Regs) (n : Nat) :
    ((List.range n).map call).foldl (exec b) (vars 0 h) =
      vars (place n) ((List.range n).foldl (Rfc.step T b) h) := by
  induction n with
  | zero => rfl
  | succ n ih =>
    rw [List.range_succ, List.map_append, List.foldl_append, ih, List.foldl_append]
    simp only [List.map_cons, List.map_nil, List.foldl_cons, List.foldl_nil]
    exact exec_eq b n _

/-- The state as the standard has it. -/
def Vars.toRegs (v : Vars) : Rfc.Regs := ⟨v.a, v.b, v.c, v.d⟩

theorem transform_eq (s : Vars) (b : List Byte) :
    (transform s b).toRegs = Rfc.compress T s.toRegs b := by
  have e1 := steps_eq b s.toRegs 64
  have e0 : ([s.a, s.b, s.c, s.d] : List Word) = vars 0 s.toRegs := rfl
  rw [transform, calls_eq, e0, e1, Rfc.compress]
  generalize (List.range 64).foldl (Rfc.step T b) s.toRegs = q
  simp only [Vars.toRegs, Rfc.Regs.mk.injEq]
  exact ⟨BitVec.add_comm _ _, BitVec.add_comm _ _, BitVec.add_comm _ _, BitVec.add_comm _ _⟩

theorem digest_eq (s : Vars) : digest s = [s.a, s.b, s.c, s.d].flatMap Rfc.bytes := by
  have h : ∀ w, wordBytes w = Rfc.bytes w := by
    intro w
    rw [wordBytes, Rfc.bytes, ← byte_eq, ← byte_eq, ← byte_eq, ← byte_eq]
    simp
  simp only [digest, h, List.flatMap_cons, List.flatMap_nil, List.append_assoc, List.append_nil]

end C3.Hash.Md5
