import Verif.Abi.LemmasArg

/-!
# C144–C149: passing values to functions on x86-64 (System V)
-/
set_option autoImplicit false

namespace C3.Abi
open Std

/-! ### Types in the examples -/

/-- `struct { float x; float y; int id; }` -/
def point : Ty := .agg false 12 4 false (.cons 0 (.float .f32) (.cons 4 (.float .f32) (.cons 8 (.int true 4) .nil)))

/-- `union @align(32) { float128 q; }` -/
def wide : Ty := .agg true 32 32 false (.cons 0 .f128 .nil)

/-- `union { double d; float f; }` -/
def number : Ty := .agg true 8 8 false (.cons 0 (.float .f64) (.cons 0 (.float .f32) .nil))

/-- `struct { double d; struct { float x; } a; }` with a tail of padding in the outer struct. -/
def tail : Ty := .agg false 16 8 false (.cons 0 (.float .f64) (.cons 8 (.agg false 4 4 false (.cons 0 (.float .f32) .nil)) .nil))

/-- `struct { int a; int b @align(8); }` -/
def apart : Ty := .agg false 16 8 false (.cons 0 (.int true 4) (.cons 8 (.int true 4) .nil))

/-- `struct { long[3] x; }` -/
def long3 : Ty := .agg false 24 8 false (.cons 0 (.array (.int true 8) 3) .nil)

theorem point_valid : Valid point := by simp [point, Valid, ValidMs, starts, size, FKind.size]

theorem point_leaves : leaves point 0 = [⟨0, 4, .float .f32⟩, ⟨4, 4, .float .f32⟩, ⟨8, 4, .integer⟩] := by simp [point, leaves, leavesMs, FKind.size]

theorem point_noQuad : noQuad point := by
  unfold noQuad; rw [point_leaves]; decide

theorem point_regs : ¬ memory point := by
  simp [memory, point, size, flexible, flexibleMs, aligned, alignedMs, align, FKind.size]

theorem point_dense : dense point := by
  intro k hk
  have hk : k < 12 := hk
  rw [point_leaves]
  by_cases a : k < 4
  · exact ⟨_, List.mem_cons_self, Nat.zero_le _, by show k < 0 + 4; omega⟩
  · by_cases b : k < 8
    · exact ⟨⟨4, 4, .float .f32⟩, by simp, by show 4 ≤ k; omega, by show k < 4 + 4; omega⟩
    · exact ⟨⟨8, 4, .integer⟩, by simp, by show 8 ≤ k; omega, by show k < 8 + 4; omega⟩

theorem long3_valid : Valid long3 := by simp [long3, Valid, ValidMs, starts, size]

theorem long3_leaves : leaves long3 0 = [⟨0, 8, .integer⟩, ⟨8, 8, .integer⟩, ⟨16, 8, .integer⟩] := by
  simp [long3, leaves, leavesMs, List.range, List.range.loop, size]

theorem long3_noQuad : noQuad long3 := by
  unfold noQuad; rw [long3_leaves]; decide

theorem long3_memory : memory long3 := Or.inl (by simp [long3, size])

/-! ### C144 -/

/-- The compiler gives every value the classes of the convention. -/
def C144_full : Prop :=
  ∀ (avx : Nat) (t : Ty), Valid t →
    ∃ s, classify avx t 0 = some s ∧ (memory t → s.1 = .mem) ∧ (¬ memory t → s = (low (leaves t 0), high (leaves t 0)))

/-- It does not where 32 byte vectors are used (AVX): a union of 32 bytes with a `float128` is passed in a register. -/
theorem C144_fails : ¬ C144_full := by
  intro h
  obtain ⟨s, h1, h2, -⟩ := h 32 wide (by simp [wide, Valid, ValidMs, starts, size])
  have : classify 32 wide 0 = some (.sse, .sseup) := by decide +kernel
  rw [this] at h1
  cases h1
  exact absurd (h2 (Or.inl (by simp [wide, size]))) (by simp)

/-- **C144**, for values without unions or without `float128`, or targets without AVX: the classification of every value ends, gives `MEMORY` exactly
for what the convention passes in memory, and otherwise gives the classes that the numbers in the two eightbytes call for.
Missing: unions with a `float128` with AVX. -/
theorem C144_classes_partial (avx : Nat) (t : Ty) (hv : Valid t) (hq : avx = 16 ∨ noQuad t ∨ plain t) :
    ∃ s, classify avx t 0 = some s ∧ (memory t → s.1 = .mem) ∧ (¬ memory t → s = (low (leaves t 0), high (leaves t 0))) := by
  obtain ⟨s, h1, h2, h3⟩ := classify_any avx t hv hq
  exact ⟨s, h1, fun m => (h2 m).1, h3⟩

/-- Two floats are of class SSE, the number behind them of class INTEGER. -/
example : classify 16 point 0 = some (.sse, .integer) := by
  obtain ⟨s, h1, -, h2⟩ := C144_classes_partial 16 point point_valid (Or.inl rfl)
  rw [h1, h2 point_regs, point_leaves]; decide

example : ∃ s, classify 32 long3 0 = some s ∧ s.1 = .mem :=
  (C144_classes_partial 32 long3 long3_valid (Or.inr (Or.inl long3_noQuad))).imp fun _ h => ⟨h.1, h.2.1 long3_memory⟩

/-! ### C145 -/

/-- Whatever way a value is passed, no byte of its numbers is lost. -/
def C145_full : Prop :=
  ∀ (avx : Nat) (t : Ty) (free : Nat) (info : Info) (regs : Regs), Valid t → classifyArg avx t free = some (info, regs) →
    ∀ l ∈ leaves t 0, ∀ k, l.off ≤ k → k < l.off + l.size → carries info k

/-- A union of a `double` and a `float` is passed as a `float`. -/
theorem C145_fails : ¬ C145_full := by
  intro h
  have hc : classifyArg 16 number 6 = some (.coerce (.float .f32) none, ⟨1, 0⟩) := by decide +kernel
  have := h 16 number 6 _ _ (by simp [number, Valid, ValidMs, starts, size, FKind.size]) hc ⟨0, 8, .float .f64⟩
    (by simp [number, leaves, leavesMs, FKind.size]) 7 (by decide) (by decide)
  exact absurd this (by show ¬ 7 < AbiType.size (.float .f32); decide)

/-- **C145**, for values without unions that have no 16 bit floats or no padding: as a parameter and as a result, a value is passed
as it is, in memory, or in registers that hold every byte of every number in it. Missing: unions, and padding between 16 bit
floats. -/
theorem C145_bytes_partial (avx : Nat) (t : Ty) (hv : Valid t) (hp : plain t) (hn : noHalf t ∨ dense t) :
    (∀ free info regs, classifyArg avx t free = some (info, regs) → ∀ l ∈ leaves t 0, ∀ k, l.off ≤ k → k < l.off + l.size → carries info k) ∧
    (∀ info, classifyReturn avx t = some info → ∀ l ∈ leaves t 0, ∀ k, l.off ≤ k → k < l.off + l.size → carries info k) := by
  obtain ⟨s, h1, h2, h3⟩ := classify_any avx t hv (Or.inr (Or.inr hp))
  by_cases hm : memory t
  · obtain ⟨a, b⟩ := h2 hm
    refine ⟨fun free info regs h => ?_, fun info h => ?_⟩
    · unfold classifyArg at h
      rw [h1] at h
      simp only at h
      rw [if_neg (by rintro (⟨-, g⟩ | ⟨g, -⟩); exact g a; exact b g), a] at h
      cases h
      exact fun l _ k _ _ => indirect_carry t free k
    · unfold classifyReturn at h
      rw [h1] at h
      simp only at h
      rw [if_neg (by rintro (⟨-, g⟩ | ⟨g, -⟩); exact g a; exact b g), a] at h
      cases h
      exact fun l _ k _ _ => indirectReturn_carry t k
  · have hs := h3 hm
    subst hs
    refine ⟨fun free info regs h => ?_, fun info h => ?_⟩
    · obtain ⟨sec, hP, -⟩ := arg_parts h1 (low_reg hv) h
      exact parts_carry (small_of hv hm) hp hn hP
    · obtain ⟨sec, hP⟩ := ret_parts h1 (low_reg hv) h
      exact parts_carry (small_of hv hm) hp hn hP

/-- Two registers: a vector of two floats and an `int`. -/
example : classifyArg 16 point 6 = some (.pair (.vector .f32 2) (.int true 4), ⟨1, 1⟩) ∧
    ∀ l ∈ leaves point 0, ∀ k, l.off ≤ k → k < l.off + l.size → carries (.pair (.vector .f32 2) (.int true 4)) k := by
  have h : classifyArg 16 point 6 = some (.pair (.vector .f32 2) (.int true 4), ⟨1, 1⟩) := by decide +kernel
  exact ⟨h, (C145_bytes_partial 16 point point_valid (by simp [point, plain, plainMs]) (Or.inr point_dense)).1 6 _ _ h⟩

/-! ### C146 -/

/-- **C146.** A value that is passed or returned in registers is in registers of the kind of its classes: an eightbyte that has an
integer is in a general register, one with floating point numbers only is in a vector register, and there is a second register
exactly if there is a second eightbyte that is not the upper half of a `float128`. -/
theorem C146_register_kinds (avx : Nat) (t : Ty) (hv : Valid t) (hm : ¬ memory t) :
    (∀ free info regs, classifyArg avx t free = some (info, regs) → inRegs t info) ∧ (∀ info, classifyReturn avx t = some info → inRegs t info) := by
  have h1 := classify_std avx t hv hm
  refine ⟨fun free info regs h => ?_, fun info h => ?_⟩
  · obtain ⟨sec, hP, -⟩ := arg_parts h1 (low_reg hv) h
    exact parts_kind (small_of hv hm) hP
  · obtain ⟨sec, hP⟩ := ret_parts h1 (low_reg hv) h
    exact parts_kind (small_of hv hm) hP

example : inRegs point (.pair (.vector .f32 2) (.int true 4)) ∧ ¬ inRegs point (.pair (.int false 8) (.int true 4)) := by
  refine ⟨(C146_register_kinds 16 point point_valid point_regs).1 6 _ ⟨1, 1⟩ (by decide +kernel), ?_⟩
  rintro ⟨h, -⟩
  rw [point_leaves] at h
  exact absurd (h.2 (by decide)) (by decide)

/-! ### C147 -/

/-- The compiler can pass and return every value. -/
def C147_full : Prop :=
  ∀ (avx : Nat) (t : Ty) (free : Nat), Valid t → (classifyArg avx t free).isSome ∧ (classifyReturn avx t).isSome

/-- It stops with an assertion at `struct { int a; int b @align(8); }`, whose first eightbyte ends with padding. -/
theorem C147_fails : ¬ C147_full := by
  intro h
  have hc : classifyArg 16 apart 6 = none := by decide +kernel
  have := (h 16 apart 6 (by simp [apart, Valid, ValidMs, starts, size])).1
  rw [hc] at this
  cases this

/-- And it uses a null pointer at `struct { double d; struct { float x; } a; }`. -/
theorem C147_fails_nested : Valid tail ∧ fpAt tail 12 = none ∧ classifyArg 16 tail 6 = none ∧ classifyReturn 16 tail = none :=
  ⟨by simp [tail, Valid, ValidMs, starts, size, FKind.size], by decide +kernel, by decide +kernel, by decide +kernel⟩

/-- **C147**, for values without unions that are without padding or are passed in memory: the compiler finds a way to pass and to
return every value. Values with unions that are passed in memory are fine too unless they have a `float128` and there is AVX.
Missing: unions and padding in values that are passed in registers. -/
theorem C147_total_partial (avx : Nat) (t : Ty) (free : Nat) (hv : Valid t)
    (hd : memory t ∧ (avx = 16 ∨ noQuad t ∨ plain t) ∨ plain t ∧ dense t) :
    (classifyArg avx t free).isSome ∧ (classifyReturn avx t).isSome := by
  have hq : avx = 16 ∨ noQuad t ∨ plain t := hd.elim And.right fun h => Or.inr (Or.inr h.1)
  obtain ⟨s, h1, h2, h3⟩ := classify_any avx t hv hq
  by_cases hm : memory t
  · obtain ⟨a, b⟩ := h2 hm
    unfold classifyArg classifyReturn
    rw [h1]
    simp only
    have ok : ¬ ((s.2 = .mem ∧ s.1 ≠ .mem) ∨ (s.2 = .sseup ∧ s.1 ≠ .sse)) := by
      rintro (⟨-, g⟩ | ⟨g, -⟩)
      · exact g a
      · exact b g
    rw [if_neg ok, if_neg ok, a]
    exact ⟨rfl, rfl⟩
  · have hs := h3 hm
    subst hs
    obtain ⟨hp, hd⟩ := hd.resolve_left fun g => hm g.1
    obtain ⟨⟨p, a⟩, i, b⟩ := arg_total free h1 (small_of hv hm) hp hd
    rw [a, b]
    exact ⟨rfl, rfl⟩

example : (classifyArg 32 point 0).isSome ∧ (classifyReturn 32 point).isSome :=
  C147_total_partial 32 point 0 point_valid (Or.inr ⟨by simp [point, plain, plainMs], point_dense⟩)

theorem params_total {avx : Nat} : ∀ (ts : List Ty) (avail : Regs), (∀ t ∈ ts, ∀ free, (classifyArg avx t free).isSome) → ∃ infos, classifyParams avx ts avail = some infos
  | [], avail, _ => ⟨[], rfl⟩
  | t :: rest, avail, h => by
    unfold classifyParams
    have hP : ∃ p, classifyParam avx t avail = some p := by
      unfold classifyParam
      obtain ⟨p, hp⟩ := Option.isSome_iff_exists.1 (h t List.mem_cons_self avail.int)
      rw [hp]
      show ∃ q, (if avail.sse < p.2.sse then some (indirectResult t avail.int, avail)
        else if avail.int < p.2.int then some (indirectResult t avail.int, avail)
        else some (p.1, ⟨avail.sse - p.2.sse, avail.int - p.2.int⟩)) = some q
      split
      · exact ⟨_, rfl⟩
      · split <;> exact ⟨_, rfl⟩
    obtain ⟨⟨i, left⟩, hp⟩ := hP
    rw [hp]
    obtain ⟨more, hm⟩ := params_total rest left (fun t ht => h t (List.mem_cons_of_mem _ ht))
    show ∃ infos, (classifyParams avx rest left).bind _ = some infos
    rw [hm]
    exact ⟨_, rfl⟩

/-- **C147**, for functions with any number of parameters: the compiler makes a declaration of every one. Missing: as above. -/
theorem C147_function_partial (avx : Nat) (ret : Ty) (byRef : Bool) (params : List Ty)
    (hr : ret = .void ∨ Valid ret ∧ (memory ret ∧ (avx = 16 ∨ noQuad ret ∨ plain ret) ∨ plain ret ∧ dense ret))
    (hp : ∀ t ∈ params, Valid t ∧ (memory t ∧ (avx = 16 ∨ noQuad t ∨ plain t) ∨ plain t ∧ dense t)) : (createFunction avx ret byRef params).isSome := by
  have hR : ∃ r, classifyReturn avx ret = some r := by
    rcases hr with rfl | ⟨h1, h2⟩
    · exact ⟨_, rfl⟩
    · exact Option.isSome_iff_exists.1 (C147_total_partial avx ret 0 h1 h2).2
  obtain ⟨r, hR⟩ := hR
  have hall : ∀ t ∈ (if byRef then .ptr :: params else params), ∀ free, (classifyArg avx t free).isSome := by
    intro t ht free
    cases byRef with
    | false => exact (C147_total_partial avx t free (hp t ht).1 (hp t ht).2).1
    | true =>
      rcases List.mem_cons.1 ht with rfl | ht
      · rfl
      · exact (C147_total_partial avx t free (hp t ht).1 (hp t ht).2).1
  obtain ⟨infos, hi⟩ := params_total _ ⟨8, if r.isIndirect then 5 else 6⟩ hall
  unfold createFunction
  rw [hR]
  show ((classifyParams avx _ ⟨8, if r.isIndirect then 5 else 6⟩).bind _).isSome
  rw [hi]
  rfl

example : (createFunction 16 .void true [point, long3, .i128]).isSome := by
  refine C147_function_partial 16 .void true _ (Or.inl rfl) (fun t ht => ?_)
  simp at ht
  rcases ht with rfl | rfl | rfl
  · exact ⟨point_valid, Or.inr ⟨by simp [point, plain, plainMs], point_dense⟩⟩
  · exact ⟨long3_valid, Or.inl ⟨long3_memory, Or.inl rfl⟩⟩
  · exact ⟨trivial, Or.inr ⟨trivial, fun k hk => ⟨⟨0, 16, .integer⟩, by simp [leaves], Nat.zero_le _, by
      have : k < 16 := hk
      show k < 0 + 16
      omega⟩⟩⟩

/-! ### C148 -/

theorem indirect_stack (t : Ty) (i : Nat) : onStack t i (indirectResult t i) := by
  unfold indirectResult
  by_cases a : aggregate t = false
  · rw [if_pos a]; exact a
  · rw [if_neg a]
    have a' : aggregate t = true := by simpa using a
    by_cases b : i = 0 ∧ align t ≤ 8 ∧ size t ≤ 8
    · rw [if_pos b]; exact ⟨b.1, b.2.2⟩
    · rw [if_neg b]
      by_cases c : align t < 8
      · rw [if_pos c]; exact ⟨a', rfl, by omega⟩
      · rw [if_neg c]; exact ⟨a', rfl, by omega⟩

theorem param_step {avx : Nat} {t : Ty} {avail left : Regs} {info : Info} (hv : Valid t) (hq : avx = 16 ∨ noQuad t ∨ plain t)
    (h : classifyParam avx t avail = some (info, left)) :
    ((memory t ∨ avail.int < (needs t).1 ∨ avail.sse < (needs t).2) ∧ onStack t avail.int info ∧ left = avail) ∨
    (¬ memory t ∧ (needs t).1 ≤ avail.int ∧ (needs t).2 ≤ avail.sse ∧ inRegs t info ∧ left = ⟨avail.sse - (needs t).2, avail.int - (needs t).1⟩) := by
  obtain ⟨s, h1, h2, h3⟩ := classify_any avx t hv hq
  unfold classifyParam at h
  cases hA : classifyArg avx t avail.int with
  | none => rw [hA] at h; cases h
  | some p =>
    obtain ⟨info', regs⟩ := p
    rw [hA] at h
    have h : (if avail.sse < regs.sse then some (indirectResult t avail.int, avail)
      else if avail.int < regs.int then some (indirectResult t avail.int, avail)
      else some (info', ⟨avail.sse - regs.sse, avail.int - regs.int⟩)) = some (info, left) := h
    by_cases hm : memory t
    · obtain ⟨a, b⟩ := h2 hm
      unfold classifyArg at hA
      rw [h1] at hA
      simp only at hA
      rw [if_neg (by rintro (⟨-, g⟩ | ⟨g, -⟩); exact g a; exact b g), a] at hA
      cases hA
      rw [if_neg (Nat.not_lt_zero _), if_neg (Nat.not_lt_zero _)] at h
      cases h
      exact Or.inl ⟨Or.inl hm, indirect_stack t _, rfl⟩
    · have hs := h3 hm
      subst hs
      obtain ⟨sec, hP, hr⟩ := arg_parts h1 (low_reg hv) hA
      have hn := used_needs (low_reg hv) hP
      rw [hn] at hr
      subst hr
      simp only at h
      by_cases c : avail.sse < (needs t).2
      · rw [if_pos c] at h
        cases h
        exact Or.inl ⟨Or.inr (Or.inr c), indirect_stack t _, rfl⟩
      · rw [if_neg c] at h
        by_cases d : avail.int < (needs t).1
        · rw [if_pos d] at h
          cases h
          exact Or.inl ⟨Or.inr (Or.inl d), indirect_stack t _, rfl⟩
        · rw [if_neg d] at h
          cases h
          exact Or.inr ⟨hm, by omega, by omega, parts_kind (small_of hv hm) hP, rfl⟩

theorem params_assigned {avx : Nat} : ∀ (ts : List Ty) (avail : Regs) (infos : List Info), (∀ t ∈ ts, Valid t ∧ (avx = 16 ∨ noQuad t ∨ plain t)) →
    classifyParams avx ts avail = some infos → Assigned ts avail.int avail.sse infos
  | [], avail, infos, _, h => by
    cases h
    exact Assigned.nil _ _
  | t :: rest, avail, infos, hv, h => by
    unfold classifyParams at h
    obtain ⟨⟨info, left⟩, h1, h⟩ := Option.bind_eq_some_iff.1 h
    obtain ⟨more, h2, h⟩ := Option.bind_eq_some_iff.1 h
    cases h
    have ih := params_assigned rest left more (fun t ht => hv t (List.mem_cons_of_mem _ ht)) h2
    obtain ⟨v, q⟩ := hv t List.mem_cons_self
    rcases param_step v q h1 with ⟨a, b, rfl⟩ | ⟨a, b, c, d, rfl⟩
    · exact Assigned.stack a b ih
    · exact Assigned.regs a b c d ih

theorem memory_agg {t : Ty} (hv : Valid t) (m : memory t) : aggregate t = true := by
  cases t with
  | slice => rfl
  | any => rfl
  | agg => rfl
  | array => rfl
  | void => exact hv.elim
  | int sg b =>
    have : b = 1 ∨ b = 2 ∨ b = 4 ∨ b = 8 := hv
    simp [memory, size, flexible, aligned] at m
    omega
  | ptr => simp [memory, size, flexible, aligned] at m
  | i128 => simp [memory, size, flexible, aligned] at m
  | f128 => simp [memory, size, flexible, aligned] at m
  | float k => cases k <;> simp [memory, size, FKind.size, flexible, aligned] at m

/-- In every function, parameters are assigned as the convention says. -/
def C148_full : Prop :=
  ∀ (avx : Nat) (ret : Ty) (byRef : Bool) (params : List Ty) (r : Info) (infos : List Info),
    (ret = .void ∨ Valid ret) → (∀ t ∈ params, Valid t) → createFunction avx ret byRef params = some (r, infos) →
    (memory ret → Assigned (if byRef then .ptr :: params else params) 5 8 infos) ∧
    (¬ memory ret → Assigned (if byRef then .ptr :: params else params) 6 8 infos)

/-- As C144 fails. -/
theorem C148_fails : ¬ C148_full := by
  intro h
  have hc : createFunction 32 .void false [wide] = some (.ignore, [.coerce (.vector .f64 4) none]) := by decide +kernel
  have := (h 32 .void false [wide] _ _ (Or.inl rfl) (by simp [wide, Valid, ValidMs, starts, size]) hc).2 (by simp [memory, size, flexible, aligned])
  cases this with
  | stack _ h _ => exact h
  | regs h _ _ _ _ => exact h (Or.inl (by simp [wide, size]))

/-- **C148**, with C144: in every function, parameters are assigned in order to six general and eight vector registers, five general ones if
the result is returned in memory: a parameter that is of class memory or for which not all of its registers are left is on the
stack as a whole and leaves the registers for those after it; every other one takes exactly the registers its classes call for. Missing: unions with a `float128` with AVX. -/
theorem C148_assignment_partial (avx : Nat) (ret : Ty) (byRef : Bool) (params : List Ty) (r : Info) (infos : List Info)
    (hr : ret = .void ∨ Valid ret ∧ (avx = 16 ∨ noQuad ret ∨ plain ret)) (hp : ∀ t ∈ params, Valid t ∧ (avx = 16 ∨ noQuad t ∨ plain t))
    (h : createFunction avx ret byRef params = some (r, infos)) :
    (memory ret → Assigned (if byRef then .ptr :: params else params) 5 8 infos) ∧
    (¬ memory ret → Assigned (if byRef then .ptr :: params else params) 6 8 infos) := by
  unfold createFunction at h
  obtain ⟨r', h1, h⟩ := Option.bind_eq_some_iff.1 h
  obtain ⟨infos', h2, h⟩ := Option.bind_eq_some_iff.1 h
  cases h
  have hall : ∀ t ∈ (if byRef then .ptr :: params else params), Valid t ∧ (avx = 16 ∨ noQuad t ∨ plain t) := by
    intro t ht
    cases byRef with
    | false => exact hp t ht
    | true =>
      rcases List.mem_cons.1 ht with rfl | ht
      · exact ⟨trivial, Or.inr (Or.inr trivial)⟩
      · exact hp t ht
  have hA := params_assigned _ _ _ hall h2
  rcases hr with rfl | ⟨hv, hq⟩
  · cases h1
    refine ⟨fun m => ?_, fun _ => hA⟩
    simp [memory, size, flexible, aligned] at m
  · obtain ⟨s, c1, c2, c3⟩ := classify_any avx ret hv hq
    refine ⟨fun m => ?_, fun m => ?_⟩
    · obtain ⟨a, b⟩ := c2 m
      unfold classifyReturn at h1
      rw [c1] at h1
      simp only at h1
      rw [if_neg (by rintro (⟨-, g⟩ | ⟨g, -⟩); exact g a; exact b g), a] at h1
      cases h1
      have : (indirectReturn ret).isIndirect = true := by
        unfold indirectReturn
        rw [if_pos (memory_agg hv m)]; rfl
      rw [this] at hA
      exact hA
    · have hs := c3 m
      subst hs
      obtain ⟨sec, hP⟩ := ret_parts c1 (low_reg hv) h1
      have hk := parts_kind (small_of hv m) hP
      have : r.isIndirect = false := by
        cases r <;> first | rfl | exact hk.elim
      rw [this] at hA
      exact hA

/-- With a result in memory and four numbers, the struct that needs two more general registers is on the stack, and the number
behind it still gets the last register. -/
example : ∃ infos, createFunction 16 long3 false [.ptr, .ptr, .ptr, .ptr, .slice, .ptr] = some (.indirect 8 false, infos) ∧
    Assigned [.ptr, .ptr, .ptr, .ptr, .slice, .ptr] 5 8 infos ∧ infos[4]? = some (.indirect 8 true) := by
  have h : createFunction 16 long3 false [.ptr, .ptr, .ptr, .ptr, .slice, .ptr] =
    some (.indirect 8 false, [.direct none, .direct none, .direct none, .direct none, .indirect 8 true, .direct none]) := by decide +kernel
  refine ⟨_, h, ?_, rfl⟩
  refine (C148_assignment_partial 16 long3 false _ _ _ (Or.inr ⟨long3_valid, Or.inl rfl⟩) (fun t ht => ⟨?_, Or.inl rfl⟩) h).1 long3_memory
  simp at ht
  rcases ht with rfl | rfl | rfl <;> trivial

/-! ### C149 -/

/-- Results are in memory exactly if the convention says so. -/
def C149_full : Prop :=
  ∀ (avx : Nat) (t : Ty) (info : Info), Valid t → classifyReturn avx t = some info →
    (memory t → info = .indirect (align t) false) ∧ (¬ memory t → info.isIndirect = false ∧ info ≠ .ignore)

/-- As C144 fails. -/
theorem C149_fails : ¬ C149_full := by
  intro h
  have hc : classifyReturn 32 wide = some (.coerce (.vector .f64 4) none) := by decide +kernel
  have := (h 32 wide _ (by simp [wide, Valid, ValidMs, starts, size]) hc).1 (Or.inl (by simp [wide, size]))
  cases this

/-- **C149**, with C144: a result of class memory is written through a pointer the caller passes, to memory of the alignment of its type,
with no copy; a result that is not of class memory is never returned that way, and it is never dropped. Missing: unions with a `float128` with AVX. -/
theorem C149_results_partial (avx : Nat) (t : Ty) (info : Info) (hv : Valid t) (hq : avx = 16 ∨ noQuad t ∨ plain t) (h : classifyReturn avx t = some info) :
    (memory t → info = .indirect (align t) false) ∧ (¬ memory t → info.isIndirect = false ∧ info ≠ .ignore) := by
  obtain ⟨s, c1, c2, c3⟩ := classify_any avx t hv hq
  refine ⟨fun m => ?_, fun m => ?_⟩
  · obtain ⟨a, b⟩ := c2 m
    unfold classifyReturn at h
    rw [c1] at h
    simp only at h
    rw [if_neg (by rintro (⟨-, g⟩ | ⟨g, -⟩); exact g a; exact b g), a] at h
    cases h
    have ha := memory_agg hv m
    unfold indirectReturn
    rw [if_pos ha]
  · have hs := c3 m
    subst hs
    obtain ⟨sec, hP⟩ := ret_parts c1 (low_reg hv) h
    have hk := parts_kind (small_of hv m) hP
    cases info <;> first | exact hk.elim | exact ⟨rfl, by simp⟩

example : classifyReturn 16 long3 = some (.indirect 8 false) ∧ classifyReturn 16 point = some (.pair (.vector .f32 2) (.int true 4)) := by
  have h : ∃ i, classifyReturn 16 long3 = some i := ⟨.indirect 8 false, by decide +kernel⟩
  obtain ⟨i, h⟩ := h
  refine ⟨?_, by decide +kernel⟩
  have := (C149_results_partial 16 long3 i long3_valid (Or.inl rfl) h).1 long3_memory
  rw [h, this]; rfl

end C3.Abi
