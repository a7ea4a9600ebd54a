import Verif.Layout.Lemmas

/-!
# The LLVM type of a struct
-/

set_option autoImplicit false

namespace C3.Layout

open Spec

theorem lOffsets_append (p : Bool) (cur : Nat) (xs ys : List LType) :
    lOffsets p cur (xs ++ ys) =
      ((lOffsets p cur xs).1 ++ (lOffsets p (lOffsets p cur xs).2 ys).1, (lOffsets p (lOffsets p cur xs).2 ys).2) := by
  induction xs generalizing cur with
  | nil => simp [lOffsets]
  | cons x xs ih => simp [lOffsets, ih]

/-- Offsets of the elements that are members, and the end of the last. -/
def memberOffs (p : Bool) : Nat → List Field → List LType → List Nat
  | cur, f :: fs, t :: ts =>
    let off := if p then cur + f.padding else roundUp (cur + f.padding) t.align
    off :: memberOffs p (off + t.size) fs ts
  | _, _, _ => []

def memberEnd (p : Bool) : Nat → List Field → List LType → Nat
  | cur, f :: fs, t :: ts =>
    let off := if p then cur + f.padding else roundUp (cur + f.padding) t.align
    memberEnd p (off + t.size) fs ts
  | cur, _, _ => cur

def width (f : Field) : Nat := if f.padding ≠ 0 then 2 else 1

theorem foldl_width (fs : List Field) (n : Nat) :
    fs.foldl (fun n f => n + (if f.padding ≠ 0 then 2 else 1)) n = n + (fs.map width).sum := by
  induction fs generalizing n with
  | nil => simp
  | cons f fs ih =>
    rw [List.foldl_cons, ih, List.map_cons, List.sum_cons, ← Nat.add_assoc]
    rfl

theorem gepIndex_eq (fs : List Field) (i : Nat) : gepIndex fs i = ((fs.take (i + 1)).map width).sum - 1 := by
  rw [gepIndex, foldl_width, Nat.zero_add]

theorem width_pos (f : Field) : 1 ≤ width f := by
  unfold width; split <;> omega

theorem gepIndex_succ (f : Field) (fs : List Field) (i : Nat) (h : i < fs.length) :
    gepIndex (f :: fs) (i + 1) = width f + gepIndex fs i := by
  rw [gepIndex_eq, gepIndex_eq, List.take_succ_cons, List.map_cons, List.sum_cons]
  cases fs with
  | nil => simp at h
  | cons g gs =>
    rw [List.take_succ_cons, List.map_cons, List.sum_cons]
    have := width_pos g
    omega

theorem lFields_eq (p : Bool) (cur : Nat) (fs : List Field) (ts : List LType) (hl : fs.length = ts.length) :
    (lOffsets p cur (lFields fs ts)).2 = memberEnd p cur fs ts ∧
    ∀ i, i < fs.length → (lOffsets p cur (lFields fs ts)).1[gepIndex fs i]? = (memberOffs p cur fs ts)[i]? := by
  induction fs generalizing cur ts with
  | nil => exact ⟨by simp [lFields, lOffsets, memberEnd], fun i h => by simp at h⟩
  | cons f fs ih =>
    cases ts with
    | nil => simp at hl
    | cons t ts =>
      simp only [List.length_cons, Nat.add_right_cancel_iff] at hl
      have ih := fun c => ih c ts hl
      rw [lFields, memberEnd, memberOffs]
      by_cases hp : f.padding = 0
      · rw [if_neg (by simp [hp]), List.nil_append, lOffsets]
        simp only [hp, Nat.add_zero]
        refine ⟨(ih _).1, ?_⟩
        intro i hi
        cases i with
        | zero => simp [gepIndex, hp]
        | succ i =>
          simp only [List.length_cons] at hi
          rw [gepIndex_succ f fs i (by omega), show width f = 1 by simp [width, hp], Nat.add_comm 1]
          simpa using (ih _).2 i (by omega)
      · rw [if_pos hp, List.singleton_append, lOffsets, lOffsets]
        have e1 : (if p = true then cur else roundUp cur (padType f.padding).align) = cur := by
          rw [show (padType f.padding).align = 1 from rfl, roundUp_one]
          split <;> rfl
        have e2 : (padType f.padding).size = f.padding := rfl
        simp only [e1, e2]
        refine ⟨(ih _).1, ?_⟩
        intro i hi
        cases i with
        | zero => simp [gepIndex, hp]
        | succ i =>
          simp only [List.length_cons] at hi
          rw [gepIndex_succ f fs i (by omega), show width f = 2 by simp [width, hp],
            show 2 + gepIndex fs i = gepIndex fs i + 1 + 1 by omega]
          simpa using (ih _).2 i (by omega)

theorem memberOffs_length (p : Bool) (cur : Nat) (fs : List Field) (ts : List LType) (hl : fs.length = ts.length) :
    (memberOffs p cur fs ts).length = fs.length := by
  induction fs generalizing cur ts with
  | nil => simp [memberOffs]
  | cons f fs ih =>
    cases ts with
    | nil => simp at hl
    | cons t ts =>
      simp only [List.length_cons, Nat.add_right_cancel_iff] at hl
      simp [memberOffs, ih _ ts hl]

/-- The tail padding does not move anything. -/
theorem accessOffset_eq (l : Layout) (ts : List LType) (hl : l.fields.length = ts.length) (i : Nat)
    (hi : i < l.fields.length) :
    accessOffset l ts i = (memberOffs l.packed 0 l.fields ts)[i]? := by
  have h := (lFields_eq l.packed 0 l.fields ts hl).2 i hi
  unfold accessOffset lElements
  rw [lOffsets_append]
  dsimp only
  rw [List.getElem?_append_left, h]
  have hm : i < (memberOffs l.packed 0 l.fields ts).length := by rw [memberOffs_length _ _ _ _ hl]; exact hi
  rw [List.getElem?_eq_getElem hm] at h
  exact (List.getElem?_eq_some_iff.1 h).1

theorem elements_end (l : Layout) (ts : List LType) (hl : l.fields.length = ts.length) :
    (lOffsets l.packed 0 (lElements l ts)).2 = memberEnd l.packed 0 l.fields ts + l.padding := by
  unfold lElements
  rw [lOffsets_append, (lFields_eq l.packed 0 l.fields ts hl).1]
  by_cases h : l.padding = 0
  · simp [h, lOffsets]
  · simp only [if_pos h, lOffsets, padType, roundUp_one]
    split <;> rfl

/-- The LLVM types of members whose natural alignment and size LLVM shares. -/
def types (ms : List Member) : List LType := ms.map fun m => ⟨m.size, m.natural⟩

theorem foldl_max (ts : List LType) (a : Nat) :
    ts.foldl (fun a t => max a t.align) a = max a (ts.foldl (fun a t => max a t.align) 0) := by
  induction ts generalizing a with
  | nil => simp
  | cons t ts ih =>
    rw [List.foldl_cons, ih, List.foldl_cons, ih (max 0 t.align)]
    omega

theorem foldl_fields (fs : List Field) (ts : List LType) (hl : fs.length = ts.length) (a : Nat) (ha : 1 ≤ a) :
    (lFields fs ts).foldl (fun a t => max a t.align) a = ts.foldl (fun a t => max a t.align) a := by
  induction fs generalizing ts a with
  | nil =>
    cases ts with
    | nil => rfl
    | cons t ts => simp at hl
  | cons f fs ih =>
    cases ts with
    | nil => simp at hl
    | cons t ts =>
      simp only [List.length_cons, Nat.add_right_cancel_iff] at hl
      rw [lFields, List.foldl_append, List.foldl_cons]
      have e : List.foldl (fun a t => max a t.align) a (if f.padding ≠ 0 then [padType f.padding] else []) = a := by
        split
        · simp [padType]; omega
        · rfl
      rw [e, ih ts hl _ (by omega), List.foldl_cons]

theorem elements_align (l : Layout) (ts : List LType) (hl : l.fields.length = ts.length) :
    lAlign false (lElements l ts) = ts.foldl (fun a t => max a t.align) 1 := by
  unfold lAlign lElements
  rw [if_neg (by simp), List.foldl_append, foldl_fields _ _ hl _ (Nat.le_refl _)]
  have := foldl_max ts 1
  split
  · simp [padType]; omega
  · rfl

theorem natural_eq (attrs : Attrs) (s : State) (ms : List Member) :
    (steps attrs s ms).natural = (types ms).foldl (fun a t => max a t.align) s.natural := by
  induction ms generalizing s with
  | nil => rfl
  | cons m ms ih => exact ih (step attrs s m)

/-! ## Where the members end up -/

theorem packed_offs (attrs : Attrs) (start : Nat) (ms : List Member) (hv : ∀ m ∈ ms, 0 < required attrs m) :
    memberOffs true start (newFields attrs start ms) (types ms) = offsets attrs start ms ∧
    memberEnd true start (newFields attrs start ms) (types ms) = lastEnd attrs start ms := by
  induction ms generalizing start with
  | nil => simp [newFields, types, memberOffs, memberEnd, offsets, lastEnd]
  | cons m ms ih =>
    have h := le_roundUp start _ (hv m (by simp))
    obtain ⟨h1, h2⟩ := ih (roundUp start (required attrs m) + m.size) fun x hx => hv x (List.mem_cons_of_mem _ hx)
    simp only [newFields, types, List.map_cons, memberOffs, memberEnd, offsets, lastEnd, if_true]
    rw [show start + (roundUp start (required attrs m) - start) = roundUp start (required attrs m) by omega]
    exact ⟨congrArg _ h1, h2⟩

theorem steps_unaligned (attrs : Attrs) (s : State) (m : Member) (ms : List Member)
    (h : (steps attrs s (m :: ms)).unaligned = false) : (steps attrs (step attrs s m) ms).unaligned = false := h

theorem unaligned_mono (attrs : Attrs) (s : State) (ms : List Member) (h : (steps attrs s ms).unaligned = false) :
    s.unaligned = false := by
  induction ms generalizing s with
  | nil => exact h
  | cons m ms ih =>
    have := ih (step attrs s m) h
    simp only [step, Bool.or_eq_false_iff] at this
    exact this.1

theorem natural_mono (attrs : Attrs) (s : State) (ms : List Member) (h : (steps attrs s ms).naturallyAligned = true) :
    s.naturallyAligned = true := by
  induction ms generalizing s with
  | nil => exact h
  | cons m ms ih =>
    have := ih (step attrs s m) h
    simp only [step, Bool.and_eq_true] at this
    exact this.1

theorem kept_offs (attrs : Attrs) (s : State) (ms : List Member) (hv : ValidMembers ms)
    (h : (steps attrs s ms).unaligned = false) :
    memberOffs false s.offset (newFields attrs s.offset ms) (types ms) = offsets attrs s.offset ms ∧
    memberEnd false s.offset (newFields attrs s.offset ms) (types ms) = lastEnd attrs s.offset ms := by
  induction ms generalizing s with
  | nil => simp [newFields, types, memberOffs, memberEnd, offsets, lastEnd]
  | cons m ms ih =>
    have hv' : ValidMembers ms := fun x hx => hv x (List.mem_cons_of_mem _ hx)
    obtain ⟨p1, p2, p3⟩ := hv m (by simp)
    have hr : Pow2 (required attrs m) := required_pow2 p1 p3
    have hle := le_roundUp s.offset _ hr.pos
    have hu := unaligned_mono attrs _ ms h
    simp only [step, Bool.or_eq_false_iff, Bool.and_eq_false_iff, decide_eq_false_iff_not, Classical.not_not] at hu
    have hd : m.natural ∣ roundUp s.offset (required attrs m) := by
      rcases hu.2 with h | h
      · rw [← h]; exact dvd_roundUp _ _
      · exact Nat.dvd_trans (p2.dvd hr (by omega)) (dvd_roundUp _ _)
    obtain ⟨h1, h2⟩ := ih (step attrs s m) hv' h
    simp only [newFields, types, List.map_cons, memberOffs, memberEnd, offsets, lastEnd, Bool.false_eq_true, if_false]
    rw [show s.offset + (roundUp s.offset (required attrs m) - s.offset) = roundUp s.offset (required attrs m) by omega,
      roundUp_of_dvd _ _ p2.pos hd]
    exact ⟨congrArg _ h1, h2⟩

theorem stripped_offs (attrs : Attrs) (s : State) (ms : List Member)
    (h : (steps attrs s ms).naturallyAligned = true) :
    memberOffs false s.offset ((newFields attrs s.offset ms).map fun f => { f with padding := 0 }) (types ms) =
      offsets attrs s.offset ms ∧
    memberEnd false s.offset ((newFields attrs s.offset ms).map fun f => { f with padding := 0 }) (types ms) =
      lastEnd attrs s.offset ms := by
  induction ms generalizing s with
  | nil => simp [newFields, types, memberOffs, memberEnd, offsets, lastEnd]
  | cons m ms ih =>
    have hu := natural_mono attrs _ ms h
    simp only [step, Bool.and_eq_true, decide_eq_true_eq] at hu
    obtain ⟨h1, h2⟩ := ih (step attrs s m) h
    simp only [newFields, types, List.map_cons, memberOffs, memberEnd, offsets, lastEnd, Bool.false_eq_true, if_false,
      Nat.add_zero]
    rw [hu.2]
    exact ⟨congrArg _ h1, h2⟩

/-- The LLVM type has the size and the offsets of the layout. -/
theorem llvm_struct (attrs : Attrs) (ms : List Member) (l : Layout) (hne : ms ≠ []) (hv : Valid attrs ms)
    (hf : Fits ms (roundUp (lastEnd attrs 0 ms) (finalAlign attrs (steps attrs (start attrs) ms))))
    (e : layoutStruct attrs ms = some (some l)) (hp : l.size - lastEnd attrs 0 ms < 2 ^ 16) :
    (∀ i, i < ms.length → accessOffset l (types ms) i = (l.fields.map (·.offset))[i]?) ∧
    structType l (types ms) =
      ⟨l.size, if l.packed then 1 else (types ms).foldl (fun a t => max a t.align) 1⟩ := by
  rw [layoutStruct_eq attrs ms hne hv hf] at e
  split at e
  · cases e
  have ha := isAlignment_pow2 attrs ms _ hv (finalAlign_is attrs ms)
  have hnat := isMax_pow2 _ _ _ _ (steps_max attrs (start attrs) ms).1 pow2_one fun m hm => (hv.2 m hm).2.1
  have hnf := natural_eq attrs (start attrs) ms
  have hoff := steps_offset attrs (start attrs) ms
  have hfl := steps_fields attrs (start attrs) ms
  have hkept := kept_offs attrs (start attrs) ms hv.2
  have hstrip := stripped_offs attrs (start attrs) ms
  have hpk := packed_offs attrs 0 ms fun m hm => (required_pow2 (hv.2 m hm).1 (hv.2 m hm).2.2).pos
  have hno := newFields_offset attrs 0 ms
  have hnl := newFields_length attrs 0 ms
  simp only [show (start attrs).offset = 0 from rfl, show (start attrs).fields = [] from rfl, List.nil_append,
    show (start attrs).natural = 1 from rfl] at hnf hoff hfl hkept hstrip
  generalize steps attrs (start attrs) ms = s at *
  unfold finish at e
  dsimp only at e
  split at e
  · cases e
  split at e
  · cases e
  injection e with e
  injection e with e
  have hlen : l.fields.length = (types ms).length := by
    rw [← e]
    simp only [hfl, types, List.length_map]
    split
    · rw [List.length_map, hnl]
    · exact hnl
  have hoffs : l.fields.map (·.offset) = offsets attrs 0 ms := by
    rw [← e]
    simp only [hfl]
    split
    · rw [List.map_map, ← hno]
      rfl
    · exact hno
  have key : memberOffs l.packed 0 l.fields (types ms) = offsets attrs 0 ms ∧
      memberEnd l.packed 0 l.fields (types ms) = lastEnd attrs 0 ms := by
    cases hpd : l.packed
    · have hpd' : (s.unaligned || decide (roundUp s.offset (finalAlign attrs s) < roundUp s.offset s.natural)) = false := by
        rw [← hpd, ← e]
      have hu : s.unaligned = false := (Bool.or_eq_false_iff.1 hpd').1
      rw [← e]
      simp only [hpd', hfl, Bool.not_false, Bool.true_and]
      cases hn : s.naturallyAligned
      · simpa using hkept hu
      · simpa using hstrip hn
    · have hpd' : (s.unaligned || decide (roundUp s.offset (finalAlign attrs s) < roundUp s.offset s.natural)) = true := by
        rw [← hpd, ← e]
      rw [← e]
      simp only [hpd', hfl, Bool.not_true, Bool.false_and, Bool.false_eq_true, if_false]
      exact hpk
  constructor
  · intro i hi
    rw [accessOffset_eq l _ hlen i (by rw [hlen]; simpa [types] using hi), key.1, hoffs]
  · unfold structType lStruct
    rw [elements_end l _ hlen, key.2]
    have hle := le_roundUp s.offset _ ha.pos
    have hsz : l.size = roundUp s.offset (finalAlign attrs s) := by rw [← e]
    have hpe : l.padding = if s.unaligned || decide (roundUp s.offset (finalAlign attrs s) < roundUp s.offset s.natural) ||
        decide (roundUp s.offset (finalAlign attrs s) > roundUp s.offset s.natural) then
          (roundUp s.offset (finalAlign attrs s) - s.offset) % 2 ^ 16 else 0 := by rw [← e]
    have hpkd : l.packed = (s.unaligned || decide (roundUp s.offset (finalAlign attrs s) < roundUp s.offset s.natural)) := by
      rw [← e]
    rw [hsz, ← hoff] at hp
    rw [Nat.mod_eq_of_lt hp] at hpe
    rw [← hoff, hsz]
    cases hpd : l.packed
    · rw [elements_align l _ hlen, ← hnf]
      rw [hpd] at hpkd
      rw [← hpkd, Bool.false_or] at hpe
      simp only [Bool.false_eq_true, if_false]
      congr 1
      have hge : ¬ roundUp s.offset (finalAlign attrs s) < roundUp s.offset s.natural := by
        have := (Bool.or_eq_false_iff.1 hpkd.symm).2
        simpa using this
      by_cases hgt : roundUp s.offset (finalAlign attrs s) > roundUp s.offset s.natural
      · rw [hpe, if_pos (by simpa using hgt), Nat.add_sub_cancel' hle]
        refine roundUp_of_dvd _ _ hnat.pos (Nat.dvd_trans (hnat.dvd ha ?_) (dvd_roundUp _ _))
        rcases Nat.lt_or_ge (finalAlign attrs s) s.natural with h | h
        · have := roundUp_mono s.offset _ _ ha hnat (Nat.le_of_lt h)
          omega
        · exact h
      · rw [hpe, if_neg (by simpa using hgt), Nat.add_zero]
        omega
    · rw [hpd] at hpkd
      rw [← hpkd] at hpe
      simp only [Bool.true_or, if_true] at hpe
      simp only [lAlign, if_true]
      rw [roundUp_one, hpe, Nat.add_sub_cancel' hle]

end C3.Layout
