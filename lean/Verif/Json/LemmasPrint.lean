import Verif.Json.LemmasParse

/-! # What is written is a rendering -/

set_option autoImplicit false

namespace C3.Json

open Spec (Blank Text Renders Digits decimal hexValue IsHex ascii escapes Item Plain Writable)

theorem _root_.C3.Json.Spec.Blank.append {a b : List Nat} (ha : Blank a) (hb : Blank b) : Blank (a ++ b) := by
  induction ha with
  | nil => exact hb
  | space c s hc _ ih => exact .space c _ hc ih
  | line c s hc _ ih => simpa using Blank.line c _ hc ih
  | block c s hc _ ih => simpa using Blank.block c _ hc ih

theorem blank_all {w : List Nat} (h : ∀ c ∈ w, c ∈ [32, 9, 10, 13]) : Blank w := by
  induction w with
  | nil => exact .nil
  | cons c w ih => exact .space c w (h c (by simp)) (ih fun c hc => h c (by simp [hc]))

theorem blank_indent (n : Nat) : Blank (indent n) := by
  apply blank_all
  intro c hc
  simp only [indent, List.mem_flatten, List.mem_replicate] at hc
  obtain ⟨l, ⟨_, rfl⟩, hc⟩ := hc
  have : bytes "  " = [32, 32] := by decide
  rw [this] at hc
  simp at hc
  simp [hc]

theorem text_plain {char : Nat → Option (List Nat)} {s : List Nat} (h : Plain s) : Text char s s := by
  induction s with
  | nil => exact .nil
  | cons c s ih =>
    have := h c (by simp)
    exact .plain c s s (by simp; omega) this.1 (ih fun c hc => h c (by simp [hc]))

theorem elems_blank {vs : List Obj} {w t : List Nat} (hw : Blank w) (h : Renders ascii (.elems vs) t) :
    Renders ascii (.elems vs) (w ++ t) := by
  cases h with
  | elem w1 w2 s v h1 hv h2 => rw [← List.append_assoc]; exact .elem _ _ _ _ (hw.append h1) hv h2
  | elemComma w1 w2 w3 s v h1 hv h2 h3 =>
    rw [← List.append_assoc]; exact .elemComma _ _ _ _ _ (hw.append h1) hv h2 h3
  | elems w1 w2 s t v vs h1 hv h2 ht => rw [← List.append_assoc]; exact .elems _ _ _ _ _ _ (hw.append h1) hv h2 ht

theorem members_blank {ms : List (List Nat × Obj)} {w t : List Nat} (hw : Blank w) (h : Renders ascii (.members ms) t) :
    Renders ascii (.members ms) (w ++ t) := by
  cases h with
  | member w1 w2 w3 w4 k key s v h1 hk h2 h3 hv h4 =>
    rw [← List.append_assoc]; exact .member _ _ _ _ _ _ _ _ (hw.append h1) hk h2 h3 hv h4
  | memberComma w1 w2 w3 w4 w5 k key s v h1 hk h2 h3 hv h4 h5 =>
    rw [← List.append_assoc]; exact .memberComma _ _ _ _ _ _ _ _ _ (hw.append h1) hk h2 h3 hv h4 h5
  | members w1 w2 w3 w4 k key s t v ms h1 hk h2 h3 hv h4 ht =>
    rw [← List.append_assoc]; exact .members _ _ _ _ _ _ _ _ _ _ (hw.append h1) hk h2 h3 hv h4 ht

/-- What was written for a value. -/
def Written (v : Obj) (s : List Nat) : Prop := ∃ w t, Blank w ∧ s = w ++ t ∧ Renders ascii (.val v) t

theorem printElems_written (float : Rat → List Nat) (level : Nat) (sb ind : List Nat) (hs : Blank sb) (hi : Blank ind)
    (vs : List Obj) : ∀ (first : Bool), vs ≠ [] → (∀ v ∈ vs, ∃ s, print float level v = some s ∧ Written v s) →
      ∃ t, printElems float level (44 :: sb) ind first vs = some ((if first then [] else 44 :: sb) ++ t) ∧
        ∀ w, Blank w → Renders ascii (.elems vs) (t ++ w) := by
  induction vs with
  | nil => intro _ h; exact absurd rfl h
  | cons v vs ih =>
    intro first _ hv
    obtain ⟨s, h1, w1, t1, hw1, rfl, h2⟩ := hv v (by simp)
    rw [printElems, h1]
    cases vs with
    | nil =>
      refine ⟨ind ++ (w1 ++ t1), by simp [printElems], fun w hw => ?_⟩
      have := Renders.elem (ind ++ w1) w t1 v (hi.append hw1) h2 hw
      simpa using this
    | cons u us =>
      obtain ⟨t, g1, g2⟩ := ih false (by simp) (fun v h => hv v (List.mem_cons_of_mem _ h))
      rw [g1]
      refine ⟨ind ++ (w1 ++ (t1 ++ (44 :: (sb ++ t)))), by simp, fun w hw => ?_⟩
      have := Renders.elems (ind ++ w1) [] t1 (sb ++ (t ++ w)) v (u :: us) (hi.append hw1) h2 .nil (elems_blank hs (g2 w hw))
      simpa using this

theorem printMembers_written (float : Rat → List Nat) (level : Nat) (ind : List Nat) (hi : Blank ind)
    (ms : List (List Nat × Obj)) : ∀ (first : Bool), ms ≠ [] → (∀ m ∈ ms, Plain m.1) →
      (∀ m ∈ ms, ∃ s, print float level m.2 = some s ∧ Written m.2 s) →
      ∃ t, printMembers float level ind first ms = some ((if first then [] else 44 :: [10]) ++ t) ∧
        ∀ w, Blank w → Renders ascii (.members ms) (t ++ w) := by
  induction ms with
  | nil => intro _ h; exact absurd rfl h
  | cons m ms ih =>
    intro first _ hk hv
    obtain ⟨k, v⟩ := m
    obtain ⟨s, h1, w1, t1, hw1, rfl, h2⟩ := hv (k, v) (by simp)
    simp only at h1 h2
    have hq : bytes "\"" = [34] := by decide
    have hc : bytes "\": " = [34, 58, 32] := by decide
    have hn : bytes ",\n" = [44, 10] := by decide
    rw [printMembers, h1, hq, hc, hn]
    have hb : Blank ([32] ++ w1) := Spec.Blank.append (blank_all (by simp)) hw1
    cases ms with
    | nil =>
      refine ⟨ind ++ ([34] ++ (k ++ ([34, 58, 32] ++ (w1 ++ t1)))), by simp [printMembers], fun w hw => ?_⟩
      have := Renders.member ind [] ([32] ++ w1) w k k t1 v hi (text_plain (hk (k, v) (by simp))) .nil hb h2 hw
      simpa using this
    | cons u us =>
      obtain ⟨t, g1, g2⟩ := ih false (by simp) (fun v h => hk v (List.mem_cons_of_mem _ h)) (fun v h => hv v (List.mem_cons_of_mem _ h))
      rw [g1]
      refine ⟨ind ++ ([34] ++ (k ++ ([34, 58, 32] ++ (w1 ++ (t1 ++ (44 :: ([10] ++ t))))))), by simp, fun w hw => ?_⟩
      have := Renders.members ind [] ([32] ++ w1) [] k k t1 ([10] ++ (t ++ w)) v (u :: us) hi (text_plain (hk (k, v) (by simp)))
        .nil hb h2 .nil (members_blank (blank_all (by simp)) (g2 w hw))
      simpa using this

theorem anyObject_some {vs : List Obj} (h : ∀ v ∈ vs, v.isNull = false) : ∃ b, anyObject vs = some b := by
  induction vs with
  | nil => exact ⟨_, rfl⟩
  | cons v vs ih =>
    unfold anyObject
    rw [h v (by simp)]
    simp only [Bool.false_eq_true, if_false]
    split
    · exact ⟨_, rfl⟩
    · exact ih fun v hv => h v (by simp [hv])

theorem writable_notNull {float : Rat → List Nat} {v : Obj} (h : Writable float v) : v.isNull = false := by
  cases h <;> rfl

theorem print_written {float : Rat → List Nat} {v : Obj} (h : Writable float v) : ∀ level,
    ∃ s, print float level v = some s ∧ Written v s := by
  induction h with
  | bool b =>
    intro level
    refine ⟨_, by rw [print], [], _, .nil, (List.nil_append _).symm, ?_⟩
    cases b
    · exact .false
    · exact .true
  | str s hs =>
    intro level
    refine ⟨_, by rw [print], [], _, .nil, (List.nil_append _).symm, ?_⟩
    have hq : bytes "\"" = [34] := by decide
    rw [hq]
    simpa using Renders.str s s (text_plain hs)
  | num q hq => intro level; exact ⟨_, by rw [print], [], _, .nil, (List.nil_append _).symm, hq⟩
  | arr vs hvs ih =>
    intro level
    cases vs with
    | nil =>
      refine ⟨_, by rw [print], [32], 91 :: ([32, 32] ++ [93]), blank_all (by simp), by decide, ?_⟩
      exact .arr0 _ (blank_all (by simp))
    | cons v vs =>
      obtain ⟨b, hb⟩ := anyObject_some (vs := v :: vs) fun v hv => writable_notNull (hvs v hv)
      rw [print, hb]
      simp only [Option.bind_eq_bind, Option.bind_some]
      split
      · obtain ⟨t, h1, h2⟩ := printElems_written float level [32] [] (blank_all (by simp)) .nil (v :: vs) true (by simp)
          (fun u hu => ih u hu level)
        have hc : bytes ", " = [44, 32] := by decide
        rw [hc, h1]
        have h3 := elems_blank (w := [32]) (blank_all (by simp)) (h2 [32] (blank_all (by simp)))
        refine ⟨_, rfl, [32], 91 :: ([32] ++ (t ++ [32]) ++ [93]), blank_all (by simp), ?_, .arr _ _ h3⟩
        have ha : bytes " [ " = [32, 91, 32] := by decide
        have hz : bytes " ]" = [32, 93] := by decide
        rw [ha, hz]
        simp
      · obtain ⟨t, h1, h2⟩ := printElems_written float (level + 1) [10] (indent (level + 1)) (blank_all (by simp))
          (blank_indent _) (v :: vs) true (by simp) (fun u hu => ih u hu (level + 1))
        have hc : bytes ",\n" = [44, 10] := by decide
        rw [hc, h1]
        have h3 := elems_blank (w := [32, 10]) (blank_all (by simp)) (h2 [10, 32] (blank_all (by simp)))
        refine ⟨_, rfl, [32], 91 :: ([32, 10] ++ (t ++ [10, 32]) ++ [93]), blank_all (by simp), ?_, .arr _ _ h3⟩
        have ha : bytes " [ \n" = [32, 91, 32, 10] := by decide
        have hz : bytes "\n ]" = [10, 32, 93] := by decide
        rw [ha, hz]
        simp
  | obj ms hk hms ih =>
    intro level
    have ha : bytes "{\n" = [123, 10] := by decide
    have hn : bytes "\n" = [10] := by decide
    have hz : bytes "}" = [125] := by decide
    rw [print, ha, hn, hz]
    have hb : Blank ([10] ++ indent level) := Spec.Blank.append (blank_all (by simp)) (blank_indent level)
    cases ms with
    | nil =>
      have := Renders.obj0 (char := ascii) ([10] ++ ([10] ++ indent level)) (Spec.Blank.append (blank_all (by simp)) hb)
      refine ⟨_, by rw [printMembers]; rfl, [], _, .nil, ?_, this⟩
      simp
    | cons m ms =>
      obtain ⟨t, h1, h2⟩ := printMembers_written float (level + 1) (indent (level + 1)) (blank_indent _) (m :: ms) true
        (by simp) hk (fun u hu => ih u hu (level + 1))
      rw [h1]
      have h3 := members_blank (w := [10]) (blank_all (by simp)) (h2 ([10] ++ indent level) hb)
      refine ⟨_, rfl, [], 123 :: ([10] ++ (t ++ ([10] ++ indent level)) ++ [125]), .nil, ?_, .obj _ _ h3⟩
      simp

end C3.Json
