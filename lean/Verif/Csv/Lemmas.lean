import Verif.Csv.Spec
import Verif.Str.Props

/-! Lemmas on lines and pieces. -/

set_option autoImplicit false

namespace C3.Csv
open C3.Str.Spec (Pieces At interleave)

theorem lineLoop_line (line rest str : List Byte) (h : 10 ∉ line) :
    lineLoop (line ++ 10 :: rest) str = (str ++ line.filter (· ≠ 13), rest) := by
  induction line generalizing str with
  | nil => simp [lineLoop]
  | cons c line ih =>
    have hc : c ≠ 10 := fun e => h (by simp [e])
    have hl : 10 ∉ line := fun e => h (List.mem_cons_of_mem _ e)
    rw [List.cons_append, lineLoop]
    by_cases h13 : c = 13
    · rw [if_pos h13, ih _ hl]; simp [h13]
    · rw [if_neg h13, if_neg hc, ih _ hl]
      rw [List.filter_cons_of_pos (by simpa using h13)]; simp

theorem lineLoop_last (line str : List Byte) (h : 10 ∉ line) : lineLoop line str = (str ++ line.filter (· ≠ 13), []) := by
  induction line generalizing str with
  | nil => simp [lineLoop]
  | cons c line ih =>
    have hc : c ≠ 10 := fun e => h (by simp [e])
    have hl : 10 ∉ line := fun e => h (List.mem_cons_of_mem _ e)
    rw [lineLoop]
    by_cases h13 : c = 13
    · rw [if_pos h13, ih _ hl]; simp [h13]
    · rw [if_neg h13, if_neg hc, ih _ hl]
      rw [List.filter_cons_of_pos (by simpa using h13)]; simp

theorem first_filter (c : Byte) (line : List Byte) :
    (if c ≠ 13 then [c] else []) ++ line.filter (· ≠ 13) = (c :: line).filter (· ≠ 13) := by
  by_cases h : c = 13
  · simp [h]
  · rw [if_pos h, List.filter_cons_of_pos (by simpa using h)]; rfl

theorem readline_line (line rest : List Byte) (h : 10 ∉ line) :
    readline (line ++ 10 :: rest) = some (⟨line.filter (· ≠ 13), !line.isEmpty⟩, rest) := by
  cases line with
  | nil => simp [readline]
  | cons c line =>
    have hc : c ≠ 10 := fun e => h (by simp [e])
    have hl : 10 ∉ line := fun e => h (List.mem_cons_of_mem _ e)
    rw [List.cons_append, readline, if_neg hc, lineLoop_line _ _ _ hl, first_filter]; rfl

theorem readline_last (line : List Byte) (h : 10 ∉ line) (hn : line ≠ []) :
    readline line = some (⟨line.filter (· ≠ 13), true⟩, []) := by
  cases line with
  | nil => exact absurd rfl hn
  | cons c line =>
    have hc : c ≠ 10 := fun e => h (by simp [e])
    have hl : 10 ∉ line := fun e => h (List.mem_cons_of_mem _ e)
    rw [readline, if_neg hc, lineLoop_last _ _ hl, first_filter]

theorem at_mem {s : List Byte} {d : Byte} {i : Nat} (h : At s [d] i) : s[i]? = some d := by
  obtain ⟨a, b, rfl, rfl⟩ := h
  simp

theorem pieces_plain (d : Byte) : ∀ row : List (List Byte), row ≠ [] → (∀ f ∈ row, d ∉ f) →
    Pieces [d] (interleave [d] row) row
  | [], h, _ => absurd rfl h
  | [f], _, hf => by
    have : interleave [d] [f] = f := by simp [interleave]
    rw [this]
    refine .last f ?_
    intro i hi
    exact hf f (by simp) (List.mem_of_getElem? (at_mem hi))
  | f :: g :: row, _, hf => by
    have e : interleave [d] (f :: g :: row) = f ++ ([d] ++ interleave [d] (g :: row)) := by simp [interleave]
    rw [e]
    refine .cut f _ _ ?_ (pieces_plain d (g :: row) (by simp) (fun x hx => hf x (List.mem_cons_of_mem _ hx)))
    intro i hi ha
    have := at_mem ha
    rw [List.getElem?_append_left hi] at this
    exact hf f (by simp) (List.mem_of_getElem? this)

theorem split_plain (d : Byte) (row : List (List Byte)) (hr : row ≠ []) (hf : ∀ f ∈ row, d ∉ f)
    (hl : (interleave [d] row).length < 2 ^ 64 - 1) : Str.split (interleave [d] row) [d] 0 false = some row := by
  obtain ⟨ps, h1, h2⟩ := Str.C52_split (interleave [d] row) (d := [d]) (by simp) hl false
  rw [h2, Str.C52_unique h1 (pieces_plain d row hr hf)]; rfl

theorem interleave_not_mem (c d : Byte) (hc : c ≠ d) : ∀ row : List (List Byte), (∀ f ∈ row, c ∉ f) → c ∉ interleave [d] row
  | [], _ => by simp [interleave]
  | [f], h => by simpa [interleave] using h
  | f :: g :: row, h => by
    have e : interleave [d] (f :: g :: row) = f ++ ([d] ++ interleave [d] (g :: row)) := by simp [interleave]
    rw [e]
    have := interleave_not_mem c d hc (g :: row) (fun x hx => h x (List.mem_cons_of_mem _ hx))
    simp only [List.mem_append, List.mem_singleton, not_or]
    exact ⟨h f (by simp), hc, this⟩

theorem filter_id (l : List Byte) (h : 13 ∉ l) : l.filter (· ≠ 13) = l := by
  rw [List.filter_eq_self]
  intro a ha
  have : a ≠ 13 := fun e => h (e ▸ ha)
  simpa using this

end C3.Csv
