import Verif.Lexer.Lemmas
import Verif.Lexer.Spec

/-! # Loading a file -/

set_option autoImplicit false

namespace C3.Lexer

open Spec (cleaned)

theorem cleanLoop_eq (size : Nat) (rest : List Nat) : ∀ (out buf : List Nat) (offset : Nat),
    buf.take out.length = out → buf.drop (out.length + offset) = rest ++ [0] → buf.length = size + 1 →
    out.length + offset + rest.length = size →
    ∃ buf' offset', cleanLoop size buf offset out.length = some (buf', offset') ∧ buf'.length = size + 1 ∧
      offset' + (out ++ rest.filter (· ≠ 13)).length = size ∧
      buf'.take (out ++ rest.filter (· ≠ 13)).length = out ++ rest.filter (· ≠ 13) := by
  induction rest with
  | nil =>
    intro out buf offset h1 h2 h3 h4
    simp at h4
    refine ⟨buf, offset, ?_, h3, by simp; omega, by simpa using h1⟩
    rw [cleanLoop, if_neg (by omega)]
  | cons c rest ih =>
    intro out buf offset h1 h2 h3 h4
    simp at h4
    have hlt : out.length + offset < buf.length := by omega
    have hc : buf[out.length + offset]? = some c := by
      rw [← List.head?_drop, h2]; rfl
    have h2' : buf.drop (out.length + offset + 1) = rest ++ [0] := by
      rw [← List.drop_drop, h2]; rfl
    rw [cleanLoop, if_pos (by omega)]
    simp only [hc, Option.bind_eq_bind, Option.bind_some]
    by_cases h13 : c = 13
    · subst h13
      rw [if_pos (by decide)]
      obtain ⟨buf', offset', g1, g2, g3, g4⟩ := ih out buf (offset + 1) h1 h2' h3 (by omega)
      exact ⟨buf', offset', g1, g2, by simpa using g3, by simpa using g4⟩
    · rw [if_neg (show ¬ c = ch '\r' from h13)]
      have hset : (if offset ≠ 0 then buf.set out.length c else buf) = buf.set out.length c := by
        by_cases h0 : offset = 0
        · subst h0
          simp only [ne_eq, not_true_eq_false, if_false]
          rw [Nat.add_zero] at hc
          apply List.ext_getElem?
          intro j
          rw [List.getElem?_set]
          split
          · rename_i e
            rw [if_pos (by omega), ← e, hc]
          · rfl
        · rw [if_pos h0]
      rw [hset]
      have hlen : (buf.set out.length c).length = size + 1 := by simpa using h3
      obtain ⟨buf', offset', g1, g2, g3, g4⟩ := ih (out ++ [c]) (buf.set out.length c) offset (by
          rw [List.length_append, List.length_singleton, List.take_add_one, List.take_set_of_le (by omega), h1,
            List.getElem?_set_self (by omega)]
          rfl) (by
          rw [List.drop_set_of_lt (by simp; omega)]
          rw [List.length_append, List.length_singleton, Nat.add_right_comm]
          exact h2') hlen (by simp; omega)
      have hf : out ++ (c :: rest).filter (· ≠ 13) = (out ++ [c]) ++ rest.filter (· ≠ 13) := by simp [h13]
      rw [hf]
      refine ⟨buf', offset', ?_, g2, g3, g4⟩
      rw [← g1]
      simp

/-- A file is rejected if it looks like UTF-16.  Otherwise the buffer holds the file without its byte order mark and
without carriage returns, and a NUL behind it. -/
theorem C43_clean (file : List Nat) :
    (file[0]? = some 0xFF ∨ file[1]? = some 0xFE → readAll file = some none) ∧
    (¬ (file[0]? = some 0xFF ∨ file[1]? = some 0xFE) →
      ∃ buf, readAll file = some (some (buf, (cleaned file).length)) ∧ buf.length = file.length + 1 ∧
        buf.take (cleaned file).length = cleaned file ∧ buf[(cleaned file).length]? = some 0) := by
  rcases file with _ | ⟨a, s⟩
  · simp [readAll, cleanBuffer, cleaned]
  have h0 : ((a :: s) ++ [0])[0]? = some a := rfl
  obtain ⟨b, h1, hb⟩ : ∃ b, ((a :: s) ++ [0])[1]? = some b ∧ (b ≠ 0 → (a :: s)[1]? = some b) := by
    cases s with
    | nil => exact ⟨0, rfl, by simp⟩
    | cons b s => exact ⟨b, rfl, fun _ => rfl⟩
  have hbad : (a = 0xFF ∨ b = 0xFE) ↔ ((a :: s)[0]? = some 0xFF ∨ (a :: s)[1]? = some 0xFE) := by
    have h : (a :: s)[0]? = some a := rfl
    rw [h]
    constructor
    · rintro (rfl | rfl)
      · exact .inl rfl
      · exact .inr (hb (by decide))
    · rintro (h | h)
      · exact .inl (Option.some.inj h)
      · right
        have : ((a :: s) ++ [0])[1]? = some 0xFE := by
          rw [List.getElem?_append_left (by
            have := List.getElem?_eq_some_iff.1 h
            exact this.1)]
          exact h
        rw [h1] at this
        exact Option.some.inj this
  rw [← hbad]
  unfold readAll cleanBuffer
  rw [if_neg (by simp)]
  simp only [h0, h1, Option.bind_eq_bind, Option.bind_some]
  refine ⟨fun h => by rw [if_pos (by simpa using h)], fun h => ?_⟩
  rw [if_neg (by simpa using h)]
  have key : ∀ (k : Nat) (rest : List Nat), (a :: s).drop k = rest → k ≤ (a :: s).length →
      cleaned (a :: s) = rest.filter (· ≠ 13) → ∃ buf,
      ((cleanLoop (a :: s).length ((a :: s) ++ [0]) k 0).bind fun x =>
        if (a :: s).length - x.2 < x.1.length then
          some (some (x.1.set ((a :: s).length - x.2) 0, (a :: s).length - x.2))
        else none) = some (some (buf, (cleaned (a :: s)).length)) ∧ buf.length = (a :: s).length + 1 ∧
        buf.take (cleaned (a :: s)).length = cleaned (a :: s) ∧ buf[(cleaned (a :: s)).length]? = some 0 := by
    intro k rest hk hle hcl
    obtain ⟨buf, off, g1, g2, g3, g4⟩ := cleanLoop_eq (a :: s).length rest [] ((a :: s) ++ [0]) k rfl (by
        rw [List.length_nil, Nat.zero_add, List.drop_append_of_le_length hle, hk]) (by simp) (by
        have := congrArg List.length hk
        simp at this hle
        simp; omega)
    simp only [List.nil_append, ← hcl] at g3 g4
    have hsub : (a :: s).length - off = (cleaned (a :: s)).length := by omega
    rw [show ([] : List Nat).length = 0 from rfl] at g1
    rw [g1]
    simp only [Option.bind_some, hsub]
    rw [if_pos (by omega)]
    exact ⟨_, rfl, by simpa using g2, by rw [List.take_set_of_le (by omega), g4], by rw [List.getElem?_set_self (by omega)]⟩
  by_cases hab : a = 0xEF ∧ b = 0xBB
  · obtain ⟨rfl, rfl⟩ := hab
    obtain ⟨s', rfl⟩ : ∃ s', s = 0xBB :: s' := by
      have := hb (by decide)
      cases s with
      | nil => simp at this
      | cons c s => simp at this; exact ⟨s, by rw [this]⟩
    rw [if_pos (by decide)]
    obtain ⟨c, hc, hc'⟩ : ∃ c, ((0xEF :: 0xBB :: s') ++ [0])[2]? = some c ∧
        (c = 0xBF ↔ [0xEF, 0xBB, 0xBF] <+: 0xEF :: 0xBB :: s') := by
      cases s' with
      | nil => exact ⟨0, rfl, by simp⟩
      | cons c s' => exact ⟨c, rfl, by simp [eq_comm]⟩
    rw [hc]
    simp only [Option.bind_some, decide_eq_true_eq]
    by_cases hbf : c = 0xBF
    · rw [if_pos hbf]
      have hp := hc'.1 hbf
      exact key 3 _ rfl (by obtain ⟨t, ht⟩ := hp; rw [← ht]; simp) (by rw [cleaned, if_pos hp])
    · rw [if_neg hbf]
      exact key 0 _ rfl (by simp) (by rw [cleaned, if_neg (fun h => hbf (hc'.2 h))]; rfl)
  · rw [if_neg (by simpa using hab), if_neg (by simp)]
    refine key 0 _ rfl (by simp) ?_
    rw [cleaned, if_neg]
    · rfl
    · rintro ⟨t, ht⟩
      simp at ht
      obtain ⟨rfl, rfl⟩ := ht
      simp at h1
      exact hab ⟨rfl, h1.symm⟩

/-- A file with a byte order mark and a line break of two characters. -/
example : cleaned [0xEF, 0xBB, 0xBF, 97, 13, 10, 98] = [97, 10, 98] := by decide

end C3.Lexer
