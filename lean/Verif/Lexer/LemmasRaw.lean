import Verif.Lexer.LemmasChar

/-! # Raw strings, byte literals and the start of contracts -/

set_option autoImplicit false

namespace C3.Lexer

open Spec (RawText Raw HexOverrun)

theorem rawEnd_cases (src : Src) (hz : NoNul src) (m : Nat) : ∀ (l : Lx), l.pos ≤ src.length → src.length - l.pos = m →
    (∃ s t r, src.drop l.pos = s ++ 96 :: r ∧ Raw s t ∧ r.head? ≠ some 96 ∧
      rawEnd src l = some (advN src l (s.length + 1), true)) ∨
    (RawText (src.drop l.pos) ∧ rawEnd src l = some (advN src l (src.length + 1 - l.pos), false)) := by
  induction m using Nat.strongRecOn with
  | _ m ih =>
    intro l hl hm
    rw [rawEnd]
    rcases hs : src.drop l.pos with _ | ⟨c, s⟩
    · right
      have hp : l.pos = src.length := by
        have := congrArg List.length hs
        simp at this; omega
      refine ⟨.nil, ?_⟩
      simp only [peek, hp, rd_end, Option.bind_eq_bind, Option.bind_some, next_eq src hl]
      rw [if_neg (by decide), if_pos trivial, show src.length + 1 - src.length = 1 by omega]
      rfl
    · obtain ⟨hlt, hx, hs'⟩ := drop_cons hs
      have ha := Adv.one hlt
      simp only [peek, hx, Option.bind_eq_bind, Option.bind_some, next_eq src hl]
      by_cases hc : c = 96
      · subst hc
        rw [if_pos (by rfl)]
        rcases hs2 : s with _ | ⟨d, s2⟩
        · left
          refine ⟨[], [], [], by simp, .nil, by simp, ?_⟩
          have hp : l.pos + 1 = src.length := by
            have := congrArg List.length hs
            simp [hs2] at this; omega
          rw [show (adv1 src l).pos = src.length by simpa using hp, rd_end, Option.bind_some, if_pos (by decide)]
          rfl
        · rw [hs2] at hs'
          obtain ⟨hlt2, hx2, hs2'⟩ := drop_cons hs'
          rw [show (adv1 src l).pos = l.pos + 1 by simp, hx2, Option.bind_some]
          by_cases hd : d = 96
          · subst hd
            rw [if_neg (by decide), next_eq src (by simp; omega), Option.bind_some]
            rcases ih (src.length - (l.pos + 1 + 1)) (by omega) (adv1 src (adv1 src l)) (by simp; omega) (by simp)
              with ⟨s3, t, r, h1, h2, h3, h4⟩ | ⟨h1, h2⟩
            · left
              simp only [adv1_pos, hs2'] at h1
              refine ⟨96 :: 96 :: s3, 96 :: t, r, by simp [h1], .pair _ _ h2, h3, ?_⟩
              rw [h4]; rfl
            · right
              simp only [adv1_pos, hs2'] at h1
              refine ⟨.pair _ h1, ?_⟩
              rw [h2, show src.length + 1 - l.pos = (src.length + 1 - (l.pos + 1 + 1)) + 1 + 1 by omega]
              simp only [adv1_pos]; rfl
          · left
            refine ⟨[], [], d :: s2, by simp, .nil, by simpa using hd, ?_⟩
            rw [if_pos (show d ≠ ch '`' from hd)]
            rfl
      · have hc0 : c ≠ 0 := hz c (List.mem_of_mem_drop (show c ∈ src.drop l.pos by rw [hs]; simp))
        rw [if_neg (show ¬ c = ch '`' from hc), if_neg hc0]
        rcases ih (src.length - (l.pos + 1)) (by omega) (adv1 src l) (by simp; omega) (by simp)
          with ⟨s3, t, r, h1, h2, h3, h4⟩ | ⟨h1, h2⟩
        · left
          simp only [adv1_pos, hs'] at h1
          refine ⟨c :: s3, c :: t, r, by simp [h1], .char _ _ _ hc h2, h3, ?_⟩
          rw [h4]; rfl
        · right
          simp only [adv1_pos, hs'] at h1
          refine ⟨.char _ _ hc h1, ?_⟩
          rw [h2, show src.length + 1 - l.pos = (src.length + 1 - (l.pos + 1)) + 1 by omega]
          simp only [adv1_pos]; rfl

theorem rawCopy_eq (src : Src) {s t : List Nat} (hst : Raw s t) : ∀ (dest : List Nat) (i : Nat) (r : List Nat),
    src.drop i = s ++ r → rawCopy src (i + s.length) dest i = some (dest ++ t) := by
  induction hst with
  | nil => intro dest i r _; rw [rawCopy]; simp
  | char c s t hc _ ih =>
    intro dest i r hs
    obtain ⟨hlt, hx, hs'⟩ := drop_cons (s := s ++ r) hs
    rw [rawCopy, if_pos (by simp), hx]
    simp only [Option.bind_eq_bind, Option.bind_some]
    rw [if_neg (show ¬ c = ch '`' from hc)]
    have := ih (dest ++ [c]) (i + 1) r hs'
    rw [show i + (c :: s).length = i + 1 + s.length by simp; omega, this]
    simp
  | pair s t _ ih =>
    intro dest i r hs
    obtain ⟨hlt, hx, hs'⟩ := drop_cons (s := 96 :: (s ++ r)) hs
    obtain ⟨hlt2, hx2, hs2⟩ := drop_cons hs'
    rw [rawCopy, if_pos (by simp), hx]
    simp only [Option.bind_eq_bind, Option.bind_some]
    rw [if_pos (by rfl), hx2]
    simp only [Option.bind_some]
    rw [if_pos (by rfl)]
    have := ih (dest ++ [96]) (i + 2) r hs2
    rw [show i + (96 :: 96 :: s).length = i + 2 + s.length by simp; omega, this]
    simp

/-- `scan_raw_string` after its first back quote. -/
theorem scanRaw_cases (src : Src) (hz : NoNul src) {l : Lx} (hl : l.pos ≤ src.length) (hst : l.start + 1 = l.pos) :
    (∃ s t r, src.drop l.pos = s ++ 96 :: r ∧ Raw s t ∧ r.head? ≠ some 96 ∧
      scanRaw src l = some (advN src l (s.length + 1), some (.string t))) ∨
    (RawText (src.drop l.pos) ∧ scanRaw src l = some (advN src l (src.length + 1 - l.pos), none)) := by
  unfold scanRaw
  rcases rawEnd_cases src hz _ l hl rfl with ⟨s, t, r, h1, h2, h3, h4⟩ | ⟨h1, h2⟩
  · left
    refine ⟨s, t, r, h1, h2, h3, ?_⟩
    simp only [h4, Option.bind_eq_bind, Option.bind_some]
    rw [if_neg (by simp)]
    have := rawCopy_eq src h2 [] l.pos _ h1
    rw [show (advN src l (s.length + 1)).pos - 1 = l.pos + s.length by simp,
      show (advN src l (s.length + 1)).start + 1 = l.pos by simpa using hst, this]
    rfl
  · right
    refine ⟨h1, ?_⟩
    simp [h2]

theorem scanRaw_res (src : Src) (hz : NoNul src) {l : Lx} (hl : l.pos ≤ src.length) (hst : l.start + 1 = l.pos) :
    Res src l.pos (RawText (src.drop l.pos)) False l (scanRaw src l) := by
  rcases scanRaw_cases src hz hl hst with ⟨s, t, r, h1, h2, h3, h4⟩ | ⟨h1, h2⟩
  · rw [h4]
    refine .ret ⟨_, ?_, rfl⟩ (Nat.le_refl _)
    have := congrArg List.length h1
    simp at this; omega
  · rw [h2]
    exact .inr ⟨_, none, rfl, by simp, by simp, .inr ⟨rfl, by simp; omega, h1⟩⟩

theorem isWhitespace_some {c : Nat} (h : c ≠ 13) : ∃ b, isWhitespace c = some b := by
  unfold isWhitespace
  rw [if_neg (show ¬ c = ch '\r' from h)]
  exact ⟨_, rfl⟩

theorem rd_not13 {src : Src} (hcr : ∀ c ∈ src, c ≠ 13) {i c : Nat} (h : rd src i = some c) : c ≠ 13 := by
  by_cases h0 : c = 0
  · omega
  · have hlt := rd_lt src h h0
    rw [rd_getElem src hlt] at h
    rw [← Option.some.inj h]
    exact hcr _ (List.getElem_mem hlt)

theorem hexArrayLoop_res (src : Src) (hcr : ∀ c ∈ src, c ≠ 13) (quote : Nat) (lo m : Nat) :
    ∀ (len : Nat) (l : Lx), l.pos ≤ src.length → src.length - l.pos = m → lo ≤ l.pos →
    ∃ l' r, hexArrayLoop src quote len l = some (l', r) ∧ Adv src l l' ∧
      (r.isSome = true → rd src l'.pos = some quote) := by
  induction m using Nat.strongRecOn with
  | _ m ih =>
    intro len l hl hm hlo
    obtain ⟨c, hc⟩ := rd_some src hl
    rw [hexArrayLoop]
    simp only [peek, hc, Option.bind_eq_bind, Option.bind_some]
    split
    · exact ⟨l, none, rfl, Adv.refl hl, by simp⟩
    · rename_i h0
      have hlt := rd_lt src hc h0
      split
      · rename_i hcq
        exact ⟨l, _, rfl, Adv.refl hl, fun _ => by rw [hc, hcq]⟩
      · rw [next_eq src hl]
        split
        · obtain ⟨l', r, h1, h2, h3⟩ := ih (src.length - (l.pos + 1)) (by omega) (len + 1) (adv1 src l)
            (by simp; omega) (by simp) (by simp; omega)
          exact ⟨l', r, h1, (Adv.one hlt).trans h2, h3⟩
        · obtain ⟨b, hb⟩ := isWhitespace_some (rd_not13 hcr hc)
          rw [hb, Option.bind_some]
          cases b with
          | true =>
            obtain ⟨l', r, h1, h2, h3⟩ := ih (src.length - (l.pos + 1)) (by omega) len (adv1 src l)
              (by simp; omega) (by simp) (by simp; omega)
            exact ⟨l', r, h1, (Adv.one hlt).trans h2, h3⟩
          | false => exact ⟨l, none, rfl, Adv.refl hl, by simp⟩

theorem scanHexArray_res (src : Src) (hcr : ∀ c ∈ src, c ≠ 13) {l : Lx} {q : Nat} (hq : rd src l.pos = some q)
    (h0 : q ≠ 0) : Res src l.pos False False l (scanHexArray src l) := by
  have hl := rd_le src hq
  have hlt := rd_lt src hq h0
  unfold scanHexArray
  simp only [peek, hq, Option.bind_eq_bind, Option.bind_some, next_eq src hl]
  obtain ⟨l', r, h1, h2, h3⟩ := hexArrayLoop_res src hcr q l.pos _ 0 (adv1 src l) (by simp; omega) rfl (by simp)
  rw [h1, Option.bind_some]
  have ha := (Adv.one hlt).trans h2
  have hle := ha.le
  cases r with
  | none => exact .err hle ha.bound
  | some len =>
    have hlt' := rd_lt src (h3 rfl) h0
    dsimp only
    rw [next_eq src ha.bound, Option.bind_some]
    split
    · exact .err (by simp; omega) (by simp; omega)
    · exact .ret (ha.trans (Adv.one hlt')) (Nat.le_refl _)

theorem base64Loop_res (src : Src) (hcr : ∀ c ∈ src, c ≠ 13) (quote : Nat) (m : Nat) :
    ∀ (len endLen : Nat) (l : Lx), l.pos ≤ src.length → src.length - l.pos = m →
    ∃ l' r, base64Loop src quote len endLen l = some (l', r) ∧ Adv src l l' := by
  induction m using Nat.strongRecOn with
  | _ m ih =>
    intro len endLen l hl hm
    obtain ⟨c, hc⟩ := rd_some src hl
    rw [base64Loop]
    simp only [peek, hc, Option.bind_eq_bind, Option.bind_some]
    split
    · exact ⟨l, none, rfl, Adv.refl hl⟩
    · rename_i h0
      have hlt := rd_lt src hc h0
      rw [next_eq src hl, Option.bind_some]
      have again : ∀ a b, ∃ l' r, base64Loop src quote a b (adv1 src l) = some (l', r) ∧ Adv src l l' := by
        intro a b
        obtain ⟨l', r, h1, h2⟩ := ih (src.length - (l.pos + 1)) (by omega) a b (adv1 src l) (by simp; omega) (by simp)
        exact ⟨l', r, h1, (Adv.one hlt).trans h2⟩
      obtain ⟨b, hb⟩ := isWhitespace_some (rd_not13 hcr hc)
      rw [hb, Option.bind_some]
      repeat' split
      all_goals first
        | exact again _ _
        | exact ⟨_, _, rfl, Adv.one hlt⟩

theorem scanBase64_res (src : Src) (hcr : ∀ c ∈ src, c ≠ 13) {l : Lx} (h : l.pos + 3 ≤ src.length) :
    Res src l.pos False False l (scanBase64 src l) := by
  unfold scanBase64
  obtain ⟨q, hq⟩ := rd_some src (show (adv1 src (adv1 src l)).pos ≤ src.length by simp; omega)
  simp only [peek, Option.bind_eq_bind, Option.bind_some, next_eq src (show l.pos ≤ src.length by omega),
    next_eq src (show (adv1 src l).pos ≤ src.length by simp; omega), hq,
    next_eq src (show (adv1 src (adv1 src l)).pos ≤ src.length by simp; omega)]
  obtain ⟨l', r, h1, h2⟩ := base64Loop_res src hcr q _ 0 0 (adv1 src (adv1 src (adv1 src l))) (by simp; omega) rfl
  rw [h1, Option.bind_some]
  have ha : Adv src l l' := (show Adv src l (adv1 src (adv1 src (adv1 src l))) from ⟨3, h, rfl⟩).trans h2
  rcases r with _ | ⟨len, endLen⟩
  · exact .err ha.le ha.bound
  · dsimp only
    split
    · exact .err ha.le ha.bound
    · exact .ret ha (Nat.le_refl _)

theorem docLoop_adv (src : Src) (m : Nat) : ∀ (may : Bool) (comment : Option Nat) (l : Lx), l.pos ≤ src.length →
    src.length - l.pos = m → (∀ k, comment = some k → k < l.pos) →
    ∃ l' r, docLoop src may comment l = some (l', r) ∧ Adv src l l' ∧ (∀ k, r = some k → k < l'.pos) := by
  induction m using Nat.strongRecOn with
  | _ m ih =>
    intro may comment l hl hm hk
    obtain ⟨c, hc⟩ := rd_some src hl
    rw [docLoop]
    simp only [peek, hc, Option.bind_eq_bind, Option.bind_some]
    split
    · exact ⟨l, _, rfl, Adv.refl hl, hk⟩
    · rename_i h0
      have hlt := rd_lt src hc h0
      rw [next_eq src hl]
      simp only [Option.bind_some]
      have again : ∀ a b, (∀ k, b = some k → k < l.pos + 1) →
          ∃ l' r, docLoop src a b (adv1 src l) = some (l', r) ∧ Adv src l l' ∧ (∀ k, r = some k → k < l'.pos) := by
        intro a b hb
        obtain ⟨l', r, h1, h2, h3⟩ := ih (src.length - (l.pos + 1)) (by omega) a b (adv1 src l) (by simp; omega) (by simp)
          (by simpa using hb)
        exact ⟨l', r, h1, (Adv.one hlt).trans h2, h3⟩
      have hk' : ∀ k, comment = some k → k < l.pos + 1 := fun k h => by have := hk k h; omega
      split
      · exact again _ _ hk'
      · split
        · exact again _ _ hk'
        · split
          · obtain ⟨d, hd⟩ := rd_some src (show l.pos + 1 ≤ src.length by omega)
            simp only [peekNext, hd, Option.bind_some]
            split
            · exact ⟨l, _, rfl, Adv.refl hl, hk⟩
            · exact again _ _ hk'
          · obtain ⟨b, hb, -⟩ := peekPair_some src (ch '@') (by decide) isLower hl
            rw [hb, Option.bind_some]
            split
            · exact ⟨l, _, rfl, Adv.refl hl, hk⟩
            · refine again _ _ ?_
              intro k h
              cases comment with
              | none => simp at h; omega
              | some j => simp at h; subst h; have := hk j rfl; omega

theorem docLast_some (src : Src) (hcr : ∀ c ∈ src, c ≠ 13) (comment last : Nat) (h : last ≤ src.length) :
    ∃ k, docLast src comment last = some k := by
  induction last with
  | zero => exact ⟨0, rfl⟩
  | succ last ih =>
    unfold docLast
    obtain ⟨c, hc⟩ := rd_some src h
    obtain ⟨b, hb⟩ := isWhitespace_some (rd_not13 hcr hc)
    simp only [hc, hb, Option.bind_eq_bind, Option.bind_some]
    split
    · cases b with
      | true => exact ih (by omega)
      | false => exact ⟨_, rfl⟩
    · exact ⟨_, rfl⟩

theorem docStart_adv (src : Src) (hcr : ∀ c ∈ src, c ≠ 13) {l : Lx} (hl : l.pos ≤ src.length) :
    ∃ l' a b, docStart src l = some ({ l' with contracts := true }, some (.docsStart a b)) ∧ Adv src l l' := by
  unfold docStart
  obtain ⟨l', r, h1, h2, h3⟩ := docLoop_adv src _ true none l hl rfl (by simp)
  simp only [h1, Option.bind_eq_bind, Option.bind_some]
  cases r with
  | none => exact ⟨l', _, _, rfl, h2⟩
  | some k =>
    have hb := h2.bound
    obtain ⟨j, hj⟩ := docLast_some src hcr k (l'.pos - 1) (by omega)
    dsimp only
    rw [hj, Option.bind_some]
    exact ⟨l', _, _, rfl, h2⟩

end C3.Lexer
