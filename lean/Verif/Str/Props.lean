import Verif.Str.Lemmas

/-!
# C51: searching and trimming, C52: splitting and joining

The functions are those of `Model.lean`; `At`, `Pieces`, `PiecesMax`, `interleave` are in `Spec.lean`.  A result `some …`
says that no index or slice leaves the string.
-/

set_option autoImplicit false
set_option linter.unusedSectionVars false

namespace C3.Str
open Spec

variable {α : Type} [DecidableEq α]

/-! ## C51 -/

/-- **C51, characters.**  The first and the last index of a character, from the start, or from a given index on. -/
theorem C51_char (s : List α) (c : α) (start i : Nat) :
    (index_of_char s c = some i ↔ s[i]? = some c ∧ ∀ j < i, s[j]? ≠ some c) ∧
    (rindex_of_char s c = some i ↔ s[i]? = some c ∧ ∀ j, i < j → s[j]? ≠ some c) ∧
    (index_of_char_from s c start = some i ↔ start ≤ i ∧ s[i]? = some c ∧ ∀ j, start ≤ j → j < i → s[j]? ≠ some c) := by
  refine ⟨?_, ?_, ?_⟩
  · have := index_of_char_spec s c
    cases h : index_of_char s c with
    | none =>
      rw [h] at this
      simp only [reduceCtorEq, false_iff]
      exact fun h => this (List.mem_of_getElem? h.1)
    | some k =>
      rw [h] at this
      simp only [Option.some.injEq]
      constructor
      · rintro rfl; exact this
      · rintro ⟨h1, h2⟩
        have n1 : ¬ k < i := fun hl => h2 k hl this.1
        have n2 : ¬ i < k := fun hl => this.2 i hl h1
        omega
  · have := rindexLoop_spec s c s.length
    rw [rindex_of_char]
    have hb : ∀ j, s[j]? = some c → j < s.length := fun j h => (List.getElem?_eq_some_iff.1 h).1
    cases h : rindexLoop s c s.length with
    | none =>
      rw [h] at this
      simp only [reduceCtorEq, false_iff]
      exact fun h => this i (hb i h.1) h.1
    | some k =>
      rw [h] at this
      simp only [Option.some.injEq]
      constructor
      · rintro rfl; exact ⟨this.2.1, fun j hj hc => this.2.2 j hj (hb j hc) hc⟩
      · rintro ⟨h1, h2⟩
        have n1 : ¬ k < i := fun hl => this.2.2 i hl (hb i h1) h1
        have n2 : ¬ i < k := fun hl => h2 k hl this.2.1
        omega
  · have hb : ∀ j, s[j]? = some c → j < s.length := fun j h => (List.getElem?_eq_some_iff.1 h).1
    rw [index_of_char_from]
    split
    · simp only [reduceCtorEq, false_iff]
      rintro ⟨h1, h2, -⟩
      have := hb i h2
      omega
    · have := indexFromLoop_spec s c (s.length - start) start (Nat.le_refl _)
      cases h : indexFromLoop s c start with
      | none =>
        rw [h] at this
        simp only [reduceCtorEq, false_iff]
        exact fun h => this i h.1 h.2.1
      | some k =>
        rw [h] at this
        simp only [Option.some.injEq]
        constructor
        · rintro rfl; exact this
        · rintro ⟨h0, h1, h2⟩
          have n1 : ¬ k < i := fun hl => h2 k this.1 hl this.2.1
          have n2 : ¬ i < k := fun hl => this.2.2 i h0 hl h1
          omega

example : rindex_of_char "abcb".toList 'b' = some 3 := ((C51_char _ _ 0 _).2.1).2 ⟨rfl, fun j hj => by
  rw [List.getElem?_eq_none (by simp; omega)]; simp⟩

/-- **C51, sets of characters.** -/
theorem C51_chars (s cs : List α) (i : Nat) :
    index_of_chars s cs = some i ↔ (∃ c ∈ cs, s[i]? = some c) ∧ ∀ j < i, ∀ c ∈ cs, s[j]? ≠ some c := by
  have := index_of_chars_spec s cs
  cases h : index_of_chars s cs with
  | none =>
    rw [h] at this
    simp only [reduceCtorEq, false_iff]
    rintro ⟨⟨c, hc, h⟩, -⟩
    exact this c hc (List.mem_of_getElem? h)
  | some k =>
    rw [h] at this
    simp only [Option.some.injEq]
    constructor
    · rintro rfl; exact this
    · rintro ⟨⟨c, hc, h1⟩, h2⟩
      obtain ⟨⟨c', hc', h1'⟩, h2'⟩ := this
      have n1 : ¬ k < i := fun hl => h2 k hl c' hc' h1'
      have n2 : ¬ i < k := fun hl => h2' i hl c hc h1
      omega

example : index_of_chars "ab#?".toList "?#".toList = some 2 :=
  (C51_chars _ _ _).2 ⟨⟨'#', by decide, rfl⟩, by decide⟩

/-- **C51, substrings.**  `index_of` gives the first place where a string that is not empty stands, `rindex_of` the last
one, and both `NOT_FOUND` exactly if there is none; `contains` says whether there is one. -/
theorem C51_index_of (s : List α) {sub : List α} (h : sub ≠ []) :
    (∃ i, index_of s sub = some (some i) ∧ At s sub i ∧ ∀ j < i, ¬ At s sub j) ∨
    (index_of s sub = some none ∧ ∀ j, ¬ At s sub j) := by
  obtain ⟨r, h1, h2⟩ := index_of_spec s h
  cases r with
  | none => exact .inr ⟨h1, h2⟩
  | some i => exact .inl ⟨i, h1, h2⟩

theorem C51_rindex_of (s : List α) {sub : List α} (h : sub ≠ []) :
    (∃ i, rindex_of s sub = some (some i) ∧ At s sub i ∧ ∀ j, i < j → ¬ At s sub j) ∨
    (rindex_of s sub = some none ∧ ∀ j, ¬ At s sub j) := by
  obtain ⟨r, h1, h2⟩ := rindex_of_spec s h
  cases r with
  | none => exact .inr ⟨h1, h2⟩
  | some i => exact .inl ⟨i, h1, h2⟩

theorem C51_contains (s : List α) {sub : List α} (h : sub ≠ []) :
    ∃ b, contains s sub = some b ∧ (b = true ↔ sub <:+: s) := by
  have hi : sub <:+: s ↔ ∃ i, At s sub i := by
    constructor
    · rintro ⟨a, b, e⟩; exact ⟨a.length, a, b, by rw [← e]; simp, rfl⟩
    · rintro ⟨i, a, b, e, -⟩; exact ⟨a, b, by rw [e]; simp⟩
  rw [hi]
  rcases C51_index_of s h with ⟨i, e, h1, -⟩ | ⟨e, h1⟩
  · exact ⟨true, by rw [contains, e]; rfl, by simp; exact ⟨i, h1⟩⟩
  · exact ⟨false, by rw [contains, e]; rfl, by simpa using h1⟩

example : index_of "aab".toList "ab".toList = some (some 1) := by
  rcases C51_index_of "aab".toList (sub := "ab".toList) (by decide) with ⟨i, e, h1, h2⟩ | ⟨-, h⟩
  · have hi : ¬ 1 < i := fun hl => h2 1 hl ⟨['a'], [], rfl, rfl⟩
    have h0 : i ≠ 0 := by
      rintro rfl
      obtain ⟨a, b, e', hl⟩ := h1
      have := List.eq_nil_of_length_eq_zero hl
      subst this
      simp at e'
    rw [e, show i = 1 by omega]
  · exact absurd ⟨['a'], [], rfl, rfl⟩ (h 1)

/-- **C51, prefixes and suffixes.** -/
theorem C51_affixes (s p : List α) :
    (∃ b, starts_with s p = some b ∧ (b = true ↔ p <+: s)) ∧ (∃ b, ends_with s p = some b ∧ (b = true ↔ p <:+ s)) ∧
    (∀ r, s = p ++ r → strip s p = some r) ∧ (¬ p <+: s → strip s p = some s) ∧
    (∀ r, s = r ++ p → strip_end s p = some r) ∧ (¬ p <:+ s → strip_end s p = some s) := by
  obtain ⟨b, hb, hbi⟩ := starts_with_spec s p
  obtain ⟨e, he, hei⟩ := ends_with_spec s p
  refine ⟨⟨b, hb, hbi⟩, ⟨e, he, hei⟩, ?_, ?_, ?_, ?_⟩
  · rintro r rfl
    rw [strip]
    split
    · rename_i h0
      have : p = [] := List.eq_nil_of_length_eq_zero h0
      simp [this]
    · rw [hb, hbi.2 (List.prefix_append _ _)]
      simp only
      rw [sliceFrom_eq (by simp)]; simp
  · intro hn
    rw [strip, hb]
    have : b = false := by
      cases b with
      | false => rfl
      | true => exact absurd (hbi.1 rfl) hn
    simp [this]
  · rintro r rfl
    rw [strip_end]
    split
    · rename_i h0
      have : p = [] := List.eq_nil_of_length_eq_zero h0
      simp [this]
    · rw [he, hei.2 (List.suffix_append _ _)]
      simp only
      rw [sliceLen_eq (by simp)]; simp
  · intro hn
    rw [strip_end, he]
    have : e = false := by
      cases e with
      | false => rfl
      | true => exact absurd (hei.1 rfl) hn
    simp [this]

example : strip "file.c3".toList "file".toList = some ".c3".toList := (C51_affixes _ _).2.2.1 _ rfl

/-- **C51, trimming.**  Characters of the set are taken away at both ends, and all of them. -/
theorem C51_trim (s set : List α) :
    ∃ a r b, s = a ++ (r ++ b) ∧ trim s set = some r ∧ (∀ c ∈ a ++ b, c ∈ set) ∧
      (∀ c ∈ r.head?, c ∉ set) ∧ ∀ c ∈ r.getLast?, c ∉ set := trim_spec s set

example : trim " a b ".toList " ".toList = some "a b".toList := by
  obtain ⟨a, r, b, e, ht, hs, h1, h2⟩ := C51_trim " a b ".toList " ".toList
  rw [ht]
  have ha : a = [' '] := by
    rcases a with _ | ⟨x, _ | ⟨y, a⟩⟩
    · cases r with
      | nil =>
        have : 'a' ∈ b := by rw [← (show " a b ".toList = b from e)]; decide
        exact absurd (hs 'a' (by simp [this])) (by decide)
      | cons x r =>
        simp at e
        exact absurd (h1 x rfl) (by rw [← e.1]; decide)
    · simp at e; rw [← e.1]
    · simp at e
      exact absurd (hs y (by simp)) (by rw [← e.2.1]; decide)
  subst ha
  simp at e
  have : b = [' '] := by
    rcases List.eq_nil_or_concat b with rfl | ⟨b', x, rfl⟩
    · rw [List.append_nil] at e
      exact absurd (h2 ' ' (by rw [← e]; rfl)) (by decide)
    · rcases List.eq_nil_or_concat b' with rfl | ⟨b', y, rfl⟩
      · have : x = ' ' := by simpa using hs x (by simp)
        simp [this]
      · have hy : y = ' ' := by simpa using hs y (by simp)
        have hx : x = ' ' := by simpa using hs x (by simp)
        have := congrArg List.reverse e
        simp [hx, hy] at this
  subst this
  have := congrArg List.dropLast e
  simpa using this.symm

/-! ## C52 -/

/-- **C52, split.**  Without a limit the result is all the pieces, or all that are not empty. -/
theorem C52_split (s : List α) {d : List α} (hd : d ≠ []) (hs : s.length < 2 ^ 64 - 1) (skip : Bool) :
    ∃ ps, Pieces d s ps ∧ split s d 0 skip = some (if skip then ps.filter (fun p => !p.isEmpty) else ps) := by
  obtain ⟨ps, h1, h2⟩ := splitLoop_spec hd skip s.length s 16 [] (Nat.le_refl _) (by simp) (by omega) (by simpa using hs)
  exact ⟨ps, h1, by rw [split, h2]; rfl⟩

/-- The pieces are determined by the string and the delimiter. -/
theorem C52_unique {d s : List α} {ps qs : List (List α)} (h : Pieces d s ps) (h' : Pieces d s qs) : ps = qs :=
  pieces_unique h h'

example : split "a,,b".toList ",".toList 0 false = some ["a".toList, [], "b".toList] ∧
    split "a,,b".toList ",".toList 0 true = some ["a".toList, "b".toList] := by
  have no : ∀ (s : List Char) (n : Nat), ',' ∉ s.take n → ∀ i < n, ¬ At s ",".toList i := by
    rintro s n h i hi ⟨a, b, rfl, rfl⟩
    apply h
    rw [List.take_append, List.take_of_length_le (by omega)]
    simp
    right
    obtain ⟨k, hk⟩ : ∃ k, n - a.length = k + 1 := ⟨n - a.length - 1, by omega⟩
    rw [hk]; simp
  have hp : Pieces ",".toList "a,,b".toList ["a".toList, [], "b".toList] :=
    .cut "a".toList ",b".toList _ (no _ _ (by decide)) (.cut [] "b".toList _ (by simp)
      (.last _ (by
        rintro i ⟨a, b, e, -⟩
        have : ',' ∈ "b".toList := by rw [e]; simp
        exact absurd this (by decide))))
  constructor
  · obtain ⟨ps, h, e⟩ := C52_split "a,,b".toList (d := ",".toList) (by decide) (by decide) false
    rw [e, C52_unique h hp]; rfl
  · obtain ⟨ps, h, e⟩ := C52_split "a,,b".toList (d := ",".toList) (by decide) (by decide) true
    rw [e, C52_unique h hp]; rfl

/-- **C52, join.**  Joining puts the delimiter between the strings, and undoes splitting. -/
theorem C52_join (s : List α) {d : List α} (hd : d ≠ []) (hs : s.length < 2 ^ 64 - 1) :
    ∃ ps, split s d 0 false = some ps ∧ join ps d = interleave d ps ∧ join ps d = s := by
  obtain ⟨ps, h1, h2⟩ := C52_split s hd hs false
  exact ⟨ps, h2, join_eq ps d, by rw [join_eq, pieces_join h1]⟩

example : ∃ ps, split "k=v=w".toList "=".toList 0 false = some ps ∧ join ps "=".toList = "k=v=w".toList := by
  obtain ⟨ps, h1, -, h2⟩ := C52_join "k=v=w".toList (d := "=".toList) (by decide) (by decide)
  exact ⟨ps, h1, h2⟩

/-- **C52, limit.**  With a limit there are at most so many pieces, and joining them still gives the string. -/
theorem C52_max (s : List α) {d : List α} (hd : d ≠ []) {max : Nat} (h0 : 0 < max) (hm : max < 2 ^ 64) :
    ∃ ps, PiecesMax d max s ps ∧ split s d max false = some ps ∧ ps.length ≤ max ∧ join ps d = s := by
  obtain ⟨n, rfl⟩ : ∃ n, max = n + 1 := ⟨max - 1, by omega⟩
  obtain ⟨ps, h1, h2⟩ := splitLoop_max hd (n + 1) hm n s 16 [] (by simp) (by simp) (by omega)
  exact ⟨ps, h1, by rw [split, h2]; rfl, (piecesMax_join h1).2, by rw [join_eq, (piecesMax_join h1).1]⟩

example : ∃ ps, split "k=v=w".toList "=".toList 2 false = some ps ∧ ps.length ≤ 2 ∧ join ps "=".toList = "k=v=w".toList := by
  obtain ⟨ps, -, h1, h2, h3⟩ := C52_max "k=v=w".toList (d := "=".toList) (by decide) (max := 2) (by decide) (by decide)
  exact ⟨ps, h1, h2, h3⟩

/-- **C52, tokens.**  A tokenizer returns the pieces that are not empty, one after the other, and then ends. -/
theorem C52_tokenize (s : List α) {d : List α} (hd : d ≠ []) :
    ∃ ps, Pieces d s ps ∧ collect s d true 0 = some (ps.filter (fun p => !p.isEmpty)) := by
  obtain ⟨ps, h1, h2⟩ := collect_eq hd true s
  exact ⟨ps, h1, by rw [h2]; rfl⟩

/-- **C52, splitter.**  A splitter returns the same pieces as `split`, one after the other.

Missing from the property: an empty last piece, which is not returned (`C52_trailing`). -/
theorem C52_splitter_partial (s : List α) {d : List α} (hd : d ≠ []) {ps : List (List α)} (hp : Pieces d s ps) :
    (ps.getLast? ≠ some [] → collect s d false 0 = some ps) := by
  obtain ⟨qs, h1, h2⟩ := collect_eq hd false s
  rw [C52_unique hp h1]
  intro h
  rw [h2]
  simp [given, h]

/-- **C52, trailing.**  A splitter never returns the empty piece behind a delimiter at the end, and not the one of an
empty string either: it disagrees with `split`. -/
theorem C52_trailing (s : List α) {d : List α} (hd : d ≠ []) {ps : List (List α)} (hp : Pieces d s (ps ++ [[]])) :
    collect s d false 0 = some ps ∧ (s.length < 2 ^ 64 - 1 → split s d 0 false = some (ps ++ [[]])) := by
  constructor
  · obtain ⟨qs, h1, h2⟩ := collect_eq hd false s
    rw [← C52_unique hp h1] at h2
    rw [h2]
    simp [given]
  · intro hs
    obtain ⟨qs, h1, h2⟩ := C52_split s hd hs false
    rw [h2, ← C52_unique hp h1]
    rfl

/-- "a," splits into "a" and "", but the splitter returns "a" only. -/
example : collect "a,".toList ",".toList false 0 = some ["a".toList] ∧
    split "a,".toList ",".toList 0 false = some ["a".toList, []] := by
  have no : ∀ i, ¬ At ([] : List Char) ",".toList i := fun i h => by have := at_le h; simp at this
  have hp : Pieces ",".toList "a,".toList (["a".toList] ++ [[]]) :=
    .cut "a".toList [] _ (by
      rintro i hi ⟨a, b, e, rfl⟩
      have : a = [] := List.eq_nil_of_length_eq_zero (by have : "a".toList.length = 1 := rfl; omega)
      subst this
      simp at e) (.last _ no)
  have := C52_trailing "a,".toList (d := ",".toList) (by decide) hp
  exact ⟨this.1, this.2 (by decide)⟩

example : collect "a,b".toList ",".toList false 0 = some ["a".toList, "b".toList] := by
  have hp : Pieces ",".toList "a,b".toList ["a".toList, "b".toList] :=
    .cut "a".toList "b".toList _ (by
      rintro i hi ⟨a, b, e, rfl⟩
      have : a = [] := List.eq_nil_of_length_eq_zero (by have : "a".toList.length = 1 := rfl; omega)
      subst this
      simp at e) (.last _ (by
        rintro i ⟨a, b, e, -⟩
        have : ',' ∈ "b".toList := by rw [e]; simp
        exact absurd this (by decide)))
  exact C52_splitter_partial _ (by decide) hp (by decide)

/-- **C52, contract.**  `split` promises at least one piece, but returns none where it skips the empty ones and there are
no others: the check of the contract panics. -/
theorem C52_ensure {s d : List α} (hd : d ≠ []) (hs : s.length < 2 ^ 64 - 1) {ps : List (List α)} (hp : Pieces d s ps)
    (he : ∀ p ∈ ps, p = []) : split s d 0 true = some [] := by
  obtain ⟨qs, h1, h2⟩ := C52_split s hd hs true
  rw [h2, ← C52_unique hp h1]
  simp only [if_true, Option.some.injEq, List.filter_eq_nil_iff]
  intro p h
  simp [he p h]

example : split ([] : List Char) ",".toList 0 true = some [] :=
  C52_ensure (by decide) (by decide) (.last _ fun i h => by have := at_le h; simp at this) (by simp)

end C3.Str
