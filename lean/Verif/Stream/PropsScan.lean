import Verif.Stream.LemmasBuf

set_option autoImplicit false

/-! Properties C163-C164: scanning, and reading all of a stream. -/

namespace C3.Stream

open C3.Str.Spec (At)

variable {σ τ α : Type}

/-- `scan` should find the first place of the pattern, and lose nothing when it does not find any. -/
def C163_full : Prop :=
  ∀ (σ : Type) (R : In σ Nat) (good : σ → Prop) (rest : σ → List Nat), Honest R good rest → ∀ (p : List Nat) (s : Scanner σ Nat),
    p ≠ [] → s.Good good → p.length < s.buf.length →
    (∀ t l, Scanner.scan R s p = some (t, .found l) → s.rest rest = l ++ (p ++ t.rest rest) ∧ ∀ j < l.length, ¬ At (s.rest rest) p j) ∧
    (∀ t, Scanner.scan R s p = some (t, .notFound) → t.rest rest = s.rest rest)

/-- It does not find the first place if the pattern begins in the buffer and ends in what is read next. -/
theorem C163_first_fails : ∃ (s t u : Scanner (ByteReader Nat) Nat),
    s.inner = ⟨[1, 9, 8, 9, 8, 9, 8], 0⟩ ∧ s.patternIdx = 0 ∧ s.readIdx = 0 ∧
    Scanner.scan byteReader s [9, 8] = some (t, .found [1]) ∧ Scanner.scan byteReader t [9, 8] = some (u, .found [9, 8]) := by
  refine ⟨⟨⟨[1, 9, 8, 9, 8, 9, 8], 0⟩, [0, 0, 0, 0], 0, 0⟩, ⟨⟨[1, 9, 8, 9, 8, 9, 8], 4⟩, [1, 9, 8, 9], 3, 4⟩,
    ⟨⟨[1, 9, 8, 9, 8, 9, 8], 7⟩, [9, 8, 9, 8], 4, 4⟩, rfl, rfl, rfl, ?_, ?_⟩ <;> decide +kernel

/-- When the stream ends, `NOT_FOUND` makes `flush` return bytes twice. -/
theorem C163_flush_fails : ∃ (s t u v : Scanner (ByteReader Nat) Nat),
    s.inner = ⟨[1, 9, 2, 3], 0⟩ ∧ s.patternIdx = 0 ∧ s.readIdx = 0 ∧
    Scanner.scan byteReader s [9] = some (t, .found [1]) ∧ Scanner.scan byteReader t [9] = some (u, .notFound) ∧
    u.flush = some (v, [2, 3, 2, 3]) := by
  refine ⟨⟨⟨[1, 9, 2, 3], 0⟩, [0, 0, 0, 0], 0, 0⟩, ⟨⟨[1, 9, 2, 3], 4⟩, [1, 9, 2, 3], 2, 4⟩,
    ⟨⟨[1, 9, 2, 3], 4⟩, [2, 3, 2, 3], 0, 4⟩, ⟨⟨[1, 9, 2, 3], 4⟩, [2, 3, 2, 3], 0, 0⟩, rfl, rfl, rfl, ?_, ?_, ?_⟩ <;> decide +kernel

theorem C163_fails : ¬ C163_full := by
  intro h
  have := (h (ByteReader Nat) byteReader _ _ byteReader_honest [9] ⟨⟨[1, 9, 2, 3], 4⟩, [1, 9, 2, 3], 2, 4⟩ (by simp)
    ⟨trivial, by decide, by decide⟩ (by decide)).2 ⟨⟨[1, 9, 2, 3], 4⟩, [2, 3, 2, 3], 0, 4⟩ (by decide +kernel)
  revert this
  decide +kernel

/-- `scan` does not panic. What it finds is followed by the pattern and by what is to come; for a pattern of one byte it is the first
place. When it finds nothing, and the buffer was not full with the stream at its end behind a former pattern, nothing is lost.
Missing: the first place of longer patterns, and the end of the stream. -/
theorem C163_partial [DecidableEq α] {R : In σ α} {good : σ → Prop} {rest : σ → List α} (h : Honest R good rest) {p : List α}
    (hp : p ≠ []) {s : Scanner σ α} (g : s.Good good) (hlen : p.length < s.buf.length) :
    ∃ t r, Scanner.scan R s p = some (t, r) ∧
      match r with
      | .found l => t.Good good ∧ t.buf.length = s.buf.length ∧ s.rest rest = l ++ (p ++ t.rest rest) ∧
          (p.length = 1 → ∀ j < l.length, ¬ At (s.rest rest) p j)
      | .notFound => s.patternIdx = 0 ∨ s.readIdx < s.buf.length ∨ rest s.inner ≠ [] → t.Good good ∧ t.rest rest = s.rest rest
      | .fault => True := by
  obtain ⟨t, r, e, hr⟩ := scan_spec h hp g hlen
  refine ⟨t, r, e, ?_⟩
  cases r with
  | found l => exact ⟨hr.1, hr.2.1, hr.2.2.1, hr.2.2.2.2⟩
  | notFound => exact hr.1
  | fault => trivial

example : Scanner.scan byteReader (⟨⟨[1, 2, 9, 3], 0⟩, [0, 0, 0, 0], 0, 0⟩ : Scanner (ByteReader Nat) Nat) [9] =
    some (⟨⟨[1, 2, 9, 3], 4⟩, [1, 2, 9, 3], 3, 4⟩, .found [1, 2]) := by decide +kernel

example : Scanner.Good (α := Nat) (fun _ => True) ⟨(⟨[1, 2, 9, 3], 0⟩ : ByteReader Nat), [0, 0, 0, 0], 0, 0⟩ :=
  ⟨trivial, by decide, by decide⟩

/-- With a stream that fills the buffer whenever it can, `NOT_FOUND` for a byte says that it is not among the next bytes, as many as
the buffer has place for; `found` keeps the buffer filled. -/
theorem C163_absent_partial [DecidableEq α] {R : In σ α} {good : σ → Prop} {rest : σ → List α} (h : Honest R good rest)
    (hw : Whole R good rest) {c : α} {s : Scanner σ α} (g : s.Good good) (hf : s.Filled rest) (hlen : 1 < s.buf.length) :
    (∀ t, Scanner.scan R s [c] = some (t, .notFound) → c ∉ (s.rest rest).take s.buf.length) ∧
    (∀ t l, Scanner.scan R s [c] = some (t, .found l) → t.Filled rest) := by
  obtain ⟨u, r, e, hr⟩ := scan_spec (pattern := [c]) h (by simp) g (by simpa using hlen)
  constructor
  · intro t et hm
    rw [e] at et
    obtain ⟨rfl, rfl⟩ := Prod.mk.inj (Option.some.inj et)
    obtain ⟨j, hj, hc⟩ := List.getElem_of_mem hm
    rw [List.length_take] at hj
    refine hr.2 hw hf rfl j (by omega) (at_single.2 ?_)
    rw [List.getElem_take] at hc
    rw [List.getElem?_eq_getElem (by omega), hc]
  · intro t l et
    rw [e] at et
    obtain ⟨rfl, rfl⟩ := Prod.mk.inj (Option.some.inj et)
    exact hr.2.2.2.1 hw hf

example : Scanner.scan byteReader (⟨⟨[1, 2, 3, 4, 9], 0⟩, [0, 0, 0, 0], 0, 0⟩ : Scanner (ByteReader Nat) Nat) [9] =
    some (⟨⟨[1, 2, 3, 4, 9], 4⟩, [1, 2, 3, 4], 0, 4⟩, .notFound) := by decide +kernel

example : Whole (byteReader (α := Nat)) (fun _ => True) (fun s => s.bytes.drop s.index) := byteReader_whole

/-- `flush` returns what is in the buffer; the stream goes on behind it. -/
theorem C163_flush {good : σ → Prop} {rest : σ → List α} {s : Scanner σ α} (g : s.Good good) :
    ∃ t l, s.flush = some (t, l) ∧ t.Good good ∧ s.rest rest = l ++ t.rest rest ∧ t.rest rest = rest s.inner := by
  obtain ⟨t, l, e, g', hr, _, hi⟩ := flush_spec (rest := rest) g
  exact ⟨t, l, e, g', hr, hi⟩

example : Scanner.flush (⟨⟨[1, 2, 9, 3], 4⟩, [1, 2, 9, 3], 3, 4⟩ : Scanner (ByteReader Nat) Nat) =
    some (⟨⟨[1, 2, 9, 3], 4⟩, [1, 2, 9, 3], 0, 0⟩, [3]) := by decide +kernel

/-- `copy_through_buffer` with any buffer, between streams that read and write in pieces of any size and may fail: it ends without a
panic; what arrives is a beginning of what was to come; and if it succeeds it is all of it, and the result is its length. -/
theorem C164_copy {R : In σ α} {W : Out τ α} {good : σ → Prop} {rest : σ → List α} {goodW : τ → Prop} {got : τ → List α}
    (h : Reads R good rest) (hw : Writes W goodW got) {size : Nat} (hsize : size ≠ 0) {s : σ} {w : τ} (g : good s) (gw : goodW w)
    {fuel : Nat} (hfuel : (rest s).length < fuel) :
    ∃ t r, copyThroughBuffer R W size fuel s w = some (t, r) ∧ (∃ p, p <+: rest s ∧ got t.2 = got w ++ p) ∧
      ∀ m, r = .ok m → m = (rest s).length ∧ got t.2 = got w ++ rest s := by
  obtain ⟨t, r, e, _, ⟨p, q, hp, hq⟩, hr⟩ := copy_spec h hw hsize fuel s w g gw hfuel
  refine ⟨t, r, e, ⟨p, ⟨q, hp.symm⟩, hq⟩, ?_⟩
  intro m hm
  subst hm
  exact hr

example : ∃ t, copyThroughBuffer byteReader (sink (α := Nat)) 2 8 ⟨[1, 2, 3, 4, 5], 1⟩ ⟨[0], []⟩ = some (t, .ok 4) ∧
    t.2.data = [0, 2, 3, 4, 5] := ⟨_, rfl, rfl⟩

example : ∃ t, copyThroughBuffer byteReader (sink (α := Nat)) 2 8 ⟨[1, 2, 3, 4, 5], 1⟩ ⟨[], [.most 2, .most 1]⟩ = some (t, .fault) ∧
    t.2.data = [2, 3, 4] := ⟨_, rfl, rfl⟩

/-- `read_using_read_byte` reads as much as there is place for and as there is. -/
theorem C164_bytes {R : In σ α} {good : σ → Prop} {rest : σ → List α} (h : Reads R good rest) {s : σ} (g : good s) (n : Nat) :
    ∃ t r, readUsingReadByte R s n = some (t, r) ∧ (r = .ok ((rest s).take n) ∨ r = .fault) := by
  obtain ⟨t, r, e, hr⟩ := readUsingReadByte_spec h n s g
  refine ⟨t, r, e, ?_⟩
  cases r with
  | ok l => exact .inl (congrArg _ hr)
  | eof => exact hr.elim
  | fault => exact .inr rfl

example : ∃ t, readUsingReadByte byteReader (⟨[1, 2, 3], 1⟩ : ByteReader Nat) 8 = some (t, .ok [2, 3]) := ⟨_, rfl⟩

/-- `read_byte_using_read` is a `read_byte`. -/
theorem C164_byte {R : In σ α} {good : σ → Prop} {rest : σ → List α} (h : Reads R good rest) {s : σ} (g : good s) :
    ∃ t r, readByteUsingRead R s = some (t, r) ∧
      match r with
      | .ok c => good t ∧ rest s = c :: rest t
      | .eof => rest s = []
      | .fault => True := readByteUsingRead_spec h s g

example : readByteUsingRead byteReader (⟨[1, 2, 3], 1⟩ : ByteReader Nat) = some (⟨[1, 2, 3], 2⟩, .ok 2) := by decide +kernel

/-- `read_fully` reads as many bytes as `available` said, in pieces of any size; with fewer bytes to come it fails. -/
theorem C164_fully {R : In σ α} {good : σ → Prop} {rest : σ → List α} (h : Reads R good rest) {s : σ} (g : good s) (len : Nat) :
    ∃ t r, readFullyLoop R len s len = some (t, r) ∧
      match r with
      | .ok l => l = (rest s).take len ∧ good t ∧ rest t = (rest s).drop len ∧ len ≤ (rest s).length
      | .eof => (rest s).length < len
      | .fault => True := by
  obtain ⟨t, r, e, hr⟩ := readFullyLoop_spec h len s len g (Nat.le_refl _)
  refine ⟨t, r, e, ?_⟩
  cases r with
  | ok l =>
    obtain ⟨g', hl, hlen⟩ := hr
    refine ⟨?_, g', ?_, ?_⟩
    · rw [hl, ← hlen]; simp
    · rw [hl, ← hlen]; simp
    · rw [hl, List.length_append]; omega
  | eof => exact hr
  | fault => trivial

example : ∃ t, readFullyLoop source 4 (⟨[1, 2, 3, 4, 5], [.most 1, .most 2]⟩ : Source Nat) 4 = some (t, .ok [1, 2, 3, 4]) := ⟨_, rfl⟩

/-- `read_all` should fail only if the stream fails or has too few bytes. -/
def C164_all_full : Prop :=
  ∀ (σ : Type) (R : In σ Nat) (good : σ → Prop) (rest : σ → List Nat), Honest R good rest → ∀ s n, good s → n ≤ (rest s).length →
    ∀ t, readAll R s n = some (t, .fault) → R.read s n = some (t, .fault)

/-- It fails with `UNEXPECTED_EOF` whenever the first read delivers less than all. -/
theorem C164_all_fails : ¬ C164_all_full := by
  intro h
  have := h (Source Nat) source _ _ source_honest ⟨[1, 2], [.most 1]⟩ 2 trivial (by decide) _ rfl
  revert this
  simp [source, next]

/-- With a stream that delivers as much as it can, `read_all` reads just as many bytes as there is place for. Missing: other
streams. -/
theorem C164_all_partial {R : In σ α} {good : σ → Prop} {rest : σ → List α} (h : Reads R good rest) (hw : Whole R good rest) {s : σ}
    (g : good s) (n : Nat) :
    ∃ t r, readAll R s n = some (t, r) ∧
      match r with
      | .ok l => l = (rest s).take n ∧ n ≤ (rest s).length ∧ good t ∧ rest t = (rest s).drop n
      | .eof => rest s = []
      | .fault => R.read s n = some (t, .fault) ∨ (rest s).length < n := by
  unfold readAll
  by_cases hn : n = 0
  · rw [if_pos hn, hn]
    exact ⟨_, _, rfl, by simp, Nat.zero_le _, g, by simp⟩
  · rw [if_neg hn]
    obtain ⟨t, r, e, hr⟩ := h.read s n g
    cases r with
    | ok l =>
      have hl := hw s n t l g e
      rw [e]
      simp only
      obtain ⟨g', hle, hrest, _⟩ := hr
      by_cases hc : l.length ≠ n
      · rw [if_pos hc]
        exact ⟨_, _, rfl, .inr (by omega)⟩
      · rw [if_neg hc]
        have hc : l.length = n := Decidable.not_not.1 hc
        refine ⟨_, _, rfl, ?_, by omega, g', ?_⟩
        · rw [hrest, ← hc]; simp
        · rw [hrest, ← hc]; simp
    | eof => rw [e]; exact ⟨_, _, rfl, hr⟩
    | fault => rw [e]; exact ⟨_, _, rfl, .inl rfl⟩

example : readAll byteReader (⟨[1, 2, 3], 1⟩ : ByteReader Nat) 2 = some (⟨[1, 2, 3], 3⟩, .ok [2, 3]) := by decide +kernel

end C3.Stream
