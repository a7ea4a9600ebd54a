import Verif.Url.Lemmas

/-!
# C50: percent encoding

`encode`, `decode`, `encode_len`, `decode_len` are the functions of `url_encoding.c3`; `Legal`, `text`, `Denotes`,
`BadPercent` are in `Spec.lean`.  `fresh` is what freshly allocated memory holds.
-/

set_option autoImplicit false

namespace C3.Url
open C3.Codec Spec

/-- **C50, encoding.**  Exactly the bytes that may not stand in this part of an URL are written as `%` and two upper case
digits, the space of a query as `+`; the text has the length announced by `encode_len`. -/
theorem C50_encode {fresh : Nat → List Byte} (hf : ∀ n, (fresh n).length = n) (s : List Byte) (mode : Mode) :
    encode fresh s mode = some (s.flatMap (text mode)) ∧ encode_len s mode = (s.flatMap (text mode)).length := by
  refine ⟨?_, ?_⟩
  · rw [encode, encodeLoop_eq fresh hf]; simp
  · have := encodeCount_eq mode s 0
    simpa [encode_len] using this

example : encode (fun n => List.replicate n 7) (ascii ['a', ' ', '/', '%']) .PATH =
    some (ascii ['a', '%', '2', '0', '/', '%', '2', '5']) := by
  rw [(C50_encode (by simp) _ _).1]; decide +kernel

/-- **C50, encoding.**  What is written holds only characters that may stand in this part of an URL, `%`, and `+` for the
space of a query. -/
theorem C50_alphabet {fresh : Nat → List Byte} (hf : ∀ n, (fresh n).length = n) {s t : List Byte} {mode : Mode}
    (h : encode fresh s mode = some t) : ∀ b ∈ t, Legal mode b ∨ b = 37#8 ∨ (b = 43#8 ∧ mode = .QUERY) := by
  rw [(C50_encode hf s mode).1, Option.some.injEq] at h
  subst h
  intro b hb
  obtain ⟨c, -, hc⟩ := List.mem_flatMap.1 hb
  have hu : ∀ v < 16, Legal mode (upper v) := by cases mode <;> decide +kernel
  unfold text at hc
  split at hc
  · rename_i hl
    simp at hc
    exact .inl (hc ▸ hl)
  · split at hc
    · rename_i hq
      simp [ascii] at hc
      exact .inr (.inr ⟨hc, hq.2⟩)
    · simp [ascii] at hc
      have := c.isLt
      rcases hc with rfl | rfl | rfl
      · exact .inr (.inl rfl)
      · exact .inl (hu _ (by omega))
      · exact .inl (hu _ (by omega))

example : encode (fun n => List.replicate n 7) [0xe4] .HOST = some (ascii ['%', 'E', '4']) ∧
    ∀ b ∈ ascii ['%', 'E', '4'], Legal .HOST b ∨ b = 37#8 ∨ (b = 43#8 ∧ Mode.HOST = .QUERY) := by
  have h : encode (fun n => List.replicate n 7) [0xe4] .HOST = some (ascii ['%', 'E', '4']) := by
    rw [(C50_encode (by simp) _ _).1]; decide +kernel
  exact ⟨h, C50_alphabet (by simp) h⟩

/-- **C50, decoding.**  A text is decoded to the bytes it stands for, and this is refused exactly if a `%` in it is not
followed by two hexadecimal digits.  No access leaves the text. -/
theorem C50_decode {fresh : Nat → List Byte} (hf : ∀ n, (fresh n).length = n) (s : List Byte) (mode : Mode) :
    (¬ BadPercent s ∧ ∃ t, Denotes mode s t ∧ decode fresh s mode = some (.ok t) ∧ decode_len s = some (.ok t.length)) ∨
    (BadPercent s ∧ decode fresh s mode = some (.error .INVALID_HEX) ∧ decode_len s = some (.error .INVALID_HEX)) := by
  obtain ⟨h1, h2⟩ := decodeCount_eq s s [] 0 rfl
  by_cases hg : Good s
  · obtain ⟨t, d, hl, e⟩ := decodeLoop_eq fresh hf mode s s.length s [] [] (Nat.le_refl _) rfl hg
    have hd : decode_len s = some (.ok t.length) := by
      have := h1 hg
      simp only [List.length_nil, Nat.zero_add] at this
      rw [decode_len, this]
      simp only [Option.map_some, Except.map]
      congr 2
      omega
    refine .inl ⟨(good_iff s).1 hg, t, d, ?_, hd⟩
    rw [decode, hd]
    simpa using e
  · have hd : decode_len s = some (.error .INVALID_HEX) := by
      have := h2 hg
      simp only [List.length_nil] at this
      rw [decode_len, this]
      rfl
    refine .inr ⟨Classical.byContradiction fun h => hg ((good_iff s).2 h), ?_, hd⟩
    rw [decode, hd]

example : decode (fun n => List.replicate n 7) (ascii ['a', '%', '2', 'f', '+']) .QUERY = some (.ok (ascii ['a', '/', ' '])) := by
  have hd : Denotes .QUERY (ascii ['a', '%', '2', 'f', '+']) (ascii ['a', '/', ' ']) :=
    .byte _ _ _ (by decide) (by decide) (.hex _ _ 2 15 _ _ rfl rfl (.plus _ _ rfl .nil))
  rcases C50_decode (fresh := fun n => List.replicate n 7) (by simp) (ascii ['a', '%', '2', 'f', '+']) .QUERY with
    ⟨-, t, d, e, -⟩ | ⟨h, -⟩
  · rw [e, denotes_unique d hd]
  · exact absurd h ((good_iff _).1 (denotes_good hd))

example : decode (fun n => List.replicate n 7) (ascii ['%', '2']) .PATH = some (.error .INVALID_HEX) := by
  rcases C50_decode (fresh := fun n => List.replicate n 7) (by simp) (ascii ['%', '2']) .PATH with ⟨h, -⟩ | ⟨-, h, -⟩
  · refine absurd ⟨[], _, rfl, ?_⟩ h
    rintro ⟨x, y, u, e, -⟩
    simp at e
  · exact h

/-- **C50, round trip.**  Decoding an encoded text in the same mode gives it back. -/
theorem C50_roundtrip {f1 f2 : Nat → List Byte} (h1 : ∀ n, (f1 n).length = n) (h2 : ∀ n, (f2 n).length = n)
    (s : List Byte) (mode : Mode) : ∃ t, encode f1 s mode = some t ∧ decode f2 t mode = some (.ok s) := by
  refine ⟨_, (C50_encode h1 s mode).1, ?_⟩
  have hd := denotes_text mode s
  rcases C50_decode h2 (s.flatMap (text mode)) mode with ⟨-, t, d, e, -⟩ | ⟨h, -⟩
  · rw [e, denotes_unique d hd]
  · exact absurd h ((good_iff _).1 (denotes_good hd))

/-- **C50, modes.**  The mode of the decoder matters only for queries: what was encoded for another part decodes in any mode
but `QUERY`. -/
theorem C50_modes {f1 f2 : Nat → List Byte} (h1 : ∀ n, (f1 n).length = n) (h2 : ∀ n, (f2 n).length = n)
    (s : List Byte) {m1 m2 : Mode} (hm1 : m1 ≠ .QUERY) (hm2 : m2 ≠ .QUERY) :
    ∃ t, encode f1 s m1 = some t ∧ decode f2 t m2 = some (.ok s) := by
  refine ⟨_, (C50_encode h1 s m1).1, ?_⟩
  have hmode : ∀ {s t}, Denotes m1 s t → Denotes m2 s t := by
    intro s t h
    induction h with
    | nil => exact .nil
    | byte c s t hc _ _ ih => exact .byte c s t hc (fun h => hm2 h.2) ih
    | plus s t hm _ _ => exact absurd hm hm1
    | hex x y h l s t hx hy _ ih => exact .hex x y h l s t hx hy ih
  have hd := hmode (denotes_text m1 s)
  rcases C50_decode h2 (s.flatMap (text m1)) m2 with ⟨-, t, d, e, -⟩ | ⟨h, -⟩
  · rw [e, denotes_unique d hd]
  · exact absurd h ((good_iff _).1 (denotes_good hd))

/-- User names are encoded for `USERPASS` and decoded for `HOST`, which `C50_modes` allows. -/
example : ∃ t, encode (fun n => List.replicate n 7) (ascii ['m', '+', '@']) .USERPASS = some t ∧
    decode (fun n => List.replicate n 9) t .HOST = some (.ok (ascii ['m', '+', '@'])) :=
  C50_modes (by simp) (by simp) _ (by decide) (by decide)

end C3.Url
