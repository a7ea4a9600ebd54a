import Verif.Utf.LemmasText

/-!
# Property C34: UTF-8, UTF-16 and UTF-32 conversions of the standard library

A result `some …` says that no access left a buffer and that the loop ended.  `Filled cells ns` says
that the cells returned are all initialised and hold the units `ns`.
-/

set_option autoImplicit false

namespace C3.Utf
open C3.Codec (store)

theorem filled_map {w : Nat} (us : List (BitVec w)) : Filled (us.map some) (nums us) := by
  unfold Filled nums
  simp [Function.comp_def]

theorem flat_utf8 (ns : List Nat) : flat (ns.map fun n => (width8 n, n)) = ns.flatMap utf8 := by
  induction ns with
  | nil => rfl
  | cons n ns ih => rw [List.map_cons, flat_cons, ih, List.flatMap_cons]; rfl

theorem forms_utf8 (ns : List Nat) (h : ∀ n ∈ ns, n < 0x200000) : Forms (ns.map fun n => (width8 n, n)) := by
  intro f hf
  obtain ⟨n, hn, rfl⟩ := List.mem_map.1 hf
  exact inForm_width8 n (h n hn)

theorem scalar_lt {n : Nat} (h : IsScalar n) : n < 0x110000 := by unfold IsScalar at h; omega

theorem nums_enc (us : List Char32) (h : ∀ u ∈ us, u.toNat < 0x200000) :
    nums (us.flatMap enc) = (nums us).flatMap utf8 := by
  induction us with
  | nil => rfl
  | cons u us ih =>
    rw [List.flatMap_cons, nums_append, enc_utf8 u (h u (by simp)), ih (fun v hv => h v (by simp [hv]))]
    simp [nums]

theorem nums_enc16 (us : List Char32) (h : ∀ u ∈ us, u.toNat < 0x110000) :
    nums (us.flatMap enc16) = (nums us).flatMap utf16 := by
  induction us with
  | nil => rfl
  | cons u us ih =>
    rw [List.flatMap_cons, nums_append, enc16_utf16 u (h u (by simp)), ih (fun v hv => h v (by simp [hv]))]
    simp [nums]

theorem finish_at {β : Type} (zero : β) (done : List β) (k len : Nat) (h : len = done.length + k) :
    finish zero (at_ done (k + 1)) len = some (done.map some ++ List.replicate k none) := by
  unfold finish at_
  have e : done.map some ++ List.replicate (k + 1) none =
      (done.map some ++ List.replicate k none) ++ none :: ([] : List (Option β)) := by
    rw [List.replicate_succ', List.append_assoc]
  have hl : len = (done.map some ++ List.replicate k none).length := by simp [h]
  rw [e, hl, store_mid, Option.bind_eq_bind, Option.bind_some, List.take_left' rfl]

theorem alloc_at (β : Type) (n : Nat) : alloc β n = at_ ([] : List β) n := by simp [alloc, at_]

theorem cps_map (ns : List Nat) : cps (ns.map fun n => (width8 n, n)) = cpsN ns := by
  simp [cps, cpsN, Function.comp_def]

theorem nums_cpsN (ns : List Nat) (h : ∀ n ∈ ns, n < 2 ^ 32) : nums (cpsN ns) = ns := by
  unfold nums cpsN
  rw [List.map_map]
  conv => rhs; rw [← List.map_id ns]
  apply List.map_congr_left
  intro n hn
  simp only [Function.comp, BitVec.toNat_ofNat, id]
  exact Nat.mod_eq_of_lt (h n hn)

/-! ## UTF-32 to UTF-8 -/

/-- C34: `from_utf32` returns exactly the UTF-8 encoding of any sequence of scalar values. -/
theorem C34_from_utf32 (us : List Char32) (h : ∀ u ∈ us, IsScalar u.toNat) :
    ∃ cells, from_utf32 us = some cells ∧ Filled cells ((nums us).flatMap utf8) := by
  have hl : utf8len_for_utf32 us = (us.flatMap enc).length := len32_enc us
  refine ⟨(us.flatMap enc).map some, ?_, ?_⟩
  · rw [from_utf32, alloc_at]
    rw [from32_fwd, Option.bind_eq_bind, Option.bind_some, finish_at 0 _ 0 _ (by simp [hl])]
    simp
  · rw [← nums_enc us (fun u hu => by have := scalar_lt (h u hu); omega)]
    exact filled_map _

example : from_utf32 [0x41#32, 0xE9#32, 0x20AC#32, 0x1F600#32] =
    some ([0x41, 0xC3, 0xA9, 0xE2, 0x82, 0xAC, 0xF0, 0x9F, 0x98, 0x80].map some) := by decide +kernel

/-- C34: `utf32to8` into any buffer: it succeeds exactly if no code point is above 0x10FFFF and the
UTF-8 encoding fits; then the buffer starts with the encoding, followed by a zero byte if there is
room, and the count is the length of the encoding. -/
theorem C34_utf32to8 (us : List Char32) (buf : List (Option Byte)) :
    (((∀ u ∈ us, u.toNat ≤ 0x10FFFF) ∧ ((nums us).flatMap utf8).length ≤ buf.length) →
      ∃ out, utf32to8 us buf = some (.ok (out, ((nums us).flatMap utf8).length)) ∧
        Filled (out.take ((nums us).flatMap utf8).length) ((nums us).flatMap utf8) ∧
        out.length = buf.length ∧
        (((nums us).flatMap utf8).length < buf.length → out[((nums us).flatMap utf8).length]? = some (some 0)) ∧
        out.drop (((nums us).flatMap utf8).length + 1) = buf.drop (((nums us).flatMap utf8).length + 1)) ∧
    (¬ ((∀ u ∈ us, u.toNat ≤ 0x10FFFF) ∧ ((nums us).flatMap utf8).length ≤ buf.length) →
      utf32to8 us buf = some (.error .CONVERSION_FAILED)) := by
  constructor
  · rintro ⟨h1, h2⟩
    have hn := nums_enc us (fun u hu => by have := h1 u hu; omega)
    have hlen : ((nums us).flatMap utf8).length = (us.flatMap enc).length := by rw [← hn, nums_length]
    rw [hlen] at h2 ⊢
    rw [← hn]
    generalize hg : us.flatMap enc = bs at *
    have hloop := from32_safe us [] buf
    rw [hg, if_pos ⟨h1, h2⟩, List.nil_append] at hloop
    rw [utf32to8, hloop]
    simp only [Option.bind_eq_bind, Option.bind_some]
    have hcnt : buf.length - (buf.drop bs.length).length = bs.length := by rw [List.length_drop]; omega
    rw [hcnt]
    by_cases hr : (buf.drop bs.length).length > 0
    · rw [if_pos hr]
      obtain ⟨x, tl, hx⟩ := List.exists_cons_of_length_pos hr
      have htl : buf.drop (bs.length + 1) = tl := by rw [← List.drop_drop, hx]; rfl
      have hln : buf.length = bs.length + (tl.length + 1) := by
        have := congrArg List.length hx
        rw [List.length_drop, List.length_cons] at this; omega
      rw [hx, store, if_pos (by simp), Option.bind_some]
      refine ⟨_, rfl, ?_, ?_, ?_, ?_⟩
      · rw [List.take_left' (by simp)]; exact filled_map _
      · simp [hln]
      · intro _
        rw [List.getElem?_append_right (by simp)]
        simp
      · rw [htl, ← List.drop_drop, List.drop_left' (by simp)]
        rfl
    · rw [if_neg hr]
      have he : buf.drop bs.length = [] := List.length_eq_zero_iff.1 (by omega)
      have hbl : buf.length = bs.length := by rw [List.length_drop] at hr; omega
      refine ⟨_, rfl, ?_, ?_, ?_, ?_⟩
      · rw [List.take_left' (by simp)]; exact filled_map _
      · rw [he]; simp [hbl]
      · intro h; omega
      · rw [List.drop_of_length_le (by rw [he]; simp), List.drop_of_length_le (by omega)]
  · intro hno
    have hno' : ¬ ((∀ u ∈ us, u.toNat ≤ 0x10FFFF) ∧ (us.flatMap enc).length ≤ buf.length) := by
      rintro ⟨h1, h2⟩
      apply hno
      refine ⟨h1, ?_⟩
      rw [← nums_enc us (fun u hu => by have := h1 u hu; omega), nums_length]
      exact h2
    rw [utf32to8, from32_safe, if_neg hno']
    rfl

example : utf32to8 [0x20AC, 0x41] (List.replicate 6 none) =
    some (.ok ([some 0xE2, some 0x82, some 0xAC, some 0x41, some 0, none], 4)) := by decide +kernel
example : utf32to8 [0x20AC, 0x41] (List.replicate 3 none) = some (.error .CONVERSION_FAILED) := by decide +kernel

/-- C34: the length functions on UTF-32 give exactly the number of units. -/
theorem C34_utf32_lengths (us : List Char32) (h : ∀ u ∈ us, IsScalar u.toNat) :
    utf8len_for_utf32 us = ((nums us).flatMap utf8).length ∧
    utf16len_for_utf32 us = ((nums us).flatMap utf16).length := by
  constructor
  · rw [len32_enc, ← nums_enc us (fun u hu => by have := scalar_lt (h u hu); omega), nums_length]
  · unfold utf16len_for_utf32
    have key : ∀ (vs : List Char32) (a : Nat),
        vs.foldl (fun len uc => if uc ≥ 0x10000#32 then len + 1 else len) (a + vs.length) =
          a + ((nums vs).flatMap utf16).length := by
      intro vs
      induction vs with
      | nil => intro a; simp [nums]
      | cons v vs ih =>
        intro a
        have hv : (v ≥ 0x10000#32) ↔ 0x10000 ≤ v.toNat := by rw [ge_iff_le, BitVec.le_def]; rfl
        rw [List.foldl_cons, List.length_cons]
        simp only [nums, List.map_cons, List.flatMap_cons, List.length_append, utf16] at ih ⊢
        by_cases hb : v ≥ 0x10000#32
        · have := hv.1 hb
          rw [if_pos hb, if_neg (by omega), show a + (vs.length + 1) + 1 = a + 2 + vs.length by omega, ih]
          simp only [List.length_cons, List.length_nil]; omega
        · have := hv.not.1 hb
          rw [if_neg hb, if_pos (by omega), show a + (vs.length + 1) = a + 1 + vs.length by omega, ih]
          simp only [List.length_cons, List.length_nil]; omega
    have := key us 0
    simpa using this

example : utf8len_for_utf32 [0x41#32, 0xE9#32, 0x20AC#32, 0x1F600#32] = 10 ∧ utf16len_for_utf32 [0x41#32, 0xE9#32, 0x20AC#32, 0x1F600#32] = 5 := by
  decide

/-! ## UTF-8 to UTF-32 -/

/-- C34: `to_utf32` of the UTF-8 encoding of any sequence of scalar values is that sequence. -/
theorem C34_to_utf32 (bs : List Byte) (ns : List Nat) (hs : ∀ n ∈ ns, IsScalar n) (h : nums bs = ns.flatMap utf8) :
    ∃ cells, to_utf32 bs = some (.ok cells) ∧ Filled cells ns := by
  have hf := forms_utf8 ns (fun n hn => by have := scalar_lt (hs n hn); omega)
  rw [← flat_utf8] at h
  have hc := codepoints_flat _ hf bs h
  have := to32_fwd _ hf [] bs h [] 1
  rw [List.nil_append, List.nil_append, List.length_nil, ← hc, cps_map] at this
  refine ⟨(cpsN ns).map some, ?_, ?_⟩
  · rw [to_utf32, alloc_at]
    rw [this, Option.bind_eq_bind, Option.bind_some]
    dsimp only
    rw [finish_at 0 _ 0 _ (by rw [hc]; simp [cpsN])]
    simp
  · conv => arg 2; rw [← nums_cpsN ns (fun n hn => by have := scalar_lt (hs n hn); omega)]
    exact filled_map _

/-- C34: there and back again. -/
theorem C34_roundtrip (us : List Char32) (h : ∀ u ∈ us, IsScalar u.toNat) :
    ∃ bs, from_utf32 us = some (bs.map some) ∧ to_utf32 bs = some (.ok (us.map some)) := by
  have h2 : ∀ u ∈ us, u.toNat < 0x200000 := fun u hu => by have := scalar_lt (h u hu); omega
  refine ⟨us.flatMap enc, ?_, ?_⟩
  · rw [from_utf32, alloc_at]
    rw [from32_fwd, Option.bind_eq_bind, Option.bind_some, finish_at 0 _ 0 _ (by simp [len32_enc us])]
    simp
  · obtain ⟨cells, e1, e2⟩ := C34_to_utf32 (us.flatMap enc) (nums us)
      (by intro n hn; obtain ⟨u, hu, rfl⟩ := List.mem_map.1 hn; exact h u hu) (nums_enc us h2)
    rw [e1]
    congr 2
    have h3 := filled_map us
    unfold Filled at e2 h3
    rw [← h3] at e2
    exact (List.map_inj_right (fun a b hab => Option.map_injective (fun x y hxy => BitVec.eq_of_toNat_eq hxy) hab)).1 e2

example : to_utf32 [0x41, 0xC3, 0xA9, 0xE2, 0x82, 0xAC, 0xF0, 0x9F, 0x98, 0x80] =
    some (.ok ([0x41#32, 0xE9#32, 0x20AC#32, 0x1F600#32].map some)) := by
  obtain ⟨bs, h1, h2⟩ := C34_roundtrip [0x41#32, 0xE9#32, 0x20AC#32, 0x1F600#32] (by simp [IsScalar])
  have : bs.map some = [0x41, 0xC3, 0xA9, 0xE2, 0x82, 0xAC, 0xF0, 0x9F, 0x98, 0x80].map some := by
    have := h1.symm.trans (show from_utf32 [0x41#32, 0xE9#32, 0x20AC#32, 0x1F600#32] =
      some ([0x41, 0xC3, 0xA9, 0xE2, 0x82, 0xAC, 0xF0, 0x9F, 0x98, 0x80].map some) by decide +kernel)
    simpa using this
  rw [(List.map_inj_right (fun a b h => by simpa using h)).1 this] at h2
  exact h2

/-- C34: `utf8to32` with a buffer of any size, on the encoding of scalar values: it succeeds exactly
if they fit. -/
theorem C34_utf8to32 (bs : List Byte) (ns : List Nat) (buf : List (Option Char32)) (hs : ∀ n ∈ ns, IsScalar n)
    (h : nums bs = ns.flatMap utf8) :
    (ns.length ≤ buf.length → ∃ out, utf8to32 bs buf = some (.ok (out, ns.length)) ∧
      Filled (out.take ns.length) ns ∧ out.length = buf.length ∧
      out.drop (ns.length + 1) = buf.drop (ns.length + 1)) ∧
    (buf.length < ns.length → utf8to32 bs buf = some (.error .CONVERSION_FAILED)) := by
  have hf := forms_utf8 ns (fun n hn => by have := scalar_lt (hs n hn); omega)
  rw [← flat_utf8] at h
  have := to32b_fwd _ hf [] bs h [] buf
  simp only [List.nil_append, List.length_nil, List.length_map, cps_map, Nat.zero_add] at this
  have hfill : Filled ((cpsN ns).map some) ns := by
    conv => arg 2; rw [← nums_cpsN ns (fun n hn => by have := scalar_lt (hs n hn); omega)]
    exact filled_map _
  have hcl : (cpsN ns).length = ns.length := by simp [cpsN]
  constructor
  · intro hle
    rw [if_pos hle] at this
    rw [utf8to32, this]
    simp only [Option.bind_eq_bind, Option.bind_some]
    have hol : ((cpsN ns).map some ++ buf.drop ns.length).length = buf.length := by
      rw [List.length_append, List.length_map, List.length_drop, hcl]; omega
    rw [hol]
    by_cases hr : ns.length + 1 < buf.length
    · rw [if_pos hr]
      obtain ⟨x, tl, hx⟩ := List.exists_cons_of_length_pos (l := buf.drop ns.length) (by rw [List.length_drop]; omega)
      have hst := store_mid ((cpsN ns).map some) x (some (0 : Char32)) tl
      rw [List.length_map, hcl] at hst
      have htl : buf.drop (ns.length + 1) = tl := by rw [← List.drop_drop, hx]; rfl
      rw [hx, hst, Option.bind_some]
      refine ⟨_, rfl, ?_, ?_, ?_⟩
      · rw [List.take_left' (by simp [hcl])]; exact hfill
      · have := congrArg List.length hx
        rw [List.length_drop, List.length_cons] at this
        simp [hcl]; omega
      · rw [htl, ← List.drop_drop, List.drop_left' (by simp [hcl])]; rfl
    · rw [if_neg hr]
      refine ⟨_, rfl, ?_, hol, ?_⟩
      · rw [List.take_left' (by simp [hcl])]; exact hfill
      · rw [← List.drop_drop, List.drop_left' (by simp [hcl]), List.drop_drop]
  · intro hlt
    rw [if_neg (by omega)] at this
    rw [utf8to32, this]
    rfl

example : ∃ out, utf8to32 [0x41, 0xE2, 0x82, 0xAC] [none, none, some 7, some 8] = some (.ok (out, 2)) ∧
    Filled (out.take 2) [0x41, 0x20AC] ∧ out.length = 4 ∧ out.drop 3 = [some 8] :=
  (C34_utf8to32 [0x41, 0xE2, 0x82, 0xAC] [0x41, 0x20AC] [none, none, some 7, some 8] (by decide) (by decide)).1 (by decide)

/-- C34: a `StringIterator` over UTF-8 text yields the code points in order and then
`NO_MORE_ELEMENT`. -/
theorem C34_iterator (bs : List Byte) (us : List Char32) (hs : ∀ u ∈ us, IsScalar u.toNat)
    (h : nums bs = (nums us).flatMap utf8) : StringIterator.drain ⟨bs, 0⟩ = some (us, .NO_MORE_ELEMENT) := by
  have hn : ∀ n ∈ nums us, n < 0x200000 := by
    intro n hn
    obtain ⟨u, hu, rfl⟩ := List.mem_map.1 hn
    have := scalar_lt (hs u hu); omega
  rw [← flat_utf8] at h
  have := drain_fwd _ (forms_utf8 _ hn) [] bs h
  rw [cps_map] at this
  rw [List.nil_append, List.length_nil] at this
  rw [this]
  congr 2
  unfold cpsN nums
  rw [List.map_map]
  conv => rhs; rw [← List.map_id us]
  apply List.map_congr_left
  intro u hu
  simp

example : StringIterator.drain ⟨[0x41, 0xE2, 0x82, 0xAC], 0⟩ = some ([0x41#32, 0x20AC#32], .NO_MORE_ELEMENT) :=
  C34_iterator [0x41, 0xE2, 0x82, 0xAC] [0x41#32, 0x20AC#32] (by simp [IsScalar]) (by decide +kernel)

/-- C34: `peek` gives what the following `next` gives. -/
theorem C34_peek (it : StringIterator) : it.peek = (it.next).map (fun r => r.map (·.2)) := by
  unfold StringIterator.peek StringIterator.next
  dsimp only
  split
  · rfl
  · cases utf8_to_char32 (List.drop it.current it.utf8)
      (if it.utf8.length - it.current < 4 then it.utf8.length - it.current else 4) with
    | none => rfl
    | some r => cases r <;> rfl

/-! ## What the decoder accepts -/

/-- C34: exactly what the decoder accepts.  A text is accepted if and only if it is a sequence of
forms of one to four bytes (a lead byte and continuation bytes) whose numbers are at least 64 if the
form has more than one byte; the result is the sequence of those numbers.  Other texts give the fault.
In particular all well-formed UTF-8 is accepted (`C34_to_utf32`).

Missing for the full property: the forms need not be the shortest ones, nor encode scalar values
(`C34_overlong`, `C34_not_scalar`). -/
theorem C34_decode_partial (bs : List Byte) :
    (∀ fs : List (Nat × Nat), (∀ f ∈ fs, 1 ≤ f.1 ∧ f.1 ≤ 4 ∧ f.2 < cap8 f.1 ∧ (1 < f.1 → 64 ≤ f.2)) →
      nums bs = fs.flatMap (fun f => form8 f.1 f.2) →
      ∃ cells, to_utf32 bs = some (.ok cells) ∧ Filled cells (fs.map (·.2))) ∧
    ((¬ ∃ fs : List (Nat × Nat), (∀ f ∈ fs, 1 ≤ f.1 ∧ f.1 ≤ 4 ∧ f.2 < cap8 f.1 ∧ (1 < f.1 → 64 ≤ f.2)) ∧
      nums bs = fs.flatMap (fun f => form8 f.1 f.2)) → to_utf32 bs = some (.error .INVALID_UTF8)) := by
  have hin : ∀ f : Nat × Nat, (1 ≤ f.1 ∧ f.1 ≤ 4 ∧ f.2 < cap8 f.1 ∧ (1 < f.1 → 64 ≤ f.2)) ↔ InForm f.1 f.2 := by
    rintro ⟨w, n⟩
    unfold InForm
    constructor
    · rintro ⟨a, b, c, d⟩
      dsimp only at a b c d ⊢
      have hw : w = 1 ∨ w = 2 ∨ w = 3 ∨ w = 4 := by omega
      rcases hw with rfl | rfl | rfl | rfl <;> simp only [cap8] at c <;> omega
    · dsimp only
      rintro (⟨rfl, h⟩ | ⟨rfl, h⟩ | ⟨rfl, h⟩ | ⟨rfl, h⟩) <;> simp only [cap8] <;> omega
  constructor
  · intro fs hfs h
    have hF : Forms fs := fun f hf => (hin f).1 (hfs f hf)
    have hc := codepoints_flat fs hF bs h
    have := to32_fwd fs hF [] bs h [] 1
    rw [List.nil_append, List.nil_append, List.length_nil, ← hc] at this
    refine ⟨(cps fs).map some, ?_, ?_⟩
    · rw [to_utf32, alloc_at, this, Option.bind_eq_bind, Option.bind_some]
      dsimp only
      rw [finish_at 0 _ 0 _ (by rw [hc]; simp [cps])]
      simp
    · rw [← nums_cps fs hF]
      exact filled_map _
  · intro hno
    have := to32_inv bs.length [] bs [] 1 rfl
    rw [List.nil_append, List.length_nil] at this
    rw [to_utf32, alloc_at]
    rcases this with h | ⟨fs, g1, g2, -⟩
    · rw [h]; rfl
    · exact absurd ⟨fs, fun f hf => (hin f).2 (g1 f hf), g2⟩ hno

example : ∃ cells, to_utf32 [0x41, 0xC1, 0x81] = some (.ok cells) ∧ Filled cells [0x41, 0x41] :=
  (C34_decode_partial [0x41, 0xC1, 0x81]).1 [(1, 0x41), (2, 0x41)] (by decide) (by decide)
example : utf8_to_char32 [0x80] 1 = some (.error .INVALID_UTF8) := by decide

theorem not_scalar_dec (n : Nat) (p : List Byte) (h2 : n < 0x200000) (hp : nums p = form8 (width8 n) n) :
    to_utf32 p = some (.ok [some (BitVec.ofNat 32 n)]) := by
  have hf := inForm_width8 n h2
  have hF : Forms [(width8 n, n)] := by intro f hf'; rw [List.mem_singleton.1 hf']; exact hf
  have hfl : nums p = flat [(width8 n, n)] := by simpa [flat] using hp
  have := to32_fwd [(width8 n, n)] hF [] p hfl [] 1
  rw [List.nil_append, List.length_nil, List.nil_append] at this
  rw [to_utf32, alloc_at]
  rw [codepoints_flat _ hF p hfl, this, Option.bind_eq_bind, Option.bind_some]
  dsimp only
  rw [finish_at 0 _ 0 _ (by simp [cps])]
  simp [cps]

theorem only_one (p : List Byte) (n : Nat) (ns : List Nat) (hn : n < 2 ^ 32)
    (h : to_utf32 p = some (.ok [some (BitVec.ofNat 32 n)])) (hs : ∀ m ∈ ns, IsScalar m)
    (h2 : nums p = ns.flatMap utf8) : ns = [n] := by
  obtain ⟨cells, h3, h4⟩ := C34_to_utf32 p ns hs h2
  rw [h] at h3
  simp only [Option.some.injEq, Except.ok.injEq] at h3
  subst h3
  unfold Filled at h4
  have : [n].map some = ns.map some := by
    rw [← h4]
    simp only [List.map_cons, List.map_nil, Option.map_some, BitVec.toNat_ofNat, Nat.mod_eq_of_lt hn]
  exact ((List.map_inj_right (fun a b hab => by simpa using hab)).1 this).symm

/-- C34 fails in general: every number from 64 up to what `w` bytes can hold is accepted in a form of
`w` bytes, although only the shortest form is well-formed.  So `C1 81` is read as `A`. -/
theorem C34_overlong (w n : Nat) (p : List Byte) (hn : 64 ≤ n)
    (hw : (w = 2 ∧ n < 0x80) ∨ (w = 3 ∧ n < 0x800) ∨ (w = 4 ∧ n < 0x10000)) (hp : nums p = form8 w n) :
    to_utf32 p = some (.ok [some (BitVec.ofNat 32 n)]) ∧
      ¬ ∃ ns : List Nat, (∀ m ∈ ns, IsScalar m) ∧ nums p = ns.flatMap utf8 := by
  have hf : InForm w n := by unfold InForm; omega
  have hwd : width8 n < w := by unfold width8; split <;> [skip; split <;> [skip; split]] <;> omega
  have hdec : to_utf32 p = some (.ok [some (BitVec.ofNat 32 n)]) := by
    have hF : Forms [(w, n)] := by intro f hf'; rw [List.mem_singleton.1 hf']; exact hf
    have hfl : nums p = flat [(w, n)] := by simpa [flat] using hp
    have := to32_fwd [(w, n)] hF [] p hfl [] 1
    rw [List.nil_append, List.length_nil, List.nil_append] at this
    rw [to_utf32, alloc_at]
    rw [codepoints_flat _ hF p hfl, this, Option.bind_eq_bind, Option.bind_some]
    dsimp only
    rw [finish_at 0 _ 0 _ (by simp [cps])]
    simp [cps]
  refine ⟨hdec, ?_⟩
  rintro ⟨ns, h1, h2⟩
  have hns := only_one p n ns (by omega) hdec h1 h2
  subst hns
  rw [List.flatMap_cons, List.flatMap_nil, List.append_nil] at h2
  have h1 := congrArg List.length (hp.symm.trans h2)
  rw [form8_length _ _ hf, utf8, form8_length _ _ (inForm_width8 n (by omega))] at h1
  omega

example : nums ([0xC1, 0x81] : List Byte) = form8 2 0x41 := by decide

/-- C34 fails in general: surrogates and numbers above 0x10FFFF are accepted. -/
theorem C34_not_scalar (n : Nat) (p : List Byte) (h1 : ¬ IsScalar n) (h2 : n < 0x200000) (hp : nums p = form8 (width8 n) n) :
    to_utf32 p = some (.ok [some (BitVec.ofNat 32 n)]) ∧
      ¬ ∃ ns : List Nat, (∀ m ∈ ns, IsScalar m) ∧ nums p = ns.flatMap utf8 := by
  have hdec := not_scalar_dec n p h2 hp
  refine ⟨hdec, ?_⟩
  rintro ⟨ns, g1, g2⟩
  have hns := only_one p n ns (by omega) hdec g1 g2
  subst hns
  exact h1 (g1 n (by simp))

example : nums ([0xED, 0xA0, 0x80] : List Byte) = form8 (width8 0xD800) 0xD800 ∧ ¬ IsScalar 0xD800 := by
  unfold IsScalar; decide

/-! ## UTF-8 to UTF-16 -/

theorem slacks_zero (fs : List (Nat × Nat)) (h : ∀ f ∈ fs, ¬ (f.1 = 4 ∧ f.2 < 0x10000)) : slacks fs = 0 := by
  induction fs with
  | nil => rfl
  | cons f fs ih =>
    have := ih (fun g hg => h g (by simp [hg]))
    unfold slacks at this ⊢
    rw [List.map_cons, List.sum_cons, this, slack, if_neg (h f (by simp))]

/-- C34: `to_utf16` of the UTF-8 encoding of scalar values is their UTF-16 encoding, and
`utf16len_for_utf8` is its length. -/
theorem C34_to_utf16 (bs : List Byte) (ns : List Nat) (hs : ∀ n ∈ ns, IsScalar n) (h : nums bs = ns.flatMap utf8) :
    utf16len_for_utf8 bs = (ns.flatMap utf16).length ∧
    ∃ cells, to_utf16 bs = some (.ok cells) ∧ Filled cells (ns.flatMap utf16) := by
  have hlt : ∀ n ∈ ns, n < 0x110000 := fun n hn => scalar_lt (hs n hn)
  have hf := forms_utf8 ns (fun n hn => by have := hlt n hn; omega)
  rw [← flat_utf8] at h
  have hcp : ∀ u ∈ cpsN ns, u.toNat < 0x110000 := by
    intro u hu
    obtain ⟨n, hn, rfl⟩ := List.mem_map.1 hu
    have := hlt n hn
    rw [BitVec.toNat_ofNat]; omega
  have hnum : nums ((cpsN ns).flatMap enc16) = ns.flatMap utf16 := by
    rw [nums_enc16 _ hcp, nums_cpsN ns (fun n hn => by have := hlt n hn; omega)]
  have hsl : slacks (ns.map fun n => (width8 n, n)) = 0 := by
    apply slacks_zero
    intro f hf
    obtain ⟨n, hn, rfl⟩ := List.mem_map.1 hf
    rintro ⟨a, b⟩
    dsimp only at a b
    unfold width8 at a
    revert a
    (repeat' split) <;> omega
  have hfw := fun k => to16_fwd _ hf [] bs h [] k
  simp only [List.nil_append, List.length_nil, cps_map, hsl, Nat.zero_add] at hfw
  have hlen : utf16len_for_utf8 bs = ((cpsN ns).flatMap enc16).length := by
    have := len16_slack _ hf bs h
    rwa [hsl, cps_map, Nat.add_zero] at this
  refine ⟨by rw [hlen, ← hnum, nums_length], ((cpsN ns).flatMap enc16).map some, ?_, ?_⟩
  · rw [to_utf16, alloc_at, utf16len_for_utf8, hfw 1, Option.bind_eq_bind, Option.bind_some]
    dsimp only
    rw [← utf16len_for_utf8, finish_at 0 _ 0 _ (by rw [hlen]; rfl)]
    simp
  · rw [← hnum]; exact filled_map _

example : ∃ cells, to_utf16 [0xE2, 0x82, 0xAC, 0xF0, 0x9F, 0x98, 0x80] = some (.ok cells) ∧
    Filled cells [0x20AC, 0xD83D, 0xDE00] :=
  (show [0x20AC, 0x1F600].flatMap utf16 = [0x20AC, 0xD83D, 0xDE00] by decide +kernel) ▸
    (C34_to_utf16 [0xE2, 0x82, 0xAC, 0xF0, 0x9F, 0x98, 0x80] [0x20AC, 0x1F600] (by decide +kernel) (by decide +kernel)).2

/-- C34 fails in general: for a text with overlong four-byte forms, which the decoder accepts,
`to_utf16` returns a slice whose last cells, one for each such form, are uninitialised. -/
theorem C34_to_utf16_garbage (bs : List Byte) (n : Nat) (hn : 64 ≤ n ∧ n < 0x10000) (h : nums bs = form8 4 n) :
    to_utf16 bs = some (.ok [some (BitVec.ofNat 16 n), none]) := by
  have hf : InForm 4 n := by unfold InForm; omega
  have hF : Forms [(4, n)] := by intro f hf'; rw [List.mem_singleton.1 hf']; exact hf
  have hfl : nums bs = flat [(4, n)] := by simpa [flat] using h
  have hst := len16_step [] bs [] 4 n hf h
  have hbl : bs.length = 4 := by rw [← nums_length bs, h]; rfl
  rw [List.nil_append, List.append_nil, List.length_nil, Nat.zero_add, if_pos rfl, ← hbl, len16_end] at hst
  have hfw := to16_fwd _ hF [] bs hfl [] 1
  rw [List.nil_append, List.length_nil, List.nil_append] at hfw
  have hsl : slacks [(4, n)] = 1 := by simp [slacks, slack, hn.2]
  have henc : enc16 (BitVec.ofNat 32 n) = [BitVec.ofNat 16 n] := by
    have hm : (BitVec.ofNat 32 n).toNat = n := by rw [BitVec.toNat_ofNat]; omega
    rw [enc16, if_pos (by rw [lt16, hm]; omega)]
    congr 1
    apply BitVec.eq_of_toNat_eq
    rw [BitVec.toNat_setWidth, hm, BitVec.toNat_ofNat]
  have hcp : (cps [(4, n)]).flatMap enc16 = [BitVec.ofNat 16 n] := by simp [cps, henc]
  rw [hsl, hcp] at hfw
  rw [to_utf16, alloc_at, utf16len_for_utf8, hfw, Option.bind_eq_bind, Option.bind_some]
  dsimp only
  rw [finish_at 0 [BitVec.ofNat 16 n] 1 _ hst]
  rfl

example : nums ([0xF0, 0x80, 0x81, 0x81] : List Byte) = form8 4 0x41 := by decide

/-! ## UTF-16 to UTF-8 -/

/-- C34 fails in general: `from_utf16` of the UTF-16 encoding of scalar values writes their UTF-8
encoding, but the string it returns goes on with four uninitialised bytes for each value above
0xFFFF. -/
theorem C34_from_utf16_garbage (ws : List Char16) (ns : List Nat) (hs : ∀ n ∈ ns, IsScalar n)
    (h : nums ws = ns.flatMap utf16) :
    ∃ bs, nums bs = ns.flatMap utf8 ∧
      from_utf16 ws = some (.ok (bs.map some ++ List.replicate (4 * ns.countP (fun n => 0x10000 ≤ n)) none)) := by
  have hlt : ∀ n ∈ ns, n < 0x110000 := fun n hn => scalar_lt (hs n hn)
  have hcp : ∀ u ∈ cpsN ns, u.toNat < 0x200000 := by
    intro u hu
    obtain ⟨n, hn, rfl⟩ := List.mem_map.1 hu
    have := hlt n hn
    rw [BitVec.toNat_ofNat]; omega
  have hfw := from16_fwd ns hs [] ws h [] 1
  rw [List.nil_append, List.length_nil, List.nil_append] at hfw
  refine ⟨(cpsN ns).flatMap enc, ?_, ?_⟩
  · rw [nums_enc _ hcp, nums_cpsN ns (fun n hn => by have := hlt n hn; omega)]
  · rw [from_utf16, alloc_at, hfw, Option.bind_eq_bind, Option.bind_some]
    dsimp only
    rw [finish_at 0 _ (spare ns) _ (len8_spare ns hs ws h)]
    rfl

example : ∃ bs, nums bs = [0xF0, 0x9F, 0x98, 0x80] ∧
    from_utf16 [0xD83D, 0xDE00] = some (.ok (bs.map some ++ [none, none, none, none])) :=
  (show [0x1F600].flatMap utf8 = [0xF0, 0x9F, 0x98, 0x80] by decide +kernel) ▸
    C34_from_utf16_garbage [0xD83D, 0xDE00] [0x1F600] (by decide +kernel) (by decide +kernel)

/-- C34: without values above 0xFFFF `from_utf16` returns exactly the UTF-8 encoding.

Missing for the full property: values above 0xFFFF (`C34_from_utf16_garbage`). -/
theorem C34_from_utf16_partial (ws : List Char16) (ns : List Nat) (hs : ∀ n ∈ ns, IsScalar n)
    (hb : ∀ n ∈ ns, n < 0x10000) (h : nums ws = ns.flatMap utf16) :
    ∃ cells, from_utf16 ws = some (.ok cells) ∧ Filled cells (ns.flatMap utf8) := by
  obtain ⟨bs, h1, h2⟩ := C34_from_utf16_garbage ws ns hs h
  have hz : ns.countP (fun n => 0x10000 ≤ n) = 0 := by
    rw [List.countP_eq_zero]
    intro n hn
    have := hb n hn
    simp; omega
  rw [hz, Nat.mul_zero, List.replicate_zero, List.append_nil] at h2
  exact ⟨_, h2, h1 ▸ filled_map bs⟩

example : ∃ cells, from_utf16 [0x20AC, 0x41] = some (.ok cells) ∧ Filled cells [0xE2, 0x82, 0xAC, 0x41] :=
  (show [0x20AC, 0x41].flatMap utf8 = [0xE2, 0x82, 0xAC, 0x41] by decide +kernel) ▸
    C34_from_utf16_partial [0x20AC, 0x41] [0x20AC, 0x41] (by decide +kernel) (by decide +kernel) (by decide +kernel)

/-- C34: `from_utf16` rejects exactly the texts that are not well-formed UTF-16. -/
theorem C34_utf16_accepts (ws : List Char16) :
    (∃ cells, from_utf16 ws = some (.ok cells)) ↔ ∃ ns : List Nat, (∀ n ∈ ns, IsScalar n) ∧ nums ws = ns.flatMap utf16 := by
  constructor
  · rintro ⟨cells, h⟩
    have := from16_inv ws.length [] ws [] 1 rfl
    rw [List.nil_append, List.length_nil] at this
    rcases this with h2 | h2
    · rw [from_utf16, alloc_at, h2] at h
      simp at h
    · exact h2
  · rintro ⟨ns, h1, h2⟩
    obtain ⟨bs, -, h3⟩ := C34_from_utf16_garbage ws ns h1 h2
    exact ⟨_, h3⟩

example : ∃ cells, from_utf16 [0xD83D, 0xDE00] = some (.ok cells) := by
  rw [C34_utf16_accepts]; exact ⟨[0x1F600], by decide +kernel, by decide +kernel⟩

/-! ## Safety on arbitrary input -/

/-- C34: on any input whatsoever the allocating conversions stay within their buffers and end. -/
theorem C34_memory_safe (bs : List Byte) (ws : List Char16) (us : List Char32) :
    to_utf32 bs ≠ none ∧ to_utf16 bs ≠ none ∧ from_utf16 ws ≠ none ∧ from_utf32 us ≠ none := by
  refine ⟨?_, ?_, ?_, ?_⟩
  · intro h
    by_cases hx : ∃ fs : List (Nat × Nat), (∀ f ∈ fs, 1 ≤ f.1 ∧ f.1 ≤ 4 ∧ f.2 < cap8 f.1 ∧ (1 < f.1 → 64 ≤ f.2)) ∧
        nums bs = fs.flatMap (fun f => form8 f.1 f.2)
    · obtain ⟨fs, h1, h2⟩ := hx
      obtain ⟨c, h3, -⟩ := (C34_decode_partial bs).1 fs h1 h2
      rw [h3] at h; simp at h
    · rw [(C34_decode_partial bs).2 hx] at h; simp at h
  · intro h
    have := to16_inv bs.length [] bs [] 1 rfl
    rw [List.nil_append, List.length_nil] at this
    rcases this with h2 | ⟨fs, h1, h2⟩
    · rw [to_utf16, alloc_at, utf16len_for_utf8, h2] at h
      simp at h
    · have hfw := to16_fwd fs h1 [] bs h2 [] 1
      rw [List.nil_append, List.length_nil, List.nil_append] at hfw
      rw [to_utf16, alloc_at, utf16len_for_utf8, hfw, Option.bind_eq_bind, Option.bind_some] at h
      dsimp only at h
      rw [← utf16len_for_utf8, finish_at 0 _ (slacks fs) _ (len16_slack fs h1 bs h2)] at h
      simp at h
  · intro h
    have := from16_inv ws.length [] ws [] 1 rfl
    rw [List.nil_append, List.length_nil] at this
    rcases this with h2 | ⟨ns, h1, h2⟩
    · rw [from_utf16, alloc_at, h2] at h
      simp at h
    · obtain ⟨bs, -, h3⟩ := C34_from_utf16_garbage ws ns h1 h2
      rw [h3] at h; simp at h
  · intro h
    rw [from_utf32, alloc_at, from32_fwd, Option.bind_eq_bind, Option.bind_some,
      finish_at 0 _ 0 _ (by simp [len32_enc us])] at h
    simp at h

example : to_utf16 [0xF0, 0x9F] ≠ none := (C34_memory_safe [0xF0, 0x9F] [] []).2.1

end C3.Utf
