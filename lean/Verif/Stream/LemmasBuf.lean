import Verif.Stream.LemmasWrite

set_option autoImplicit false

namespace C3.Stream

open C3.Str (sliceFrom sliceLen index_of)

variable {σ τ α : Type}

theorem shrink_spec {s : ByteBuffer α} (g : s.Good) : ∃ t, s.shrink = some t ∧ t.Good ∧ t.rest = s.rest ∧ t.hasLast = s.hasLast ∧
    (s.readIdx ≠ 0 → t.readIdx ≠ 0 ∧ t.bytes[t.readIdx - 1]? = s.bytes[s.readIdx - 1]?) := by
  have hle := g.le; have hcap := g.cap; have hm := g.max
  unfold ByteBuffer.shrink
  by_cases h : s.readIdx ≥ s.maxRead
  · rw [if_pos h, if_neg (by omega), sliceLen_eq (by omega)]
    simp only
    have hl : ((s.bytes.drop (s.readIdx - 1)).take (1 + (s.writeIdx - s.readIdx))).length = 1 + (s.writeIdx - s.readIdx) := by
      rw [List.length_take, List.length_drop]; omega
    have hp := put_eq (buf := s.bytes) (l := (s.bytes.drop (s.readIdx - 1)).take (1 + (s.writeIdx - s.readIdx))) (off := 0) (by omega)
    rw [hp]
    have hpl := put_length hp
    have hpt := take_put hp
    refine ⟨_, rfl, ⟨by simp only; omega, ?_, hm, fun _ => by simp⟩, ?_, rfl, fun _ => ⟨by simp, ?_⟩⟩
    · show 1 + (s.writeIdx - s.readIdx) ≤ List.length _
      rw [hpl]; omega
    · rw [Nat.zero_add, hl] at hpt
      unfold ByteBuffer.rest
      simp only
      rw [Nat.zero_add, hl, hpt, List.take_zero, List.nil_append]
      rw [List.drop_take, List.drop_drop, List.drop_take, show s.readIdx - 1 + 1 = s.readIdx by omega,
        show 1 + (s.writeIdx - s.readIdx) - 1 = s.writeIdx - s.readIdx by omega]
    · show (List.take 0 s.bytes ++ _)[0]? = _
      rw [List.take_zero, List.nil_append, List.getElem?_append_left (by omega), List.getElem?_take_of_lt (by omega),
        List.getElem?_drop, Nat.add_zero]
  · rw [if_neg h]
    exact ⟨_, rfl, g, rfl, rfl, fun h0 => ⟨h0, rfl⟩⟩

theorem byteBuffer_honest : Honest (byteBufferIn (α := α)) ByteBuffer.Good ByteBuffer.rest := by
  have hempty : ∀ s : ByteBuffer α, s.Good → s.writeIdx - s.readIdx = 0 → s.rest = [] := by
    intro s g h
    unfold ByteBuffer.rest
    exact List.drop_eq_nil_of_le (by rw [List.length_take]; omega)
  refine ⟨⟨?_, ?_⟩, ?_, ?_, ?_, ?_⟩
  · intro s n g
    have hle := g.le; have hcap := g.cap
    simp only [byteBufferIn]
    by_cases h : s.writeIdx - s.readIdx = 0
    · rw [if_pos h]; exact ⟨_, _, rfl, hempty s g h⟩
    · rw [if_neg h, sliceLen_eq (by omega)]
      simp only
      have hl : ((s.bytes.drop s.readIdx).take (min (s.writeIdx - s.readIdx) n)).length = min (s.writeIdx - s.readIdx) n := by
        rw [List.length_take, List.length_drop]; omega
      obtain ⟨t, e, gt, hr, _, _⟩ := shrink_spec (s := { s with readIdx := s.readIdx + min (s.writeIdx - s.readIdx) n, hasLast := decide (min (s.writeIdx - s.readIdx) n > 0) }) ⟨by simp only; omega, hcap, g.max, by simp; omega⟩
      rw [e]
      refine ⟨_, _, rfl, gt, by omega, ?_, ?_⟩
      · rw [hr]
        show (s.bytes.take s.writeIdx).drop s.readIdx = _ ++ (s.bytes.take s.writeIdx).drop (s.readIdx + min (s.writeIdx - s.readIdx) n)
        rw [← drop_take s.readIdx (min (s.writeIdx - s.readIdx) n), List.drop_take, List.take_take]
        congr 2
        omega
      · intro hn e2
        have := congrArg List.length e2
        rw [hl, List.length_nil] at this
        omega
  · intro s g
    have hle := g.le; have hcap := g.cap
    simp only [byteBufferIn]
    by_cases h : s.writeIdx - s.readIdx = 0
    · rw [if_pos h]; exact ⟨_, _, rfl, hempty s g h⟩
    · rw [if_neg h, List.getElem?_eq_getElem (by omega)]
      simp only
      obtain ⟨t, e, gt, hr, _, _⟩ := shrink_spec (s := { s with readIdx := s.readIdx + 1, hasLast := true })
        ⟨by simp only; omega, hcap, g.max, by simp⟩
      rw [e]
      refine ⟨_, _, rfl, gt, ?_⟩
      rw [hr]
      show (s.bytes.take s.writeIdx).drop s.readIdx = _ :: (s.bytes.take s.writeIdx).drop (s.readIdx + 1)
      rw [List.drop_eq_getElem_cons (by rw [List.length_take]; omega), List.getElem_take]
  · intro s t n g e
    simp only [byteBufferIn] at e
    split at e
    · rename_i h
      have := (Prod.mk.inj (Option.some.inj e)).1
      rw [← this]; exact ⟨⟨g.le, g.cap, g.max, by simp⟩, hempty s g h⟩
    · split at e
      · simp at e
      · split at e <;> simp at e
  · intro s t n g e
    simp only [byteBufferIn] at e
    split at e
    · simp at e
    · split at e
      · simp at e
      · split at e <;> simp at e
  · intro s t g e
    simp only [byteBufferIn] at e
    split at e
    · rename_i h
      have := (Prod.mk.inj (Option.some.inj e)).1
      rw [← this]; exact ⟨⟨g.le, g.cap, g.max, by simp⟩, hempty s g h⟩
    · split at e
      · simp at e
      · split at e <;> simp at e
  · intro s t g e
    simp only [byteBufferIn] at e
    split at e
    · simp at e
    · split at e
      · simp at e
      · split at e <;> simp at e

theorem pushback_byte {s t : ByteBuffer α} {c : α} (g : s.Good) (h : byteBufferIn.readByte s = some (t, .ok c)) :
    ∃ u, t.pushback = some (u, .ok ()) ∧ u.Good ∧ u.rest = s.rest := by
  have hle := g.le; have hcap := g.cap
  have hread := byteBuffer_honest.reads.byte s g
  obtain ⟨t', r', e', hr'⟩ := hread
  rw [h] at e'
  obtain ⟨rfl, rfl⟩ := Prod.mk.inj (Option.some.inj e')
  obtain ⟨gt, hrest⟩ := hr'
  simp only [byteBufferIn] at h
  by_cases h0 : s.writeIdx - s.readIdx = 0
  · rw [if_pos h0] at h; simp at h
  · rw [if_neg h0, List.getElem?_eq_getElem (by omega)] at h
    simp only at h
    obtain ⟨t', e, _, hr, hl, hb⟩ := shrink_spec (s := { s with readIdx := s.readIdx + 1, hasLast := true })
      ⟨by simp only; omega, hcap, g.max, by simp⟩
    rw [e] at h
    obtain ⟨h1, h2⟩ := Prod.mk.inj (Option.some.inj h)
    subst h1
    obtain ⟨hne, hbyte⟩ := hb (by simp)
    have hle' := gt.le; have hcap' := gt.cap
    unfold ByteBuffer.pushback
    have hl' : t'.hasLast = true := hl
    rw [if_neg (by rw [hl']; simp), if_neg hne]
    refine ⟨_, rfl, ⟨by simp only; omega, hcap', gt.max, by simp⟩, ?_⟩
    rw [hrest]
    show (t'.bytes.take t'.writeIdx).drop (t'.readIdx - 1) = c :: (t'.bytes.take t'.writeIdx).drop t'.readIdx
    rw [List.drop_eq_getElem_cons (by rw [List.length_take]; omega), List.getElem_take, show t'.readIdx - 1 + 1 = t'.readIdx by omega]
    congr 1
    have hbyte' : t'.bytes[t'.readIdx - 1]? = s.bytes[s.readIdx + 1 - 1]? := hbyte
    rw [List.getElem?_eq_getElem (by omega), Nat.add_sub_cancel, List.getElem?_eq_getElem (by omega)] at hbyte'
    rw [Option.some.inj hbyte']
    simpa using h2

theorem byteBuffer_write_fits (fill : α) {s : ByteBuffer α} (g : s.Good) {l : List α} (h : s.writeIdx + l.length ≤ s.bytes.length) :
    ∃ t, (byteBufferOut fill).write s l = some (t, .ok l.length) ∧ t.Good ∧ t.rest = s.rest ++ l := by
  have hle := g.le
  simp only [byteBufferOut]
  rw [if_neg (by omega)]
  simp only
  have hp := put_eq h
  rw [hp]
  have hpl := put_length hp
  refine ⟨_, rfl, ⟨by simp only; omega, ?_, g.max, g.last⟩, ?_⟩
  · show s.writeIdx + l.length ≤ List.length _
    rw [hpl]; exact h
  · show (List.take (s.writeIdx + l.length) (List.take s.writeIdx s.bytes ++ (l ++ List.drop (s.writeIdx + l.length) s.bytes))).drop s.readIdx = _
    rw [take_put hp, List.drop_append_of_le_length (by rw [List.length_take]; omega)]; rfl

theorem byteBuffer_write_grow (fill : α) {s : ByteBuffer α} (g : s.Good) {l : List α} (h : s.bytes.length < s.writeIdx + l.length)
    (ha : s.alloc = true) :
    (nextPow2 l.length < s.writeIdx + l.length → (byteBufferOut fill).write s l = none) ∧
    (s.writeIdx + l.length ≤ nextPow2 l.length →
      ∃ t, (byteBufferOut fill).write s l = some (t, .ok l.length) ∧ t.Good ∧ t.rest = s.rest ++ l) := by
  have hle := g.le; have hcap := g.cap
  have hg : s.grow fill l.length = some { s with bytes := realloc fill s.bytes (nextPow2 l.length) } := by
    unfold ByteBuffer.grow; exact if_pos ha
  simp only [byteBufferOut]
  rw [if_pos (by omega), hg]
  simp only
  constructor
  · intro hlt
    unfold put
    rw [realloc_length, if_neg (by omega)]
  · intro hge
    have gs : ByteBuffer.Good { s with bytes := realloc fill s.bytes (nextPow2 l.length) } :=
      ⟨hle, by show s.writeIdx ≤ (realloc fill s.bytes _).length; rw [realloc_length]; omega, g.max, g.last⟩
    obtain ⟨t, e, gt, hr⟩ := byteBuffer_write_fits fill gs (l := l) (by
      show s.writeIdx + l.length ≤ (realloc fill s.bytes _).length; rw [realloc_length]; omega)
    simp only [byteBufferOut] at e
    rw [if_neg (by show ¬ (realloc fill s.bytes (nextPow2 l.length)).length - s.writeIdx < l.length; rw [realloc_length]; omega)] at e
    refine ⟨t, e, gt, ?_⟩
    rw [hr]
    show (List.take s.writeIdx (realloc fill s.bytes _)).drop s.readIdx ++ l = _
    rw [realloc_take fill (by omega) hcap]; rfl

end C3.Stream
