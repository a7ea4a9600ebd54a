import Verif.Stream.LemmasScan

set_option autoImplicit false

namespace C3.Stream

open C3.Str (sliceFrom sliceLen index_of)

variable {σ τ α : Type}

/-! Reading -/

theorem readUsingReadByte_spec {R : In σ α} {good : σ → Prop} {rest : σ → List α} (h : Reads R good rest) (n : Nat) : ∀ s, good s →
    ∃ t r, readUsingReadByte R s n = some (t, r) ∧
      match r with
      | .ok l => l = (rest s).take n
      | .eof => False
      | .fault => True := by
  induction n with
  | zero => intro s _; exact ⟨_, _, rfl, by simp⟩
  | succ n ih =>
    intro s g
    obtain ⟨t, r, e, hr⟩ := h.byte s g
    simp only [readUsingReadByte, e]
    cases r with
    | ok c =>
      obtain ⟨g', hs⟩ := hr
      obtain ⟨u, q, e2, hq⟩ := ih t g'
      simp only [e2]
      cases q with
      | ok l => exact ⟨_, _, rfl, by rw [hs, hq]; rfl⟩
      | eof => exact hq.elim
      | fault => exact ⟨_, _, rfl, trivial⟩
    | eof => exact ⟨_, _, rfl, by have hr' : rest s = [] := hr; rw [hr']; rfl⟩
    | fault => exact ⟨_, _, rfl, trivial⟩

theorem readByteUsingRead_spec {R : In σ α} {good : σ → Prop} {rest : σ → List α} (h : Reads R good rest) (s : σ) (g : good s) :
    ∃ t r, readByteUsingRead R s = some (t, r) ∧
      match r with
      | .ok c => good t ∧ rest s = c :: rest t
      | .eof => rest s = []
      | .fault => True := by
  obtain ⟨t, r, e, hr⟩ := h.read s 1 g
  unfold readByteUsingRead
  rw [e]
  cases r with
  | ok l =>
    obtain ⟨g', hl, hs, hne⟩ := hr
    match l, hl, hs, hne with
    | [], _, _, hne => exact absurd rfl (hne (by simp))
    | [c], _, hs, _ => exact ⟨_, _, rfl, g', hs⟩
    | _ :: _ :: _, hl, _, _ => simp at hl
  | eof => exact ⟨_, _, rfl, hr⟩
  | fault => exact ⟨_, _, rfl, trivial⟩

theorem readFullyLoop_spec {R : In σ α} {good : σ → Prop} {rest : σ → List α} (h : Reads R good rest) (fuel : Nat) : ∀ s len, good s →
    len ≤ fuel → ∃ t r, readFullyLoop R fuel s len = some (t, r) ∧
      match r with
      | .ok l => good t ∧ rest s = l ++ rest t ∧ l.length = len
      | .eof => (rest s).length < len
      | .fault => True := by
  induction fuel with
  | zero =>
    intro s len g hf
    obtain rfl : len = 0 := by omega
    exact ⟨_, _, rfl, g, rfl, rfl⟩
  | succ fuel ih =>
    intro s len g hf
    cases len with
    | zero => exact ⟨_, _, rfl, g, rfl, rfl⟩
    | succ len =>
      obtain ⟨t, r, e, hr⟩ := h.read s (len + 1) g
      simp only [readFullyLoop, e]
      cases r with
      | ok l =>
        obtain ⟨g', hl, hs, hne⟩ := hr
        have hpos := List.length_pos_iff.2 (hne (by omega))
        obtain ⟨u, q, e2, hq⟩ := ih t (len + 1 - l.length) g' (by omega)
        simp only [e2]
        cases q with
        | ok k =>
          obtain ⟨gu, hsu, hk⟩ := hq
          exact ⟨_, _, rfl, gu, by rw [hs, hsu, List.append_assoc], by rw [List.length_append]; omega⟩
        | eof =>
          refine ⟨_, _, rfl, ?_⟩
          have hq' : (rest t).length < len + 1 - l.length := hq
          show (rest s).length < len + 1
          rw [hs, List.length_append]; omega
        | fault => exact ⟨_, _, rfl, trivial⟩
      | eof =>
        refine ⟨_, _, rfl, ?_⟩
        have hr' : rest s = [] := hr
        show (rest s).length < len + 1
        rw [hr']; simp
      | fault => exact ⟨_, _, rfl, trivial⟩

theorem copy_spec {R : In σ α} {W : Out τ α} {good : σ → Prop} {rest : σ → List α} {goodW : τ → Prop} {got : τ → List α}
    (h : Reads R good rest) (hw : Writes W goodW got) {size : Nat} (hsize : size ≠ 0) (fuel : Nat) : ∀ s w, good s → goodW w →
    (rest s).length < fuel →
    ∃ t r, copyThroughBuffer R W size fuel s w = some (t, r) ∧ goodW t.2 ∧ (∃ p q, rest s = p ++ q ∧ got t.2 = got w ++ p) ∧
      match r with
      | .ok m => m = (rest s).length ∧ got t.2 = got w ++ rest s
      | _ => True := by
  induction fuel with
  | zero => intro s w _ _ hf; omega
  | succ fuel ih =>
    intro s w g gw hf
    obtain ⟨t, r, e, hr⟩ := h.read s size g
    simp only [copyThroughBuffer, e]
    cases r with
    | eof =>
      have hr' : rest s = [] := hr
      exact ⟨_, _, rfl, gw, ⟨[], rest s, rfl, by simp⟩, by rw [hr']; simp⟩
    | fault => exact ⟨_, _, rfl, gw, ⟨[], rest s, rfl, by simp⟩, trivial⟩
    | ok l =>
      obtain ⟨g', hl, hs, hne⟩ := hr
      have hpos := List.length_pos_iff.2 (hne hsize)
      simp only
      rw [if_neg (by omega)]
      obtain ⟨v, q, ew, gv, hq⟩ := hw.write w l gw
      rw [ew]
      cases q with
      | eof => exact ⟨_, _, rfl, gv, ⟨[], rest s, rfl, by rw [hq]; simp⟩, trivial⟩
      | fault => exact ⟨_, _, rfl, gv, ⟨[], rest s, rfl, by rw [hq]; simp⟩, trivial⟩
      | ok k =>
        obtain ⟨hk, hq⟩ := hq
        simp only
        by_cases hkl : k = l.length
        · rw [if_neg (by omega)]
          rw [hkl, List.take_length] at hq
          have hlen := congrArg List.length hs
          rw [List.length_append] at hlen
          obtain ⟨u, z, e2, gu, ⟨p, q, hpq, hgp⟩, hz⟩ := ih t v g' gv (by omega)
          rw [e2]
          cases z with
          | ok m =>
            refine ⟨_, _, rfl, gu, ⟨l ++ p, q, by rw [hs, hpq, List.append_assoc], by rw [hgp, hq, List.append_assoc]⟩, ?_, ?_⟩
            · rw [hz.1]; omega
            · rw [hz.2, hq, hs, List.append_assoc]
          | eof => exact ⟨_, _, rfl, gu, ⟨l ++ p, q, by rw [hs, hpq, List.append_assoc], by rw [hgp, hq, List.append_assoc]⟩, trivial⟩
          | fault => exact ⟨_, _, rfl, gu, ⟨l ++ p, q, by rw [hs, hpq, List.append_assoc], by rw [hgp, hq, List.append_assoc]⟩, trivial⟩
        · rw [if_pos hkl]
          refine ⟨_, _, rfl, gv, ⟨l.take k, l.drop k ++ rest t, ?_, hq⟩, trivial⟩
          rw [hs, ← List.append_assoc, List.take_append_drop]

/-! WriteBuffer -/

theorem take_put {buf l b : List α} {off : Nat} (h : put buf off l = some b) : b.take (off + l.length) = buf.take off ++ l := by
  unfold put at h
  split at h
  · rw [← Option.some.inj h]
    rw [← List.append_assoc, List.take_left' (by rw [List.length_append, List.length_take]; omega)]
  · simp at h

theorem writePending_spec {W : Out τ α} {good : τ → Prop} {got : τ → List α} (h : Writes W good got) (hc : Complete W good)
    {s : WriteBuffer τ α} (g : s.Good good) :
    ∃ t r, writePending W s = some (t, r) ∧ t.Good good ∧ t.got got = s.got got ∧ t.bytes = s.bytes ∧
      match r with
      | .ok () => t.index = 0 ∧ got t.inner = s.got got
      | _ => True := by
  have hcap := g.cap
  unfold writePending
  rw [sliceLen_eq (by omega)]
  simp only
  have hl : ((s.bytes.drop 0).take s.index).length = s.index := by rw [List.length_take, List.length_drop]; omega
  obtain ⟨v, q, ew, gv, hq⟩ := h.write s.inner ((s.bytes.drop 0).take s.index) g.inner
  rw [ew]
  cases q with
  | ok n =>
    have hn := hc _ _ _ _ g.inner ew
    rw [hl] at hn
    simp only
    rw [if_neg (by omega)]
    have hg : got v = s.got got := by
      rw [hq.2, hn]
      unfold WriteBuffer.got
      rw [List.take_take, Nat.min_self]; simp
    refine ⟨_, _, rfl, ⟨gv, g.size, Nat.zero_le _⟩, ?_, rfl, rfl, hg⟩
    show got v ++ s.bytes.take 0 = _
    rw [hg]; simp
  | eof =>
    refine ⟨_, _, rfl, ⟨gv, g.size, hcap⟩, ?_, rfl, trivial⟩
    show got v ++ s.bytes.take s.index = _
    rw [hq]; rfl
  | fault =>
    refine ⟨_, _, rfl, ⟨gv, g.size, hcap⟩, ?_, rfl, trivial⟩
    show got v ++ s.bytes.take s.index = _
    rw [hq]; rfl

theorem writeBuffer_writes {W : Out τ α} {good : τ → Prop} {got : τ → List α} (h : Writes W good got) (hc : Complete W good) :
    Writes (writeBuffer W) (WriteBuffer.Good good) (WriteBuffer.got got) := by
  constructor
  · intro s l g
    have hcap := g.cap
    simp only [writeBuffer]
    by_cases hf : l.length < s.bytes.length - s.index
    · rw [if_pos hf]
      have hp := put_eq (buf := s.bytes) (l := l) (off := s.index) (by omega)
      rw [hp]
      have hpl := put_length hp
      refine ⟨_, _, rfl, ⟨g.inner, ?_, ?_⟩, Nat.le_refl _, ?_⟩
      · intro e
        have hz : s.bytes.length = 0 := by rw [← hpl]; exact congrArg List.length e
        exact g.size (List.eq_nil_of_length_eq_zero hz)
      · show s.index + l.length ≤ List.length _
        rw [hpl]; omega
      · unfold WriteBuffer.got
        simp only
        rw [take_put hp, List.take_length, List.append_assoc]
    · rw [if_neg hf]
      obtain ⟨t, r, e, gt, hgot, hby, hr⟩ := writePending_spec h hc g
      rw [e]
      cases r with
      | eof => exact ⟨_, _, rfl, gt, hgot⟩
      | fault => exact ⟨_, _, rfl, gt, hgot⟩
      | ok u =>
        obtain ⟨h0, hgi⟩ := hr
        simp only
        by_cases hd : l.length ≥ t.bytes.length
        · rw [if_pos hd]
          obtain ⟨v, q, ew, gv, hq⟩ := h.write t.inner l gt.inner
          rw [ew]
          have hg2 : ∀ x, WriteBuffer.got got { t with inner := x } = got x := by
            intro x
            show got x ++ t.bytes.take t.index = got x
            rw [h0]; simp
          refine ⟨_, _, rfl, ⟨gv, gt.size, gt.cap⟩, ?_⟩
          cases q with
          | ok n => exact ⟨hq.1, by rw [hg2, hq.2, hgi]⟩
          | eof => show WriteBuffer.got got { t with inner := v } = _; rw [hg2, hq, hgi]
          | fault => show WriteBuffer.got got { t with inner := v } = _; rw [hg2, hq, hgi]
        · rw [if_neg hd]
          have hp := put_eq (buf := t.bytes) (l := l) (off := 0) (by omega)
          rw [hp]
          have hpl := put_length hp
          refine ⟨_, _, rfl, ⟨gt.inner, ?_, ?_⟩, Nat.le_refl _, ?_⟩
          · intro e
            have hz : t.bytes.length = 0 := by rw [← hpl]; exact congrArg List.length e
            exact gt.size (List.eq_nil_of_length_eq_zero hz)
          · show l.length ≤ List.length _
            rw [hpl]; omega
          · show got t.inner ++ List.take l.length (List.take 0 t.bytes ++ (l ++ List.drop (0 + l.length) t.bytes)) = _
            rw [hgi, List.take_length]; simp
  · intro s c g
    have add : ∀ s : WriteBuffer τ α, s.Good good → s.index < s.bytes.length → ∃ t r,
        (match put s.bytes s.index [c] with
          | none => none
          | some b => some ({ s with bytes := b, index := s.index + 1 }, Res.ok ())) = some (t, r) ∧ t.Good good ∧
        match r with
        | .ok () => t.got got = s.got got ++ [c]
        | .eof => t.got got = s.got got
        | .fault => t.got got = s.got got := by
      intro s g hlt
      have hp := put_eq (buf := s.bytes) (l := [c]) (off := s.index) (by show s.index + 1 ≤ _; omega)
      rw [hp]
      have hpl := put_length hp
      refine ⟨_, _, rfl, ⟨g.inner, ?_, ?_⟩, ?_⟩
      · intro e
        have hz : s.bytes.length = 0 := by rw [← hpl]; exact congrArg List.length e
        omega
      · show s.index + 1 ≤ List.length _
        rw [hpl]; omega
      · have := take_put hp
        show got s.inner ++ List.take (s.index + 1) _ = _
        rw [show s.index + 1 = s.index + [c].length from rfl, this]
        unfold WriteBuffer.got
        rw [List.append_assoc]
    have hcap := g.cap
    simp only [writeBuffer]
    by_cases hf : s.bytes.length - s.index = 0
    · rw [if_pos hf]
      obtain ⟨t, r, e, gt, hgot, hby, hr⟩ := writePending_spec h hc g
      rw [e]
      cases r with
      | eof => exact ⟨_, _, rfl, gt, hgot⟩
      | fault => exact ⟨_, _, rfl, gt, hgot⟩
      | ok u =>
        obtain ⟨h0, hgi⟩ := hr
        have hlen : t.bytes.length ≠ 0 := fun e => gt.size (List.eq_nil_of_length_eq_zero e)
        obtain ⟨v, q, ev, gv, hq⟩ := add t gt (by omega)
        exact ⟨v, q, ev, gv, by rw [← hgot]; exact hq⟩
    · rw [if_neg hf]
      exact add s g (by omega)

/-! MultiWriter -/

theorem multiWriteLoop_spec {W : Out τ α} {good : τ → Prop} {got : τ → List α} (h : Writes W good got) (l : List α) : ∀ s : List τ,
    (∀ w ∈ s, good w) → ∃ t r, multiWriteLoop W l s = some (t, r) ∧ (∀ w ∈ t, good w) ∧ t.length = s.length ∧
      match r with
      | .ok () => t.map got = s.map (fun w => got w ++ l)
      | _ => True := by
  intro s
  induction s with
  | nil => intro _; exact ⟨_, _, rfl, by simp, rfl, rfl⟩
  | cons w ws ih =>
    intro hg
    obtain ⟨v, q, ew, gv, hq⟩ := h.write w l (hg w (by simp))
    have hrest : ∀ x ∈ ws, good x := fun x hx => hg x (by simp [hx])
    have hcons : ∀ x ∈ v :: ws, good x := by
      intro x hx
      rcases List.mem_cons.1 hx with rfl | hx
      · exact gv
      · exact hrest x hx
    simp only [multiWriteLoop, ew]
    cases q with
    | eof => exact ⟨_, _, rfl, hcons, rfl, trivial⟩
    | fault => exact ⟨_, _, rfl, hcons, rfl, trivial⟩
    | ok n =>
      simp only
      by_cases hn : n = l.length
      · rw [if_neg (by omega)]
        obtain ⟨t, r, e, gt, hl, hr⟩ := ih hrest
        rw [e]
        refine ⟨_, _, rfl, ?_, by simp [hl], ?_⟩
        · intro x hx
          rcases List.mem_cons.1 hx with rfl | hx
          · exact gv
          · exact gt x hx
        · cases r with
          | ok u =>
            show got v :: t.map got = _
            have hr' : t.map got = ws.map (fun w => got w ++ l) := hr
            rw [hr', hq.2, hn, List.take_length]; rfl
          | eof => trivial
          | fault => trivial
      · rw [if_pos hn]; exact ⟨_, _, rfl, hcons, rfl, trivial⟩

/-! ByteWriter and ByteBuffer -/

theorem nextPow2From_ge (x fuel : Nat) : ∀ y, x ≤ y * 2 ^ fuel → x ≤ nextPow2From x fuel y := by
  induction fuel with
  | zero => intro y h; simpa [nextPow2From] using h
  | succ fuel ih =>
    intro y h
    unfold nextPow2From
    split
    · apply ih
      rw [Nat.pow_succ] at h
      calc x ≤ y * (2 ^ fuel * 2) := h
        _ = (y + y) * 2 ^ fuel := by rw [← Nat.two_mul, Nat.mul_comm (2 ^ fuel) 2, ← Nat.mul_assoc, Nat.mul_comm y 2]
    · omega

theorem nextPow2_ge (x : Nat) : x ≤ nextPow2 x :=
  nextPow2From_ge x x 1 (by rw [Nat.one_mul]; exact Nat.le_of_lt Nat.lt_two_pow_self)

theorem realloc_length (fill : α) (b : List α) (n : Nat) : (realloc fill b n).length = n := by
  unfold realloc; rw [List.length_append, List.length_take, List.length_replicate]; omega

theorem realloc_take (fill : α) {b : List α} {n k : Nat} (h1 : k ≤ n) (h2 : k ≤ b.length) : (realloc fill b n).take k = b.take k := by
  unfold realloc
  rw [List.take_append_of_le_length (by rw [List.length_take]; omega), List.take_take, Nat.min_eq_left h1]

theorem ensure_spec (fill : α) {s : ByteWriter α} (hcap : s.index ≤ s.bytes.length) {len : Nat} (hlen : s.index ≤ len) (ha : s.alloc = true) :
    ∃ t, ensureCapacity fill s len = some t ∧ t.index = s.index ∧ len ≤ t.bytes.length ∧ t.bytes.take s.index = s.bytes.take s.index ∧
      t.alloc = true := by
  unfold ensureCapacity
  by_cases h : s.bytes.length > len
  · rw [if_pos h]; exact ⟨_, rfl, rfl, by omega, rfl, ha⟩
  · rw [if_neg h, if_neg (by rw [ha]; simp)]
    have : len ≤ nextPow2 (if len < 16 then 16 else len) := by
      refine Nat.le_trans ?_ (nextPow2_ge _)
      split <;> omega
    refine ⟨_, rfl, rfl, ?_, ?_, ha⟩
    · show len ≤ (realloc fill s.bytes _).length
      rw [realloc_length]; exact this
    · exact realloc_take fill (by omega) hcap

end C3.Stream
