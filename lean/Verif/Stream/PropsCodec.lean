import Verif.Stream.Codec
import Verif.Stream.LemmasBuf

set_option autoImplicit false

/-! Properties C169-C170: the encodings of numbers and byte arrays. -/

namespace C3.Stream

variable {σ τ : Type}

theorem writeBytes_spec {W : Out τ Nat} {good : τ → Prop} {got : τ → List Nat} (h : Writes W good got) (l : List Nat) : ∀ s, good s →
    ∃ t r, writeBytes W s l = some (t, r) ∧ good t ∧ (r = .ok () → got t = got s ++ l) := by
  induction l with
  | nil => intro s g; exact ⟨_, _, rfl, g, fun _ => by simp⟩
  | cons c l ih =>
    intro s g
    obtain ⟨t, r, e, g', hr⟩ := h.byte s c g
    unfold writeBytes
    rw [e]
    cases r with
    | ok u =>
      obtain ⟨t', r', e', g'', hr'⟩ := ih t g'
      refine ⟨t', r', e', g'', fun hk => ?_⟩
      rw [hr' hk, hr]
      simp
    | eof => exact ⟨_, _, rfl, g', fun hk => by cases hk⟩
    | fault => exact ⟨_, _, rfl, g', fun hk => by cases hk⟩

/-- The bytes of `x`, the highest of `n` first. -/
def bigEndian (n x : Nat) : List Nat := (List.range n).reverse.map fun i => x / 256 ^ i % 256

theorem shift_bytes (n x : Nat) : (beShifts n).map (fun k => (x >>> k) % 256) = bigEndian n x := by
  unfold bigEndian
  induction n with
  | zero => rfl
  | succ n ih =>
    rw [List.range_succ, List.reverse_append]
    simp only [beShifts, List.map_cons, List.reverse_singleton, List.singleton_append, ih]
    rw [Nat.shiftRight_eq_div_pow, Nat.pow_mul]

theorem bigEndian_succ (n x : Nat) : bigEndian (n + 1) x = x / 256 ^ n % 256 :: bigEndian n x := by
  unfold bigEndian
  rw [List.range_succ, List.reverse_append]
  simp

theorem readBELoop_spec {R : In σ Nat} {good : σ → Prop} {rest : σ → List Nat} (h : Reads R good rest) (w x : Nat) (q : List Nat) (n : Nat) :
    ∀ s v, good s → v < 2 ^ w → rest s = bigEndian n x ++ q →
    ∃ t r, readBELoop R w (beShifts n) s v = some (t, r) ∧
      (r = .fault ∨ r = .ok ((v + x % 256 ^ n) % 2 ^ w) ∧ good t ∧ rest t = q) := by
  induction n with
  | zero =>
    intro s v g hv hr
    refine ⟨_, _, rfl, .inr ⟨?_, g, hr⟩⟩
    rw [Nat.pow_zero, Nat.mod_one, Nat.add_zero, Nat.mod_eq_of_lt hv]
  | succ n ih =>
    intro s v g hv hr
    obtain ⟨t, r, e, hr'⟩ := h.byte s g
    rw [bigEndian_succ, List.cons_append] at hr
    simp only [beShifts, readBELoop]
    rw [e]
    cases r with
    | ok c =>
      obtain ⟨g', hc⟩ := hr'
      rw [hr] at hc
      obtain ⟨hc, hq⟩ := List.cons.inj hc
      obtain ⟨t', r', e', hk⟩ := ih t ((v + (c <<< (8 * n))) % 2 ^ w) g' (Nat.mod_lt _ (Nat.two_pow_pos w)) hq.symm
      refine ⟨t', r', e', ?_⟩
      rcases hk with hk | ⟨hk, hg, ht⟩
      · exact .inl hk
      · refine .inr ⟨?_, hg, ht⟩
        rw [hk, ← hc, Nat.shiftLeft_eq, Nat.pow_mul, Nat.mod_add_mod, Nat.mod_pow_succ, Nat.mul_comm (x / 256 ^ n % 256),
          Nat.add_assoc, Nat.add_comm (256 ^ n * _) (x % 256 ^ n)]
    | eof => rw [hr] at hr'; simp at hr'
    | fault => exact ⟨_, _, rfl, .inl rfl⟩

/-- `write_be_*` of an integer of `n` bytes writes its bytes, the highest first, if it succeeds. -/
theorem C170_write {W : Out τ Nat} {good : τ → Prop} {got : τ → List Nat} (h : Writes W good got) (n x : Nat) {s : τ} (g : good s) :
    ∃ t r, writeBE W n s x = some (t, r) ∧ good t ∧ (r = .ok () → got t = got s ++ bigEndian n x) := by
  obtain ⟨t, r, e, g', hr⟩ := writeBytes_spec h (bigEndian n x) s g
  refine ⟨t, r, ?_, g', hr⟩
  unfold writeBE
  rw [shift_bytes]
  exact e

example : ∃ t, writeBE (sink (α := Nat)) 4 ⟨[9], []⟩ 0x01020384 = some (t, .ok ()) ∧ t.data = [9, 1, 2, 3, 0x84] := ⟨_, rfl, rfl⟩

/-- `read_be_uint`, `_ulong` and `_uint128` read them back, and no more. -/
theorem C170_read {R : In σ Nat} {good : σ → Prop} {rest : σ → List Nat} (h : Reads R good rest) {n x : Nat} (hx : x < 2 ^ (8 * n)) {s : σ}
    (g : good s) {q : List Nat} (hr : rest s = bigEndian n x ++ q) :
    ∃ t r, readBE R n s = some (t, r) ∧ (r = .fault ∨ r = .ok x ∧ good t ∧ rest t = q) := by
  obtain ⟨t, r, e, hk⟩ := readBELoop_spec h (8 * n) x q n s 0 g (Nat.two_pow_pos _) hr
  refine ⟨t, r, e, ?_⟩
  have h256 : (256 : Nat) ^ n = 2 ^ (8 * n) := by rw [Nat.pow_mul]
  rw [Nat.zero_add, h256, Nat.mod_eq_of_lt hx, Nat.mod_eq_of_lt hx] at hk
  exact hk

example : readBE byteReader 4 (⟨[1, 2, 3, 0x84, 7], 0⟩ : ByteReader Nat) = some (⟨[1, 2, 3, 0x84, 7], 4⟩, .ok 0x01020384) := by
  decide +kernel

/-- So does `read_be_ushort`. -/
theorem C170_read_short {R : In σ Nat} {good : σ → Prop} {rest : σ → List Nat} (h : Reads R good rest) {x : Nat} (hx : x < 2 ^ 16) {s : σ}
    (g : good s) {q : List Nat} (hr : rest s = bigEndian 2 x ++ q) :
    ∃ t r, readBEShort R s = some (t, r) ∧ (r = .fault ∨ r = .ok x ∧ good t ∧ rest t = q) := by
  obtain ⟨t, r, e, h1⟩ := h.byte s g
  rw [show bigEndian 2 x = [x / 256 ^ 1 % 256, x / 256 ^ 0 % 256] from rfl] at hr
  unfold readBEShort
  rw [e]
  cases r with
  | ok hi =>
    rw [hr] at h1
    obtain ⟨hhi, h2⟩ := List.cons.inj h1.2
    obtain ⟨u, r, e, h3⟩ := h.byte t h1.1
    simp only
    rw [e]
    cases r with
    | ok lo =>
      rw [← h2] at h3
      obtain ⟨hlo, h4⟩ := List.cons.inj h3.2
      refine ⟨_, _, rfl, .inr ⟨?_, h3.1, h4.symm⟩⟩
      have hl : lo < 2 ^ 8 := by omega
      rw [← Nat.shiftLeft_add_eq_or_of_lt hl, Nat.shiftLeft_eq]
      congr 1
      omega
    | eof => rw [← h2] at h3; simp at h3
    | fault => exact ⟨_, _, rfl, .inl rfl⟩
  | eof => rw [hr] at h1; simp at h1
  | fault => exact ⟨_, _, rfl, .inl rfl⟩

example : readBEShort byteReader (⟨[0xAB, 0xCD], 0⟩ : ByteReader Nat) = some (⟨[0xAB, 0xCD], 2⟩, .ok 0xABCD) := by decide +kernel

/-- `write_tiny_bytearray` and `write_short_bytearray` write the length in one and two bytes, and the array. -/
theorem C170_array_write {W : Out τ Nat} {good : τ → Prop} {got : τ → List Nat} (h : Writes W good got) (hc : Complete W good)
    {n limit : Nat} {data : List Nat} (hd : data.length < limit) {s : τ} (g : good s) :
    ∃ t r, writeArray W n limit s data = some (t, r) ∧ good t ∧
      ∀ m, r = .ok m → m = data.length + n ∧ got t = got s ++ (bigEndian n data.length ++ data) := by
  obtain ⟨t, r, e, g', hr⟩ := C170_write h n data.length g
  unfold writeArray
  rw [if_pos hd, e]
  cases r with
  | ok u =>
    obtain ⟨v, r', e', g'', hr'⟩ := h.write t data g'
    simp only
    rw [e']
    cases r' with
    | ok k =>
      have hk := hc _ _ _ _ g' e'
      refine ⟨_, _, rfl, g'', fun m hm => ?_⟩
      cases hm
      refine ⟨by rw [hk], ?_⟩
      rw [hr'.2, hr rfl, hk, List.take_length, List.append_assoc]
    | eof => exact ⟨_, _, rfl, g'', fun m hm => by cases hm⟩
    | fault => exact ⟨_, _, rfl, g'', fun m hm => by cases hm⟩
  | eof => exact ⟨_, _, rfl, g', fun m hm => by cases hm⟩
  | fault => exact ⟨_, _, rfl, g', fun m hm => by cases hm⟩

example : ∃ t, writeArray (sink (α := Nat)) 2 0x1000 ⟨[], []⟩ [7, 8, 9] = some (t, .ok 5) ∧ t.data = [0, 3, 7, 8, 9] := ⟨_, rfl, rfl⟩

theorem readArray_spec {R : In σ Nat} {good : σ → Prop} {rest : σ → List Nat} (h : Reads R good rest) (hw : Whole R good rest)
    {data q : List Nat} {t : σ} {r : Res Nat} (hr : r = .fault ∨ r = .ok data.length ∧ good t ∧ rest t = data ++ q) :
    ∃ u r', readArrayData R (some (t, r)) = some (u, r') ∧ (r' = .fault ∨ r' = .ok data ∧ good u ∧ rest u = q) := by
  rcases hr with rfl | ⟨rfl, g, hq⟩
  · exact ⟨_, _, rfl, .inl rfl⟩
  · simp only [readArrayData]
    by_cases h0 : data.length = 0
    · rw [if_pos h0]
      rw [List.length_eq_zero_iff.1 h0] at hq ⊢
      exact ⟨_, _, rfl, .inr ⟨rfl, g, hq⟩⟩
    · rw [if_neg h0]
      unfold readAll
      rw [if_neg h0]
      obtain ⟨u, r, e, hu⟩ := h.read t data.length g
      cases r with
      | ok l =>
        have hl := hw _ _ _ _ g e
        rw [hq, List.length_append] at hl
        have hl : l.length = data.length := by omega
        rw [e]
        simp only
        rw [if_neg (by simpa using hl)]
        refine ⟨_, _, rfl, .inr ?_⟩
        have := hu.2.2.1
        rw [hq] at this
        obtain ⟨h1, h2⟩ := List.append_inj this hl.symm
        exact ⟨by rw [h1], hu.1, h2.symm⟩
      | eof =>
        rw [hq] at hu
        have := congrArg List.length hu
        rw [List.length_append, List.length_nil] at this
        omega
      | fault => rw [e]; exact ⟨_, _, rfl, .inl rfl⟩

/-- `read_tiny_bytearray` and `read_short_bytearray` should read arrays back from every stream. -/
def C170_array_full : Prop :=
  ∀ (σ : Type) (R : In σ Nat) (good : σ → Prop) (rest : σ → List Nat), Honest R good rest → ∀ s q (data : List Nat), good s →
    data.length < 256 → rest s = bigEndian 1 data.length ++ (data ++ q) → (∀ t n, R.read s n ≠ some (t, .fault)) →
    ∃ t, readTiny R s = some (t, .ok data) ∧ rest t = q

/-- They fail if the stream delivers the array in pieces. -/
theorem C170_array_fails : ¬ C170_array_full := by
  intro h
  obtain ⟨t, e, _⟩ := h (Source Nat) source _ _ source_honest ⟨[2, 7, 8], [.most 1, .most 1]⟩ [] [7, 8] trivial (by decide) rfl
    (by intro t n; simp [source, next])
  have : readTiny source (⟨[2, 7, 8], [.most 1, .most 1]⟩ : Source Nat) = some (⟨[8], []⟩, .fault) := rfl
  rw [this] at e
  simp at e

/-- They do from a stream that delivers as much as it can. Missing: other streams. -/
theorem C170_array_partial {R : In σ Nat} {good : σ → Prop} {rest : σ → List Nat} (h : Reads R good rest) (hw : Whole R good rest)
    {data q : List Nat} {s : σ} (g : good s) :
    (data.length < 256 → rest s = bigEndian 1 data.length ++ (data ++ q) →
      ∃ t r, readTiny R s = some (t, r) ∧ (r = .fault ∨ r = .ok data ∧ good t ∧ rest t = q)) ∧
    (data.length < 2 ^ 16 → rest s = bigEndian 2 data.length ++ (data ++ q) →
      ∃ t r, readShort R s = some (t, r) ∧ (r = .fault ∨ r = .ok data ∧ good t ∧ rest t = q)) := by
  constructor
  · intro hd hr
    unfold readTiny
    obtain ⟨t, r, e, hk⟩ := h.byte s g
    rw [e]
    rw [show bigEndian 1 data.length = [data.length / 256 ^ 0 % 256] from rfl, Nat.pow_zero, Nat.div_one, Nat.mod_eq_of_lt hd] at hr
    refine readArray_spec h hw (q := q) ?_
    cases r with
    | ok c =>
      rw [hr] at hk
      obtain ⟨h1, h2⟩ := List.cons.inj hk.2
      exact .inr ⟨by rw [h1], hk.1, h2.symm⟩
    | eof => rw [hr] at hk; simp at hk
    | fault => exact .inl rfl
  · intro hd hr
    unfold readShort
    obtain ⟨t, r, e, hk⟩ := C170_read_short h hd g hr
    rw [e]
    exact readArray_spec h hw hk

example : readShort byteReader (⟨[0, 3, 7, 8, 9, 1], 0⟩ : ByteReader Nat) = some (⟨[0, 3, 7, 8, 9, 1], 5⟩, .ok [7, 8, 9]) := by
  decide +kernel

end C3.Stream
