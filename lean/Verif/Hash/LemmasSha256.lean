import Verif.Hash.Stream
import Verif.Hash.ModelSha256

set_option autoImplicit false

namespace C3.Hash.Sha256

variable {σ : Type}

theorem put_ok (b : List Byte) (i : Nat) (c : Byte) (h : i < 64) : put b i c = some (b.set i c) := by
  rw [put, if_pos h]

theorem feed_eq (f : σ → List Byte → σ) (data : List Byte) : ∀ (s : σ) (b : List Byte) (pos : Nat),
    b.length = 64 → pos < 64 →
    ∃ b', feed f s b pos data = some (run f s (b.take pos ++ data), b') ∧ b'.length = 64 ∧
      b'.take ((pos + data.length) % 64) = rest (b.take pos ++ data) := by
  induction data with
  | nil =>
    intro s b pos hb hp
    have hl : (b.take pos ++ []).length < 64 := by simp; omega
    refine ⟨b, ?_, hb, ?_⟩
    · rw [feed, run_short f s _ hl]
    · rw [rest_short _ hl, List.length_nil, Nat.add_zero, Nat.mod_eq_of_lt hp, List.append_nil]
  | cons c data ih =>
    intro s b pos hb hp
    have hts : (b.set pos c).take (pos + 1) = b.take pos ++ [c] := take_set b pos c (by omega)
    have happ : b.take pos ++ c :: data = (b.take pos ++ [c]) ++ data := by simp
    rw [feed, put_ok b pos c hp]
    simp only [Option.bind_eq_bind, Option.bind_some]
    by_cases h1 : pos + 1 = 64
    · have hblock : b.set pos c = b.take pos ++ [c] := by
        rw [← hts, List.take_of_length_le (by simp; omega)]
      have hlen : (b.take pos ++ [c]).length = 64 := by simp; omega
      rw [if_pos (by simpa using h1)]
      obtain ⟨b', e1, e2, e3⟩ := ih (f s (b.set pos c)) (List.replicate 64 0) 0 (by simp) (by omega)
      refine ⟨b', ?_, e2, ?_⟩
      · rw [e1, happ, run_cons f s _ _ hlen, hblock]; rfl
      · rw [happ, rest_cons _ _ hlen, List.length_cons,
          show (pos + (data.length + 1)) % 64 = (0 + data.length) % 64 by omega, e3]
        rfl
    · rw [if_neg (by simpa using h1)]
      obtain ⟨b', e1, e2, e3⟩ := ih s (b.set pos c) (pos + 1) (by simpa using hb) (by omega)
      rw [hts] at e1 e3
      refine ⟨b', ?_, e2, ?_⟩
      · rw [e1, happ]
      · rw [happ, ← e3, List.length_cons, show pos + (data.length + 1) = pos + 1 + data.length by omega]

/-- The context after the message `m`, the count of bits being `bits`. -/
structure Rep (f : σ → List Byte → σ) (iv : σ) (c : Ctx σ) (m : List Byte) : Prop where
  state : c.state = run f iv m
  length : c.buffer.length = 64
  buffer : c.buffer.take (m.length % 64) = rest m
  pos : c.bitcount % 512 = 8 * (m.length % 64)

theorem rep_init (f : σ → List Byte → σ) (iv : σ) : Rep f iv (init iv) [] :=
  ⟨(run_short f iv [] (by simp)).symm, by simp [init], by simp [rest_short], by simp [init]⟩

theorem update_eq {f : σ → List Byte → σ} {iv : σ} {c : Ctx σ} {m : List Byte} (h : Rep f iv c m)
    (data : List Byte) (hd : data.length ≤ 0xFFFFFFFF) :
    ∃ c', update f c data = some c' ∧ Rep f iv c' (m ++ data) ∧
      c'.bitcount = (c.bitcount + data.length * 8 % 2 ^ 32) % 2 ^ 64 := by
  have hpos := h.pos
  have hp : (c.bitcount / 8) % 2 ^ 32 % 64 = m.length % 64 := by omega
  obtain ⟨b', e1, e2, e3⟩ := feed_eq f data c.state c.buffer (m.length % 64) h.length
    (Nat.mod_lt _ (by omega))
  rw [update, if_neg (by omega)]
  simp only [hp, e1, Option.bind_eq_bind, Option.bind_some]
  refine ⟨_, rfl, ⟨?_, e2, ?_, ?_⟩, rfl⟩
  · dsimp only
    rw [h.buffer, h.state, ← run_run]
  · dsimp only
    rw [h.buffer, ← rest_rest] at e3
    rw [← e3, List.length_append, Nat.mod_add_mod]
  · dsimp only
    rw [List.length_append]; omega

/-- What is counted of pieces of data. -/
def counted (ds : List (List Byte)) (n : Nat) : Nat :=
  ds.foldl (fun n d => (n + d.length * 8 % 2 ^ 32) % 2 ^ 64) n

theorem updates_eq (f : σ → List Byte → σ) (iv : σ) (ds : List (List Byte)) :
    ∀ (c : Ctx σ) (m : List Byte), Rep f iv c m → (∀ d ∈ ds, d.length ≤ 0xFFFFFFFF) →
    ∃ c', updates f c ds = some c' ∧ Rep f iv c' (m ++ ds.flatten) ∧
      c'.bitcount = counted ds c.bitcount := by
  induction ds with
  | nil => intro c m h _; exact ⟨c, rfl, by simpa using h, rfl⟩
  | cons d ds ih =>
    intro c m h hd
    obtain ⟨c1, e1, e2, e3⟩ := update_eq h d (hd d (by simp))
    obtain ⟨c2, f1, f2, f3⟩ := ih c1 (m ++ d) e2 (fun x hx => hd x (by simp [hx]))
    refine ⟨c2, ?_, by simpa using f2, ?_⟩
    · rw [updates, e1]; exact f1
    · rw [f3, e3]; rfl

theorem zeros_eq (n : Nat) (hn : n ≤ 64) (k : Nat) : ∀ (b : List Byte) (i : Nat), i + k = n →
    b.length = 64 → ∃ b', zeros b i n = some b' ∧ b'.length = 64 ∧
      b'.take n = b.take i ++ List.replicate k 0 := by
  induction k with
  | zero =>
    intro b i hi hb
    rw [zeros, if_neg (by omega)]
    exact ⟨b, rfl, hb, by simp [show i = n by omega]⟩
  | succ k ih =>
    intro b i hi hb
    rw [zeros, if_pos (by omega), put_ok b i 0 (by omega)]
    simp only [Option.bind_eq_bind, Option.bind_some]
    obtain ⟨b', e1, e2, e3⟩ := ih (b.set i 0) (i + 1) (by omega) (by simpa using hb)
    refine ⟨b', e1, e2, ?_⟩
    rw [e3, take_set b i 0 (by omega), List.replicate_succ]; simp

theorem be8_get (n j : Nat) (h : j < 8) :
    (be 8 n)[j]'(by simpa [be] using h) = BitVec.ofNat 8 (n / 2 ^ (56 - j * 8)) := by
  simp only [be, List.getElem_map, List.getElem_range]
  rw [show (256 : Nat) = 2 ^ 8 from rfl, ← Nat.pow_mul, show 8 * (8 - 1 - j) = 56 - j * 8 by omega]

theorem be_length (k n : Nat) : (be k n).length = k := by simp [be]

theorem putCount_eq (n : Nat) (k : Nat) : ∀ (b : List Byte) (j : Nat), j + k = 8 → b.length = 64 →
    ∃ b', putCount n b j = some b' ∧ b' = b.take (56 + j) ++ (be 8 n).drop j := by
  induction k with
  | zero =>
    intro b j hj hb
    have : j = 8 := by omega
    subst this
    rw [putCount, if_neg (by omega)]
    refine ⟨b, rfl, ?_⟩
    rw [List.take_of_length_le (by omega), List.drop_of_length_le (by rw [be_length]; omega)]; simp
  | succ k ih =>
    intro b j hj hb
    rw [putCount, if_pos (by omega), put_ok b _ _ (by omega)]
    simp only [Option.bind_eq_bind, Option.bind_some]
    obtain ⟨b', e1, e2⟩ := ih (b.set (64 - 8 + j) (BitVec.ofNat 8 (n / 2 ^ (56 - j * 8)))) (j + 1)
      (by omega) (by simpa using hb)
    refine ⟨b', e1, ?_⟩
    rw [e2, show 56 + (j + 1) = (64 - 8 + j) + 1 by omega, take_set b _ _ (by omega),
      List.drop_eq_getElem_cons (i := j) (by rw [be_length]; omega), be8_get n j (by omega)]
    simp

theorem final_eq {f : σ → List Byte → σ} {iv : σ} {c : Ctx σ} {m : List Byte} (h : Rep f iv c m) :
    final f c = some (run f iv (m ++ padding m.length (be 8 c.bitcount))) := by
  have hpos := h.pos
  have hi : c.bitcount / 8 % 64 = m.length % 64 := by omega
  have hlt := Nat.mod_lt m.length (show 0 < 64 by omega)
  have hrl := rest_length m
  rw [final]
  simp only [hi, put_ok c.buffer _ _ hlt, Option.bind_eq_bind, Option.bind_some]
  have ht := take_set c.buffer (m.length % 64) 0x80 (by rw [h.length]; exact hlt)
  rw [h.buffer] at ht
  have hbl : (c.buffer.set (m.length % 64) 0x80).length = 64 := by simpa using h.length
  generalize hb1 : c.buffer.set (m.length % 64) 0x80 = b1 at ht hbl
  generalize hr : m.length % 64 = r at *
  rw [run_run, padding, hr, ← h.state]
  by_cases hspill : r + 1 > 56
  · rw [spill, if_pos (by omega)]
    obtain ⟨b2, e1, e2, e3⟩ := zeros_eq 64 (Nat.le_refl _) (63 - r) b1 (r + 1) (by omega) hbl
    simp only [e1, Option.bind_eq_bind, Option.bind_some]
    obtain ⟨b3, g1, g2, g3⟩ := zeros_eq (64 - 8) (by omega) 56 (List.replicate 64 0) 0 rfl (by simp)
    simp only [g1, Option.bind_some]
    obtain ⟨b4, k1, k2⟩ := putCount_eq c.bitcount 8 b3 0 rfl g2
    simp only [k1, Option.bind_some]
    have hb2 : b2 = rest m ++ [0x80] ++ List.replicate (63 - r) 0 := by
      rw [← List.take_of_length_le (Nat.le_of_eq e2), e3, ht]
    have hb4 : b4 = List.replicate 56 0 ++ be 8 c.bitcount := by
      rw [k2]
      simp only [List.drop_zero, Nat.add_zero]
      rw [g3]; simp
    have hsplit : rest m ++ 0x80 :: (List.replicate ((119 - r) % 64) 0 ++ be 8 c.bitcount) =
        b2 ++ (b4 ++ []) := by
      rw [show (119 - r) % 64 = (63 - r) + 56 by omega, ← List.replicate_append_replicate, hb2, hb4]
      simp
    rw [hsplit, run_cons f _ b2 _ e2, run_cons f _ b4 _ (by rw [hb4]; simp [be_length]),
      run_short f _ [] (by simp)]
  · rw [spill, if_neg (by omega)]
    simp only [Option.bind_some]
    obtain ⟨b3, g1, g2, g3⟩ := zeros_eq (64 - 8) (by omega) (55 - r) b1 (r + 1) (by omega) hbl
    simp only [g1, Option.bind_some]
    obtain ⟨b4, k1, k2⟩ := putCount_eq c.bitcount 8 b3 0 rfl g2
    simp only [k1, Option.bind_some]
    have hb4 : b4 = rest m ++ [0x80] ++ List.replicate (55 - r) 0 ++ be 8 c.bitcount := by
      rw [k2]
      simp only [List.drop_zero, Nat.add_zero]
      rw [g3, ht]
    have hsplit : rest m ++ 0x80 :: (List.replicate ((119 - r) % 64) 0 ++ be 8 c.bitcount) =
        b4 ++ [] := by
      rw [show (119 - r) % 64 = 55 - r by omega, hb4]
      simp
    rw [hsplit, run_cons f _ b4 _ (by rw [hb4]; simp [be_length, hrl]; omega),
      run_short f _ [] (by simp)]

theorem hashPieces_eq (f : σ → List Byte → σ) (iv : σ) (ds : List (List Byte))
    (hd : ∀ d ∈ ds, d.length ≤ 0xFFFFFFFF) :
    hashPieces f iv ds =
      some (run f iv (ds.flatten ++ padding ds.flatten.length (be 8 (counted ds 0)))) := by
  obtain ⟨c, h1, h2, h3⟩ := updates_eq f iv ds (init iv) [] (rep_init f iv) hd
  rw [hashPieces, h1]
  simp only [Option.bind_eq_bind, Option.bind_some]
  rw [List.nil_append] at h2
  rw [final_eq h2, h3]
  rfl

theorem counted_eq (ds : List (List Byte)) : ∀ n, (∀ d ∈ ds, d.length < 2 ^ 29) →
    n + 8 * ds.flatten.length < 2 ^ 64 → counted ds n = n + 8 * ds.flatten.length := by
  induction ds with
  | nil => intro n _ _; simp [counted]
  | cons d ds ih =>
    intro n h1 h2
    have hd := h1 d (by simp)
    simp only [List.flatten_cons, List.length_append] at h2 ⊢
    have e : (n + d.length * 8 % 2 ^ 32) % 2 ^ 64 = n + 8 * d.length := by omega
    have : counted (d :: ds) n = counted ds (n + 8 * d.length) := by
      simp only [counted, List.foldl_cons, e]
    rw [this, ih _ (fun x hx => h1 x (by simp [hx])) (by omega)]
    omega

end C3.Hash.Sha256
