import Verif.Hash.Stream
import Verif.Hash.ModelMd5

set_option autoImplicit false

namespace C3.Hash.Md5

variable {σ : Type}

theorem copyTo_ok (b : List Byte) (j : Nat) (d : List Byte) (h : j + d.length ≤ 64) :
    copyTo b j d = some (b.take j ++ d ++ b.drop (j + d.length)) := by rw [copyTo, if_pos h]

theorem body_eq (f : σ → List Byte → σ) (n : Nat) : ∀ (s : σ) (data : List Byte),
    64 * (n + 1) ≤ data.length → 64 * (n + 1) < 2 ^ 64 →
    body f s data (64 * (n + 1)) =
      some (run f s (data.take (64 * (n + 1))), data.drop (64 * (n + 1))) := by
  induction n with
  | zero =>
    intro s data h hs
    rw [body, dif_pos (by omega)]
    simp only [Nat.zero_add, Nat.mul_one]
    rw [if_neg (by omega)]
    have := run_cons f s (data.take 64) [] (by simp; omega)
    rw [List.append_nil] at this
    rw [this, run_short f _ [] (by simp)]
  | succ n ih =>
    intro s data h hs
    rw [body, dif_pos (by omega)]
    simp only []
    rw [show (64 * (n + 1 + 1) + 2 ^ 64 - 64) % 2 ^ 64 = 64 * (n + 1) by omega, if_pos (by omega),
      ih _ _ (by simp; omega) (by omega), List.drop_drop]
    have hb : (data.take 64).length = 64 := by simp; omega
    have hsplit : data.take (64 * (n + 1 + 1)) = data.take 64 ++ (data.drop 64).take (64 * (n + 1)) := by
      rw [show 64 * (n + 1 + 1) = 64 + 64 * (n + 1) by omega, List.take_add]
    rw [hsplit, run_cons f s _ _ hb, show 64 * (n + 1 + 1) = 64 + 64 * (n + 1) by omega]

theorem body_one (f : σ → List Byte → σ) (s : σ) (b : List Byte) (h : b.length = 64) :
    body f s b 64 = some (f s b, []) := by
  have := body_eq f 0 s b (by omega) (by omega)
  rw [show 64 * (0 + 1) = 64 from rfl] at this
  rw [this, List.take_of_length_le (by omega), List.drop_of_length_le (by omega)]
  have := run_cons f s b [] h
  rw [List.append_nil] at this
  rw [this, run_short f _ [] (by simp)]

theorem tail_eq (f : σ → List Byte → σ) (s : σ) (b data : List Byte) (hb : b.length = 64)
    (hd : data.length < 2 ^ 64) : ∃ b', tail f s b data = some (run f s data, b') ∧ b'.length = 64 ∧
      b'.take (data.length % 64) = rest data := by
  have hr := rest_length data
  rw [tail]
  by_cases hl : data.length ≥ 64
  · rw [if_pos hl]
    have hn : data.length - data.length % 64 = 64 * ((data.length / 64 - 1) + 1) := by omega
    have hn' : data.length - data.length % 64 = 64 * (data.length / 64) := by omega
    rw [hn, body_eq f _ s data (by omega) (by omega), ← hn, hn']
    simp only [Option.bind_eq_bind, Option.bind_some]
    have hrest : (data.drop (64 * (data.length / 64))).take (data.length % 64) = rest data := by
      rw [rest, List.take_of_length_le (by rw [List.length_drop]; omega)]
    rw [hrest, copyTo_ok _ _ _ (by omega)]
    simp only [Option.bind_some]
    refine ⟨rest data ++ b.drop (0 + (rest data).length), ?_, ?_, List.take_left' (by simp [hr])⟩
    · have h1 := run_run f s (data.take (64 * (data.length / 64))) (data.drop (64 * (data.length / 64)))
      rw [List.take_append_drop] at h1
      have h2 : rest (data.take (64 * (data.length / 64))) = [] := by
        apply List.length_eq_zero_iff.1
        rw [rest_length, List.length_take]; omega
      rw [h1, h2, List.nil_append, run_short f _ (data.drop _) (by rw [List.length_drop]; omega)]; rfl
    · simp only [List.length_append, List.length_drop, hb]; omega
  · rw [if_neg hl, copyTo_ok _ _ _ (by omega)]
    simp only [Option.bind_eq_bind, Option.bind_some]
    refine ⟨data ++ b.drop (0 + data.length), ?_, ?_, ?_⟩
    · rw [run_short f s data (by omega)]; rfl
    · simp only [List.length_append, List.length_drop, hb]; omega
    · rw [rest_short data (by omega), Nat.mod_eq_of_lt (by omega)]
      exact List.take_left' rfl

theorem feed_eq (f : σ → List Byte → σ) (s : σ) (b r data : List Byte) (used : Nat)
    (hb : b.length = 64) (hu : used < 64) (hr : b.take used = r) (hd : data.length < 2 ^ 64) :
    ∃ b', feed f s b used data = some (run f s (r ++ data), b') ∧ b'.length = 64 ∧
      b'.take ((used + data.length) % 64) = rest (r ++ data) := by
  have hrl : r.length = used := by rw [← hr, List.length_take]; omega
  rw [feed]
  by_cases h0 : used ≠ 0
  · rw [if_pos h0]
    by_cases hs : data.length < 64 - used
    · simp only [hs, if_true]
      rw [copyTo_ok _ _ _ (by omega), hr]
      have hsh : (r ++ data).length < 64 := by rw [List.length_append]; omega
      refine ⟨r ++ data ++ b.drop (used + data.length), ?_, ?_, ?_⟩
      · rw [run_short f s _ hsh]; rfl
      · simp only [List.length_append, List.length_drop]; omega
      · rw [rest_short _ hsh, Nat.mod_eq_of_lt (by omega)]
        exact List.take_left' (by rw [List.length_append]; omega)
    · simp only [hs, if_false]
      have ht : (data.take (64 - used)).length = 64 - used := by rw [List.length_take]; omega
      rw [copyTo_ok _ _ _ (by omega), hr, ht,
        List.drop_of_length_le (l := b) (by omega), List.append_nil]
      have hbl : (r ++ data.take (64 - used)).length = 64 := by rw [List.length_append]; omega
      simp only [Option.bind_eq_bind, Option.bind_some]
      rw [body_one f s _ hbl]
      simp only [Option.bind_some]
      obtain ⟨b', e1, e2, e3⟩ := tail_eq f (f s (r ++ data.take (64 - used)))
        (r ++ data.take (64 - used)) (data.drop (64 - used)) hbl (by rw [List.length_drop]; omega)
      have hsplit : r ++ data = (r ++ data.take (64 - used)) ++ data.drop (64 - used) := by
        rw [List.append_assoc, List.take_append_drop]
      refine ⟨b', ?_, e2, ?_⟩
      · rw [e1, hsplit, run_cons f s _ _ hbl]
      · rw [hsplit, rest_cons _ _ hbl, ← e3, List.length_drop]
        congr 1; omega
  · rw [if_neg h0]
    have hrn : r = [] := List.length_eq_zero_iff.1 (by omega)
    obtain ⟨b', e1, e2, e3⟩ := tail_eq f s b data hb hd
    refine ⟨b', ?_, e2, ?_⟩
    · rw [e1, hrn]; rfl
    · rw [hrn, show used = 0 by omega, Nat.zero_add, e3]; rfl

/-- The context after the message `m`. -/
structure Rep (f : σ → List Byte → σ) (iv : σ) (c : Ctx σ) (m : List Byte) : Prop where
  state : c.state = run f iv m
  length : c.buffer.length = 64
  buffer : c.buffer.take (m.length % 64) = rest m
  low : c.lo < 2 ^ 29
  high : c.hi < 2 ^ 32
  count : c.lo + 2 ^ 29 * c.hi = m.length % 2 ^ 61

theorem rep_init (f : σ → List Byte → σ) (iv : σ) (b : List Byte) (hb : b.length = 64) :
    Rep f iv (init iv b) [] :=
  ⟨(run_short f iv [] (by simp)).symm, hb, by simp [rest_short], by simp [init], by simp [init],
    by simp [init]⟩

theorem Rep.pos {f : σ → List Byte → σ} {iv : σ} {c : Ctx σ} {m : List Byte} (h : Rep f iv c m) :
    c.lo % 64 = m.length % 64 := by
  have := h.count
  omega

theorem update_eq {f : σ → List Byte → σ} {iv : σ} {c : Ctx σ} {m : List Byte} (h : Rep f iv c m)
    (data : List Byte) (hd : data.length < 2 ^ 64) :
    ∃ c', update f c data = some c' ∧ Rep f iv c' (m ++ data) := by
  have hlt := Nat.mod_lt m.length (show 0 < 64 by omega)
  obtain ⟨b', e1, e2, e3⟩ := feed_eq f c.state c.buffer (rest m) data (m.length % 64) h.length hlt
    h.buffer hd
  rw [update]
  simp only [h.pos, e1, Option.bind_eq_bind, Option.bind_some]
  have h0 := h.low
  have h1 := h.high
  have h2 := h.count
  refine ⟨_, rfl, ⟨?_, e2, ?_, ?_, ?_, ?_⟩⟩
  · dsimp only
    rw [run_run f iv m, h.state]
  · dsimp only
    rw [rest_rest m, ← e3, List.length_append, Nat.mod_add_mod]
  · dsimp only; omega
  · dsimp only; omega
  · dsimp only
    rw [List.length_append]
    split <;> omega

theorem updates_eq (f : σ → List Byte → σ) (iv : σ) (ds : List (List Byte)) :
    ∀ (c : Ctx σ) (m : List Byte), Rep f iv c m → (∀ d ∈ ds, d.length < 2 ^ 64) →
    ∃ c', updates f c ds = some c' ∧ Rep f iv c' (m ++ ds.flatten) := by
  induction ds with
  | nil => intro c m h _; exact ⟨c, rfl, by simpa using h⟩
  | cons d ds ih =>
    intro c m h hd
    obtain ⟨c1, e1, e2⟩ := update_eq h d (hd d (by simp))
    obtain ⟨c2, f1, f2⟩ := ih c1 (m ++ d) e2 (fun x hx => hd x (by simp [hx]))
    refine ⟨c2, ?_, by simpa using f2⟩
    rw [updates, e1]; exact f1

theorem count_eq {f : σ → List Byte → σ} {iv : σ} {c : Ctx σ} {m : List Byte} (h : Rep f iv c m) :
    wordBytes (BitVec.ofNat 32 c.lo <<< 3) ++ wordBytes (BitVec.ofNat 32 c.hi) = le 8 (8 * m.length) := by
  have h0 := h.low
  have h1 := h.high
  have h2 := h.count
  have byte : ∀ (x : Byte) (b : Nat), x.toNat = b % 256 → x = BitVec.ofNat 8 b := by
    intro x b hab
    apply BitVec.eq_of_toNat_eq
    simpa using hab
  have r8 : List.range 8 = [0, 1, 2, 3, 4, 5, 6, 7] := rfl
  simp only [wordBytes, le, r8, List.map_cons, List.map_nil, List.cons_append, List.nil_append,
    List.cons.injEq, and_true]
  refine ⟨?_, ?_, ?_, ?_, ?_, ?_, ?_, ?_⟩ <;> apply byte <;>
    simp [Nat.shiftRight_eq_div_pow, Nat.shiftLeft_eq] <;> omega

theorem wordBytes_length (w : Word) : (wordBytes w).length = 4 := rfl

/-- The last block: some bytes, zeros and the count. -/
theorem last_eq (f : σ → List Byte → σ) (s : σ) (b r x y : List Byte) (used : Nat)
    (hb : b.length = 64) (hu : used ≤ 56) (hr : b.take used = r)
    (hx : x.length = 4) (hy : y.length = 4) :
    (do let b ← copyTo b used (List.replicate (64 - used - 8) 0)
        let b ← copyTo b 56 x
        let b ← copyTo b 60 y
        let q ← body f s b 64
        some q.1) = some (run f s (r ++ List.replicate (56 - used) 0 ++ (x ++ y))) := by
  have hrl : r.length = used := by rw [← hr, List.length_take]; omega
  rw [copyTo_ok _ _ _ (by simp; omega), hr]
  simp only [Option.bind_eq_bind, Option.bind_some]
  have h56 : (r ++ List.replicate (64 - used - 8) (0 : Byte)).length = 56 := by
    rw [List.length_append, List.length_replicate]; omega
  rw [copyTo_ok _ _ _ (by omega), List.take_left' h56]
  simp only [Option.bind_some]
  have h60 : (r ++ List.replicate (64 - used - 8) (0 : Byte) ++ x).length = 60 := by
    rw [List.length_append, h56, hx]
  rw [copyTo_ok _ _ _ (by omega), List.take_left' h60, List.drop_of_length_le (by
    simp only [List.length_append, List.length_drop, List.length_replicate, hb, hx, hy]; omega),
    List.append_nil]
  simp only [Option.bind_some]
  have h64 : (r ++ List.replicate (64 - used - 8) (0 : Byte) ++ x ++ y).length = 64 := by
    rw [List.length_append, h60, hy]
  rw [body_one f s _ h64]
  have := run_cons f s _ [] h64
  rw [List.append_nil, run_short f _ [] (by simp)] at this
  simp only [Option.bind_some]
  rw [show 64 - used - 8 = 56 - used by omega] at this ⊢
  rw [← List.append_assoc, this]

theorem final_eq {f : σ → List Byte → σ} {iv : σ} {c : Ctx σ} {m : List Byte} (h : Rep f iv c m) :
    final f c = some (hashed f iv (le 8) m) := by
  have hlt := Nat.mod_lt m.length (show 0 < 64 by omega)
  have hrl := rest_length m
  rw [final, h.pos]
  rw [copyTo_ok _ _ _ (by simp; omega), h.buffer]
  simp only [Option.bind_eq_bind, Option.bind_some]
  have hbl : (rest m ++ [(0x80 : Byte)] ++ c.buffer.drop (m.length % 64 + [(0x80 : Byte)].length)).length
      = 64 := by
    simp only [List.length_append, List.length_drop, hrl, h.length, List.length_singleton]; omega
  have ht : (rest m ++ [(0x80 : Byte)] ++ c.buffer.drop (m.length % 64 + [(0x80 : Byte)].length)).take
      (m.length % 64 + 1) = rest m ++ [0x80] := List.take_left' (by simp [hrl])
  generalize rest m ++ [(0x80 : Byte)] ++ c.buffer.drop (m.length % 64 + [(0x80 : Byte)].length) = b at *
  rw [hashed, run_run, padding, ← count_eq h, ← h.state]
  generalize hr : m.length % 64 = r at *
  rw [spill]
  by_cases hs : 64 - (r + 1) < 8
  · rw [if_pos hs, copyTo_ok _ _ _ (by simp; omega), ht, List.drop_of_length_le (by simp; omega),
      List.append_nil]
    simp only [Option.bind_eq_bind, Option.bind_some]
    have hb2 : (rest m ++ [(0x80 : Byte)] ++ List.replicate (64 - (r + 1)) 0).length = 64 := by
      simp [hrl]; omega
    rw [body_one f _ _ hb2]
    simp only [Option.bind_some]
    have := last_eq f (f c.state (rest m ++ [(0x80 : Byte)] ++ List.replicate (64 - (r + 1)) 0))
      (rest m ++ [(0x80 : Byte)] ++ List.replicate (64 - (r + 1)) 0) []
      (wordBytes (BitVec.ofNat 32 c.lo <<< 3)) (wordBytes (BitVec.ofNat 32 c.hi)) 0 hb2 (by omega) rfl rfl rfl
    simp only [Option.bind_eq_bind] at this
    rw [show 64 - 8 = 64 - 0 - 8 from rfl, this, ← run_cons f c.state _ _ hb2,
      show (119 - r) % 64 = (64 - (r + 1)) + 56 by omega, ← List.replicate_append_replicate]
    simp
  · rw [if_neg hs]
    simp only [Option.bind_some]
    have := last_eq f c.state b (rest m ++ [0x80])
      (wordBytes (BitVec.ofNat 32 c.lo <<< 3)) (wordBytes (BitVec.ofNat 32 c.hi)) (r + 1) hbl (by omega) ht rfl rfl
    simp only [Option.bind_eq_bind] at this
    rw [this, show (119 - r) % 64 = 56 - (r + 1) by omega]
    simp

theorem hashPieces_eq (f : σ → List Byte → σ) (iv : σ) (b : List Byte) (hb : b.length = 64)
    (ds : List (List Byte)) (hd : ∀ d ∈ ds, d.length < 2 ^ 64) :
    hashPieces f iv b ds = some (hashed f iv (le 8) ds.flatten) := by
  obtain ⟨c, h1, h2⟩ := updates_eq f iv ds (init iv b) [] (rep_init f iv b hb) hd
  rw [List.nil_append] at h2
  rw [hashPieces, h1]
  exact final_eq h2

end C3.Hash.Md5
