import Verif.Hash.SpecSha1
import Verif.Hash.LemmasBits
import Verif.Hash.LemmasSha1

set_option autoImplicit false

namespace C3.Hash.Sha1

theorem ch_eq (w x y : Word) : (w &&& (x ^^^ y)) ^^^ y = (w &&& x) ^^^ (~~~w &&& y) := by
  apply BitVec.eq_of_getElem_eq
  intro i hi
  simp only [BitVec.getElem_xor, BitVec.getElem_and, BitVec.getElem_not]
  generalize w[i] = a
  generalize x[i] = b
  generalize y[i] = c
  revert a b c; decide

theorem maj_eq (w x y : Word) : ((w ||| x) &&& y) ||| (w &&& x) =
    (w &&& x) ^^^ (w &&& y) ^^^ (x &&& y) := by
  apply BitVec.eq_of_getElem_eq
  intro i hi
  simp only [BitVec.getElem_xor, BitVec.getElem_and, BitVec.getElem_or]
  generalize w[i] = a
  generalize x[i] = b
  generalize y[i] = c
  revert a b c; decide

theorem word_bit (a b c d : Byte) (i : Nat) : (a ++ b ++ c ++ d : Word).getLsbD i =
    if i < 8 then d.getLsbD i else if i - 8 < 8 then c.getLsbD (i - 8)
    else if i - 8 - 8 < 8 then b.getLsbD (i - 8 - 8) else a.getLsbD (i - 8 - 8 - 8) := by
  show (a ++ b ++ c ++ d : BitVec (8 + 8 + 8 + 8)).getLsbD i = _
  simp only [BitVec.getLsbD_append]

/-- The bytes of a word turned round. -/
theorem swap_eq (a b c d : Byte) :
    (((d ++ c ++ b ++ a : Word).rotateLeft 24 &&& 0xFF00FF00) |||
      ((d ++ c ++ b ++ a : Word).rotateLeft 8 &&& 0x00FF00FF)) = a ++ b ++ c ++ d := by
  have h1 := word_bit a b c d
  have h2 := word_bit d c b a
  generalize (d ++ c ++ b ++ a : Word) = X at *
  generalize (a ++ b ++ c ++ d : Word) = Y at *
  apply BitVec.eq_of_getLsbD_eq
  intro i hi
  have : i ∈ List.range 32 := by simpa using hi
  simp only [show List.range 32 = [0,1,2,3,4,5,6,7,8,9,10,11,12,13,14,15,16,17,18,19,20,21,22,23,24,
    25,26,27,28,29,30,31] from rfl, List.mem_cons, List.not_mem_nil, or_false] at this
  rcases this with h|h|h|h|h|h|h|h|h|h|h|h|h|h|h|h|h|h|h|h|h|h|h|h|h|h|h|h|h|h|h|h <;> subst h <;>
    simp [BitVec.getLsbD_rotateLeft, h1, h2, -BitVec.getLsbD_eq_getElem]

/-- Which of the functions a step uses. -/
def which (t : Nat) : Nat := if t < 16 then 0 else t / 20 + 1

/-- Where the first variable is at a step. -/
def place (t : Nat) : Nat := (5 - t % 5) % 5

/-- The table of calls, by rule. -/
theorem calls_eq : calls = (List.range 80).map fun t =>
    ⟨which t, place t, (place t + 1) % 5, (place t + 2) % 5, (place t + 3) % 5, (place t + 4) % 5, t⟩ := by
  decide +kernel

theorem func_eq (t : Nat) (w x y : Word) : func (which t) w x y = Fips.F t w x y := by
  rw [which, Fips.F]
  by_cases h0 : t < 16
  · rw [if_pos h0, if_pos (by omega)]; exact ch_eq w x y
  rw [if_neg h0]
  by_cases h1 : t < 20
  · rw [if_pos h1, show t / 20 = 0 by omega]; exact ch_eq w x y
  rw [if_neg h1]
  by_cases h2 : t < 40
  · rw [if_pos h2, show t / 20 = 1 by omega]; rfl
  rw [if_neg h2]
  by_cases h3 : t < 60
  · rw [if_pos h3, show t / 20 = 2 by omega]; exact maj_eq w x y
  rw [if_neg h3]
  obtain ⟨k, hk⟩ : ∃ k, t / 20 + 1 = k + 4 := ⟨t / 20 - 3, by omega⟩
  rw [hk]; rfl

theorem konst_eq (t : Nat) : konst (which t) = Fips.K t := by
  rw [which, Fips.K]
  by_cases h0 : t < 16
  · rw [if_pos h0, if_pos (by omega)]; rfl
  rw [if_neg h0]
  by_cases h1 : t < 20
  · rw [if_pos h1, show t / 20 = 0 by omega]; rfl
  rw [if_neg h1]
  by_cases h2 : t < 40
  · rw [if_pos h2, show t / 20 = 1 by omega]; rfl
  rw [if_neg h2]
  by_cases h3 : t < 60
  · rw [if_pos h3, show t / 20 = 2 by omega]; rfl
  rw [if_neg h3]
  obtain ⟨k, hk⟩ : ∃ k, t / 20 + 1 = k + 4 := ⟨t / 20 - 3, by omega⟩
  rw [hk]; rfl

/-- The circular block at step `n`. -/
structure Circ (b : List Byte) (n : Nat) (l : List Word) : Prop where
  length : l.length = 16
  done : ∀ t, t < n → n ≤ t + 16 → at' l (t % 16) = Fips.W b t
  raw : ∀ j, n ≤ j → j < 16 → at' l j = load b j

theorem at_set (l : List Word) (i j : Nat) (w : Word) (hi : i < l.length) :
    at' (l.set i w) j = if j = i then w else at' l j := by
  by_cases h : j = i
  · subst h; simp [at', hi]
  · rw [if_neg h, at', at', List.getD_eq_getElem?_getD, List.getD_eq_getElem?_getD,
      List.getElem?_set_ne (fun e => h e.symm)]

theorem circ_set {b : List Byte} {n : Nat} {l : List Word} (h : Circ b n l) :
    Circ b (n + 1) (l.set (n % 16) (Fips.W b n)) := by
  refine ⟨by simpa using h.length, ?_, ?_⟩
  · intro t h1 h2
    rw [at_set _ _ _ _ (by rw [h.length]; omega)]
    by_cases e : t = n
    · subst e; rw [if_pos rfl]
    · rw [if_neg (by omega), h.done t (by omega) (by omega)]
  · intro j h1 h2
    rw [at_set _ _ _ _ (by rw [h.length]; omega), if_neg (by omega), h.raw j (by omega) h2]

theorem expand_eq {b : List Byte} {n : Nat} {l : List Word} (h : Circ b n l) :
    (if which n = 0 then blk0 l n else blk l n) = (Fips.W b n, l.set (n % 16) (Fips.W b n)) := by
  by_cases hn : n < 16
  · have hw : ((at' l n).rotateLeft 24 &&& 0xFF00FF00) ||| ((at' l n).rotateLeft 8 &&& 0x00FF00FF) =
        Fips.W b n := by
      rw [h.raw n (Nat.le_refl _) hn, load, swap_eq, Fips.W, if_pos hn, Fips.word]
    rw [which, if_pos hn, if_pos rfl, blk0, hw, Nat.mod_eq_of_lt hn]
  · have hw : (at' l ((n + 13) % 16) ^^^ at' l ((n + 8) % 16) ^^^ at' l ((n + 2) % 16) ^^^
        at' l (n % 16)).rotateLeft 1 = Fips.W b n := by
      rw [Fips.W, if_neg hn, ← h.done (n - 3) (by omega) (by omega),
        ← h.done (n - 8) (by omega) (by omega), ← h.done (n - 14) (by omega) (by omega),
        ← h.done (n - 16) (by omega) (by omega), show (n - 3) % 16 = (n + 13) % 16 by omega,
        show (n - 8) % 16 = (n + 8) % 16 by omega, show (n - 14) % 16 = (n + 2) % 16 by omega,
        show (n - 16) % 16 = n % 16 by omega]
    rw [which, if_neg hn, if_neg (by omega), blk, hw]

/-- The five variables if the first one is at `p`. -/
def vars (p : Nat) (h : Fips.Hash) : List Word :=
  (List.range 5).map fun q => [h.a, h.b, h.c, h.d, h.e].getD ((q + 5 - p) % 5) 0

theorem vars_at (p : Nat) (hp : p < 5) (h : Fips.Hash) :
    at' (vars p h) p = h.a ∧ at' (vars p h) ((p + 1) % 5) = h.b ∧ at' (vars p h) ((p + 2) % 5) = h.c ∧
    at' (vars p h) ((p + 3) % 5) = h.d ∧ at' (vars p h) ((p + 4) % 5) = h.e := by
  match p, hp with
  | 0, _ | 1, _ | 2, _ | 3, _ | 4, _ => exact ⟨rfl, rfl, rfl, rfl, rfl⟩

theorem vars_set (p : Nat) (hp : p < 5) (h : Fips.Hash) (T w : Word) :
    ((vars p h).set ((p + 4) % 5) T).set ((p + 1) % 5) w = vars ((p + 4) % 5) ⟨T, h.a, w, h.c, h.d⟩ := by
  match p, hp with
  | 0, _ | 1, _ | 2, _ | 3, _ | 4, _ => rfl

theorem place_lt (t : Nat) : place t < 5 := by rw [place]; omega

theorem place_succ (t : Nat) : place (t + 1) = (place t + 4) % 5 := by rw [place, place]; omega

theorem exec_eq {b : List Byte} {t : Nat} {l : List Word} (hc : Circ b t l) (h : Fips.Hash) :
    exec (vars (place t) h, l) ⟨which t, place t, (place t + 1) % 5, (place t + 2) % 5,
      (place t + 3) % 5, (place t + 4) % 5, t⟩ =
    (vars (place (t + 1)) (Fips.round b h t), l.set (t % 16) (Fips.W b t)) := by
  obtain ⟨v0, v1, v2, v3, v4⟩ := vars_at (place t) (place_lt t) h
  simp only [exec, v0, v1, v2, v3, v4, expand_eq hc, func_eq, konst_eq]
  rw [vars_set _ (place_lt t), place_succ, Fips.round]
  congr 3
  ac_rfl

theorem steps_eq (b : List Byte) (h : Fips.Hash) (l : List Word) (hl : Circ b 0 l) (n : Nat) :
    ∃ l', ((List.range n).map fun t => (⟨which t, place t, (place t + 1) % 5, (place t + 2) % 5,
      (place t + 3) % 5, (place t + 4) % 5, t⟩ : Call)).foldl exec (vars 0 h, l) =
      (vars (place n) ((List.range n).foldl (Fips.round b) h), l') ∧ Circ b n l' := by
  induction n with
  | zero => exact ⟨l, rfl, hl⟩
  | succ n ih =>
    obtain ⟨l', e1, e2⟩ := ih
    refine ⟨_, ?_, circ_set e2⟩
    rw [List.range_succ, List.map_append, List.foldl_append, e1, List.foldl_append]
    simp only [List.map_cons, List.map_nil, List.foldl_cons, List.foldl_nil]
    exact exec_eq e2 _

/-- The state as the standard has it. -/
def Vars.toHash (v : Vars) : Fips.Hash := ⟨v.a, v.b, v.c, v.d, v.e⟩

theorem circ_zero (b : List Byte) : Circ b 0 ((List.range 16).map (load b)) := by
  refine ⟨by simp, fun t h _ => by omega, ?_⟩
  intro j _ hj
  simp [at', hj]

theorem transform_eq (s : Vars) (b : List Byte) :
    (transform s b).toHash = Fips.compress s.toHash b := by
  obtain ⟨l', e1, _⟩ := steps_eq b s.toHash _ (circ_zero b) 80
  have e0 : ([s.a, s.b, s.c, s.d, s.e] : List Word) = vars 0 s.toHash := rfl
  rw [transform, calls_eq, e0, e1]
  rfl

theorem digest_eq (s : Vars) : digest s = [s.a, s.b, s.c, s.d, s.e].flatMap Fips.bytes := by
  have r : List.range 20 = [0, 1, 2, 3, 4, 5, 6, 7, 8, 9, 10, 11, 12, 13, 14, 15, 16, 17, 18, 19] := rfl
  simp only [digest, r, List.map_cons, List.map_nil, byte_eq, List.flatMap_cons, List.flatMap_nil,
    Fips.bytes]
  rfl

end C3.Hash.Sha1
