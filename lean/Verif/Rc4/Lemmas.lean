import Verif.Rc4.Model
import Verif.Rc4.Spec

/-! # The lists of the code are the functions of the standard -/

set_option autoImplicit false

namespace C3.Rc4

/-- The list holds the values of the function. -/
def Rep (s : List Byte) (S : Nat → Nat) : Prop :=
  s.length = 256 ∧ ∀ k, k < 256 → S k = (s.getD k 0).toNat

theorem Rep.get {s : List Byte} {S : Nat → Nat} (h : Rep s S) {k : Nat} (hk : k < 256) :
    ∃ b : Byte, s[k]? = some b ∧ b.toNat = S k := by
  have hl : k < s.length := by rw [h.1]; exact hk
  refine ⟨s[k], List.getElem?_eq_getElem hl, ?_⟩
  rw [h.2 k hk, List.getD_eq_getElem?_getD, List.getElem?_eq_getElem hl]
  rfl

theorem and_ff (x : BitVec 32) : (x &&& 0xFF).toNat = x.toNat % 256 := by
  have e : (0xFF : BitVec 32).toNat = 2 ^ 8 - 1 := rfl
  rw [BitVec.toNat_and, e, Nat.and_two_pow_sub_one_eq_mod]

theorem swap_rep {s : List Byte} {S : Nat → Nat} (h : Rep s S) {i j : Nat} (hi : i < 256)
    (hj : j < 256) : ∃ s', swap s i j = some s' ∧ Rep s' (Std.swap S i j) := by
  obtain ⟨a, ha, ea⟩ := h.get hi
  obtain ⟨b, hb, eb⟩ := h.get hj
  have hl : j < (s.set i b).length := by rw [List.length_set, h.1]; exact hj
  refine ⟨(s.set i b).set j a, ?_, ?_, ?_⟩
  · simp only [swap, ha, hb, Option.bind_eq_bind, Option.bind_some, if_pos hl]
  · rw [List.length_set, List.length_set, h.1]
  · intro k hk
    have hks : k < s.length := by rw [h.1]; exact hk
    rw [List.getD_eq_getElem?_getD, List.getElem?_set, List.getElem?_set, Std.swap]
    by_cases e1 : k = j
    · subst e1
      simp [hks, ea]
    · rw [if_neg e1, if_neg (Ne.symm e1)]
      by_cases e2 : k = i
      · subst e2
        simp [hks, eb]
      · rw [if_neg e2, if_neg (Ne.symm e2), h.2 k hk, List.getD_eq_getElem?_getD]

theorem add3 (j : BitVec 32) (a b : Byte) (hj : j.toNat < 256) :
    ((j + a.zeroExtend 32 + b.zeroExtend 32) &&& 0xFF).toNat =
      (j.toNat + a.toNat + b.toNat) % 256 := by
  have ha := a.isLt
  have hb := b.isLt
  rw [and_ff, BitVec.toNat_add, BitVec.toNat_add, BitVec.toNat_setWidth, BitVec.toNat_setWidth]
  omega

theorem add2 (j : BitVec 32) (a : Byte) (hj : j.toNat < 256) :
    ((j + a.zeroExtend 32) &&& 0xFF).toNat = (j.toNat + a.toNat) % 256 := by
  have ha := a.isLt
  rw [and_ff, BitVec.toNat_add, BitVec.toNat_setWidth]
  omega

theorem keyStep_rep {key : List Byte} (hkey : key ≠ []) {s : List Byte} {n : Nat} (hn : n < 256)
    {j : BitVec 32} (h : Rep s (Std.ksa (key.map BitVec.toNat) n).1)
    (hj : j.toNat = (Std.ksa (key.map BitVec.toNat) n).2) (hlt : j.toNat < 256) :
    ∃ r, keyStep key s n j = some r ∧ Rep r.1 (Std.ksa (key.map BitVec.toNat) (n + 1)).1 ∧
      r.2.toNat = (Std.ksa (key.map BitVec.toNat) (n + 1)).2 ∧ r.2.toNat < 256 := by
  have hlen : key.length ≠ 0 := by
    intro e; exact hkey (List.length_eq_zero_iff.1 e)
  obtain ⟨a, ha, ea⟩ := h.get hn
  have hm : n % key.length < key.length := Nat.mod_lt _ (by omega)
  have hk : key[n % key.length]? = some key[n % key.length] := List.getElem?_eq_getElem hm
  have ek : (key.map BitVec.toNat).getD (n % (key.map BitVec.toNat).length) 0 =
      key[n % key.length].toNat := by
    rw [List.length_map, List.getD_eq_getElem?_getD, List.getElem?_map, hk]; rfl
  have e2 := add3 j a key[n % key.length] hlt
  have hlt2 : ((j + a.zeroExtend 32 + key[n % key.length].zeroExtend 32) &&& 0xFF).toNat < 256 := by
    rw [e2]; exact Nat.mod_lt _ (by decide)
  obtain ⟨s', hs, hr⟩ := swap_rep h hn hlt2
  refine ⟨(s', (j + a.zeroExtend 32 + key[n % key.length].zeroExtend 32) &&& 0xFF), ?_, ?_, ?_, hlt2⟩
  · simp only [keyStep, ha, hlen, hk, if_false, Option.bind_eq_bind, Option.bind_some, hs]
  · show Rep s' (Std.swap _ n _)
    rw [ek, ← hj, ← ea, ← e2]
    exact hr
  · show _ = (_ + _ + _) % 256
    rw [ek, ← hj, ← ea, ← e2]

theorem keyLoop_rep {key : List Byte} (hkey : key ≠ []) : ∀ (m n : Nat), n + m = 256 →
    ∀ (s : List Byte) (j : BitVec 32), Rep s (Std.ksa (key.map BitVec.toNat) n).1 →
    j.toNat = (Std.ksa (key.map BitVec.toNat) n).2 → j.toNat < 256 →
    ∃ s', keyLoop key m n s j = some s' ∧ Rep s' (Std.ksa (key.map BitVec.toNat) 256).1 := by
  intro m
  induction m with
  | zero =>
    intro n hn s j h _ _
    have : n = 256 := by omega
    subst this
    exact ⟨s, rfl, h⟩
  | succ m ih =>
    intro n hn s j h hj hlt
    obtain ⟨r, h1, h2, h3, h4⟩ := keyStep_rep hkey (by omega) h hj hlt
    obtain ⟨s', h5, h6⟩ := ih (n + 1) (by omega) r.1 r.2 h2 h3 h4
    refine ⟨s', ?_, h6⟩
    simp only [keyLoop, h1, Option.bind_eq_bind, Option.bind_some, h5]

/-- The state of the code is the state of the generator. -/
def RepG (r : Rc4) (g : Std.Gen) : Prop :=
  Rep r.state g.S ∧ r.i.toNat = g.i ∧ r.j.toNat = g.j ∧ r.i.toNat < 256 ∧ r.j.toNat < 256

theorem init_rep {key : List Byte} (hkey : key ≠ []) :
    ∃ r, init key = some r ∧
      RepG r { S := (Std.ksa (key.map BitVec.toNat) 256).1, i := 0, j := 0 } := by
  obtain ⟨s, h1, h2⟩ := keyLoop_rep hkey 256 0 rfl ((List.range 256).map fun i => BitVec.ofNat 8 i) 0
    ⟨by simp, by
      intro k hk
      rw [List.getD_eq_getElem?_getD, List.getElem?_map, List.getElem?_range hk]
      simp [Std.ksa, Nat.mod_eq_of_lt hk]⟩ rfl (by decide)
  refine ⟨{ i := 0, j := 0, state := s }, ?_, h2, rfl, rfl, Nat.zero_lt_succ _, Nat.zero_lt_succ _⟩
  simp only [init, h1, Option.bind_eq_bind, Option.bind_some]

theorem cryptStep_rep {r : Rc4} {g : Std.Gen} (h : RepG r g) (c : Byte) :
    ∃ x, cryptStep r c = some x ∧ RepG x.1 (Std.next g) ∧
      x.2 = c ^^^ BitVec.ofNat 8 (Std.out (Std.next g)) ∧ Std.out (Std.next g) < 256 := by
  obtain ⟨hr, hi, hj, li, lj⟩ := h
  have ei : ((r.i + 1) &&& 0xFF).toNat = (g.i + 1) % 256 := by
    rw [and_ff, BitVec.toNat_add, hi]
    have : (1 : BitVec 32).toNat = 1 := rfl
    rw [this]
    omega
  have li2 : ((r.i + 1) &&& 0xFF).toNat < 256 := by rw [ei]; exact Nat.mod_lt _ (by decide)
  obtain ⟨a, ha, ea⟩ := hr.get li2
  have ej : ((r.j + a.zeroExtend 32) &&& 0xFF).toNat = (g.j + g.S ((g.i + 1) % 256)) % 256 := by
    rw [add2 _ _ lj, ea, hj, ei]
  have lj2 : ((r.j + a.zeroExtend 32) &&& 0xFF).toNat < 256 := by
    rw [ej]; exact Nat.mod_lt _ (by decide)
  obtain ⟨s, hs, hrs⟩ := swap_rep hr li2 lj2
  have hrs2 : Rep s (Std.next g).S := by
    show Rep s (Std.swap _ _ _)
    rw [← ej, ← ei]
    exact hrs
  obtain ⟨p, hp, ep⟩ := hrs2.get li2
  obtain ⟨q, hq, eq⟩ := hrs2.get lj2
  have pl := p.isLt
  have ek : ((p.zeroExtend 32 + q.zeroExtend 32) &&& (0xFF : BitVec 32)).toNat =
      ((Std.next g).S (Std.next g).i + (Std.next g).S (Std.next g).j) % 256 := by
    rw [add2 _ _ (by rw [BitVec.toNat_setWidth]; omega), BitVec.toNat_setWidth,
      Nat.mod_eq_of_lt (a := p.toNat) (by omega), ep, eq, ei, ej]
    rfl
  have lk : ((p.zeroExtend 32 + q.zeroExtend 32) &&& (0xFF : BitVec 32)).toNat < 256 := by
    rw [ek]; exact Nat.mod_lt _ (by decide)
  obtain ⟨k, hk, ekk⟩ := hrs2.get lk
  have eo : Std.out (Std.next g) = k.toNat := by rw [ekk, ek]; rfl
  refine ⟨({ i := (r.i + 1) &&& 0xFF, j := (r.j + a.zeroExtend 32) &&& 0xFF, state := s }, c ^^^ k),
    ?_, ⟨hrs2, ei, ej, li2, lj2⟩, ?_, ?_⟩
  · simp only [cryptStep, ha, hs, hp, hq, hk, Option.bind_eq_bind, Option.bind_some]
  · rw [eo, BitVec.ofNat_toNat, BitVec.setWidth_eq]
  · rw [eo]; exact k.isLt

theorem rounds_next (g : Std.Gen) (n : Nat) : Std.rounds (Std.next g) n = Std.rounds g (n + 1) := by
  induction n with
  | zero => rfl
  | succ n ih => rw [Std.rounds, ih]; rfl

theorem cryptAll_rep : ∀ (l : List Byte) {r : Rc4} {g : Std.Gen}, RepG r g →
    ∃ x, cryptAll r l = some x ∧ RepG x.1 (Std.rounds g l.length) ∧
      x.2 = l.mapIdx fun n c => c ^^^ BitVec.ofNat 8 (Std.out (Std.rounds g (n + 1)))
  | [], r, g, h => ⟨(r, []), rfl, h, rfl⟩
  | c :: l, r, g, h => by
    obtain ⟨x, h1, h2, h3, _⟩ := cryptStep_rep h c
    obtain ⟨y, h4, h5, h6⟩ := cryptAll_rep l h2
    refine ⟨(y.1, x.2 :: y.2), ?_, ?_, ?_⟩
    · simp only [cryptAll, h1, h4, Option.bind_eq_bind, Option.bind_some]
    · rw [List.length_cons, ← rounds_next]; exact h5
    · rw [List.mapIdx_cons]
      simp only [h3, h6, rounds_next]
      rfl

theorem cryptAll_append (a b : List Byte) : ∀ (r : Rc4),
    cryptAll r (a ++ b) = (do
      let x ← cryptAll r a
      let y ← cryptAll x.1 b
      some (y.1, x.2 ++ y.2)) := by
  induction a with
  | nil => intro r; cases h : cryptAll r b <;> simp [cryptAll, h]
  | cons c a ih =>
    intro r
    simp only [List.cons_append, cryptAll, ih, Option.bind_eq_bind, Option.bind_assoc, Option.bind_some,
      List.cons_append]

/-! ## Permutations -/

def Perm256 (S : Nat → Nat) : Prop :=
  (∀ k, k < 256 → S k < 256) ∧ ∀ a b, a < 256 → b < 256 → S a = S b → a = b

theorem perm_swap {S : Nat → Nat} (h : Perm256 S) {i j : Nat} (hi : i < 256) (hj : j < 256) :
    Perm256 (Std.swap S i j) := by
  constructor
  · intro k hk
    simp only [Std.swap]
    split
    · exact h.1 _ hi
    · split
      · exact h.1 _ hj
      · exact h.1 _ hk
  · intro a b ha hb e
    simp only [Std.swap] at e
    by_cases a1 : a = j
    · by_cases b1 : b = j
      · omega
      · rw [if_pos a1, if_neg b1] at e
        by_cases b2 : b = i
        · rw [if_pos b2] at e
          have := h.2 _ _ hi hj e
          omega
        · rw [if_neg b2] at e
          exact absurd (h.2 _ _ hi hb e).symm b2
    · rw [if_neg a1] at e
      by_cases b1 : b = j
      · rw [if_pos b1] at e
        by_cases a2 : a = i
        · rw [if_pos a2] at e
          have := h.2 _ _ hj hi e
          omega
        · rw [if_neg a2] at e
          exact absurd (h.2 _ _ ha hi e) a2
      · rw [if_neg b1] at e
        by_cases a2 : a = i
        · rw [if_pos a2] at e
          by_cases b2 : b = i
          · omega
          · rw [if_neg b2] at e
            exact absurd (h.2 _ _ hj hb e).symm b1
        · rw [if_neg a2] at e
          by_cases b2 : b = i
          · rw [if_pos b2] at e
            exact absurd (h.2 _ _ ha hj e) a1
          · rw [if_neg b2] at e
            exact h.2 _ _ ha hb e

theorem perm_ksa (key : List Nat) : ∀ n, n ≤ 256 → Perm256 (Std.ksa key n).1
  | 0, _ => ⟨fun _ h => h, fun _ _ _ _ e => e⟩
  | n + 1, h => by
    refine perm_swap (perm_ksa key n (by omega)) (by omega) (Nat.mod_lt _ (by decide))

theorem perm_rounds (g : Std.Gen) (h : Perm256 g.S) : ∀ n, Perm256 (Std.rounds g n).S
  | 0 => h
  | n + 1 => perm_swap (perm_rounds g h n) (Nat.mod_lt _ (by decide)) (Nat.mod_lt _ (by decide))

end C3.Rc4
