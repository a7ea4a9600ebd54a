import Verif.Symtab.Lemmas

/-! # C18: interning of identifiers -/

set_option autoImplicit false

namespace C3.Symtab

/-- C18: whatever the hash function, a history of registrations and look-ups of texts shorter than
65536 bytes stays in bounds and gives every call the position and the kind under which its text was
first registered; the stored texts are exactly the registered ones in that order.

Missing for the full property: longer texts, for which it is false (`C18_long`, `C18_confused`). -/
theorem C18_history_partial (hash : List Byte → BitVec 32) (capacity : BitVec 32) (ops : List Op)
    (h1 : 0x100 ≤ capacity.toNat) (h2 : capacity.toNat ≤ 2 ^ 31) (hl : ∀ op ∈ ops, op.text.length < 65536) :
    ∃ t0 t, init capacity = some t0 ∧ run hash t0 ops = some (t, (specRun [] ops).2) ∧
      t.heap = (specRun [] ops).1.map (·.1) := by
  obtain ⟨t0, g1, g2, g3, g4⟩ := init_some capacity h1 h2
  obtain ⟨t, g5, g6⟩ := run_refines hash ops t0 [] (rep_init hash t0 g2 g3 g4) hl
  exact ⟨t0, t, g1, g5, g6.heap⟩

example : (specRun [] [.add [102, 110] 7, .add [120] 1, .find [121], .add [102, 110] 1, .find [120]]).2 =
    [some (0, 7), some (1, 1), none, some (0, 7), some (1, 1)] := by decide

/-- C18: two calls of a history get the same symbol exactly if their texts are equal. -/
theorem C18_same_symbol_partial (hash : List Byte → BitVec 32) (capacity : BitVec 32) (ops : List Op)
    (h1 : 0x100 ≤ capacity.toNat) (h2 : capacity.toNat ≤ 2 ^ 31) (hl : ∀ op ∈ ops, op.text.length < 65536)
    (t0 t : SymTab) (rs : List (Option (Nat × Nat))) (h0 : init capacity = some t0) (hr : run hash t0 ops = some (t, rs))
    (i j : Nat) (a b : Op) (p q k l : Nat) (ha : ops[i]? = some a) (hb : ops[j]? = some b)
    (hp : rs[i]? = some (some (p, k))) (hq : rs[j]? = some (some (q, l))) : p = q ↔ a.text = b.text := by
  obtain ⟨t0', t', g1, g2, g3⟩ := C18_history_partial hash capacity ops h1 h2 hl
  rw [h0, Option.some.injEq] at g1
  subst g1
  rw [hr, Option.some.injEq, Prod.mk.injEq] at g2
  obtain ⟨rfl, rfl⟩ := g2
  have e1 := specRun_result ops [] (by simp) i a p k ha hp
  have e2 := specRun_result ops [] (by simp) j b q l hb hq
  have hn := specRun_nodup ops [] (by simp)
  constructor
  · rintro rfl
    rw [e1] at e2
    simpa using congrArg (·.map Prod.fst) e2
  · intro hab
    have x1 := (get_some _ _ hn _ _).2 e1
    have x2 := (get_some _ _ hn _ _).2 e2
    rw [hab, x2] at x1
    simp at x1
    exact x1.1.symm

example : (specRun [] [.add [102, 110] 7, .add [120] 1, .add [102, 110] 1]).2 =
    [some (0, 7), some (1, 1), some (0, 7)] := by decide

/-- C18: a symbol goes on denoting the text it was handed out for, and carries the token kind of the
first registration of that text: a keyword registered at start-up stays a keyword. -/
theorem C18_stable_partial (hash : List Byte → BitVec 32) (capacity : BitVec 32) (ops : List Op)
    (h1 : 0x100 ≤ capacity.toNat) (h2 : capacity.toNat ≤ 2 ^ 31) (hl : ∀ op ∈ ops, op.text.length < 65536)
    (t0 t : SymTab) (rs : List (Option (Nat × Nat))) (h0 : init capacity = some t0) (hr : run hash t0 ops = some (t, rs))
    (i : Nat) (a : Op) (p k : Nat) (ha : ops[i]? = some a) (hp : rs[i]? = some (some (p, k))) :
    t.heap[p]? = some a.text ∧
      ∃ pre post, ops = pre ++ Op.add a.text k :: post ∧ ∀ k', Op.add a.text k' ∉ pre := by
  obtain ⟨t0', t', g1, g2, g3⟩ := C18_history_partial hash capacity ops h1 h2 hl
  rw [h0, Option.some.injEq] at g1
  subst g1
  rw [hr, Option.some.injEq, Prod.mk.injEq] at g2
  obtain ⟨rfl, rfl⟩ := g2
  have e1 := specRun_result ops [] (by simp) i a p k ha hp
  refine ⟨by rw [g3, List.getElem?_map, e1]; rfl, ?_⟩
  rcases specRun_kind ops [] a.text k (List.mem_of_getElem? e1) with h | h
  · simp at h
  · exact h.2

example : ∃ pre post, [Op.add [102, 110] 7, .find [120], .add [102, 110] 1] = pre ++ Op.add [102, 110] 7 :: post ∧
    ∀ k', Op.add [102, 110] k' ∉ pre := ⟨[], _, rfl, by simp⟩

/-- C18: a look-up fails exactly if the text has not been registered before. -/
theorem C18_find_partial (hash : List Byte → BitVec 32) (capacity : BitVec 32) (ops : List Op)
    (h1 : 0x100 ≤ capacity.toNat) (h2 : capacity.toNat ≤ 2 ^ 31) (hl : ∀ op ∈ ops, op.text.length < 65536)
    (t0 t : SymTab) (rs : List (Option (Nat × Nat))) (h0 : init capacity = some t0) (hr : run hash t0 ops = some (t, rs))
    (i : Nat) (text : List Byte) (ha : ops[i]? = some (.find text)) :
    rs[i]? = some none ↔ ∀ k, Op.add text k ∉ ops.take i := by
  obtain ⟨t0', t', g1, g2, g3⟩ := C18_history_partial hash capacity ops h1 h2 hl
  rw [h0, Option.some.injEq] at g1
  subst g1
  rw [hr, Option.some.injEq, Prod.mk.injEq] at g2
  obtain ⟨rfl, rfl⟩ := g2
  rw [specRun_miss ops [] i text ha]
  simp

example : (specRun [] [.find [120], .add [120] 1, .find [120]]).2 = [none, some (0, 1), some (0, 1)] := by decide

/-- The state after registering one text in a fresh table. -/
theorem first_add (hash : List Byte → BitVec 32) (capacity : BitVec 32) (text : List Byte) (k : Nat)
    (h1 : 0x100 ≤ capacity.toNat) (h2 : capacity.toNat ≤ 2 ^ 31) :
    ∃ t0 t1, init capacity = some t0 ∧ add t0 text (hash text) k = some (t1, 0, k) ∧ t1.heap = [text] ∧ t1.mask = t0.mask ∧
      t1.bucket[home hash t0 text]? = some [⟨0, BitVec.ofNat 16 text.length, k, hash text⟩] := by
  obtain ⟨t0, g1, g2, g3, g4⟩ := init_some capacity h1 h2
  have hl := home_lt hash t0 g3 text
  have hb : t0.bucket[home hash t0 text]? = some [] := by
    rw [List.getElem?_eq_getElem hl, g4 _ (List.getElem_mem hl)]
  refine ⟨t0, ⟨t0.bucket.set (home hash t0 text) [⟨0, BitVec.ofNat 16 text.length, k, hash text⟩], t0.mask, [text]⟩, g1, ?_,
    rfl, rfl, List.getElem?_set_self hl⟩
  have hb' := hb
  unfold home at hb'
  rw [add]
  dsimp only
  rw [hb', Option.bind_eq_bind, Option.bind_some, search, Option.bind_eq_bind, Option.bind_some]
  dsimp only
  rw [g2]
  rfl

/-- C18 fails for long texts: the length is kept in 16 bits, so an identifier of 65536 bytes or more
is never found again, and registering it twice yields two symbols. -/
theorem C18_long (hash : List Byte → BitVec 32) (capacity : BitVec 32) (text : List Byte) (k : Nat)
    (h1 : 0x100 ≤ capacity.toNat) (h2 : capacity.toNat ≤ 2 ^ 31) (hl : 65536 ≤ text.length) :
    ∃ t0 t2, init capacity = some t0 ∧ run hash t0 [.add text k, .add text k] = some (t2, [some (0, k), some (1, k)]) := by
  obtain ⟨t0, t1, g1, g2, g3, g4, g5⟩ := first_add hash capacity text k h1 h2
  have hs : search t1.heap text (hash text) [⟨0, BitVec.ofNat 16 text.length, k, hash text⟩] = some none := by
    rw [search, if_neg (by rw [BitVec.toNat_ofNat]; omega), search]
  unfold home at g5
  obtain ⟨t2, ht2⟩ : ∃ t2, add t1 text (hash text) k = some (t2, 1, k) := by
    rw [add]
    dsimp only
    rw [g4, g5, Option.bind_eq_bind, Option.bind_some, hs, Option.bind_eq_bind, Option.bind_some, g3]
    exact ⟨_, rfl⟩
  refine ⟨t0, t2, g1, ?_⟩
  simp only [run, step, g2, ht2, Option.map_some, Option.bind_eq_bind, Option.bind_some]

example : 65536 ≤ (List.replicate 70000 (97#8)).length := by rw [List.length_replicate]; decide

/-- C18 fails for long texts, second way: when the hashes collide, a text that is the beginning of a
longer one registered before, and 65536 bytes shorter, gets the longer one's symbol. -/
theorem C18_confused (hash : List Byte → BitVec 32) (capacity : BitVec 32) (text more : List Byte) (k l : Nat)
    (h1 : 0x100 ≤ capacity.toNat) (h2 : capacity.toNat ≤ 2 ^ 31) (hl : text.length < 65536) (hm : more.length = 65536)
    (hc : hash text = hash (text ++ more)) :
    ∃ t0 t2, init capacity = some t0 ∧
      run hash t0 [.add (text ++ more) k, .add text l] = some (t2, [some (0, k), some (0, k)]) := by
  obtain ⟨t0, t1, g1, g2, g3, g4, g5⟩ := first_add hash capacity (text ++ more) k h1 h2
  have hs : search t1.heap text (hash text) [⟨0, BitVec.ofNat 16 (text ++ more).length, k, hash (text ++ more)⟩] =
      some (some ⟨0, BitVec.ofNat 16 (text ++ more).length, k, hash (text ++ more)⟩) := by
    rw [search, if_pos ⟨hc.symm, by rw [BitVec.toNat_ofNat, List.length_append, hm]; omega⟩, g3]
    simp only [List.getElem?_cons_zero, Option.bind_eq_bind, Option.bind_some]
    rw [memcmpEq, if_pos (by simp; omega), List.append_assoc, List.take_left']
    · simp
    · rfl
  unfold home at g5
  have ht2 : add t1 text (hash text) l = some (t1, 0, k) := by
    rw [add]
    dsimp only
    rw [hc] at hs
    rw [g4, hc, g5, Option.bind_eq_bind, Option.bind_some, hs, Option.bind_eq_bind, Option.bind_some]
  refine ⟨t0, t1, g1, ?_⟩
  simp only [run, step, g2, ht2, Option.map_some, Option.bind_eq_bind, Option.bind_some]

example : (fun _ : List Byte => 5#32) [97] = (fun _ => 5#32) ([97] ++ List.replicate 65536 98#8) := rfl

end C3.Symtab
