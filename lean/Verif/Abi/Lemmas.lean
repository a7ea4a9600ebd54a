import Verif.Abi.Spec

/-! # Lemmas about classes -/

set_option autoImplicit false

namespace C3.Abi
open Std

/-! ### Sizes and numbers -/

theorem FKind.size_pos (k : FKind) : 0 < k.size := by cases k <;> decide

mutual
theorem valid_size : ∀ t : Ty, Valid t → size t % align t = 0 ∧ 0 < align t ∧ 0 < size t
  | .void, h => h.elim
  | .int _ b, h => by
    have : b = 1 ∨ b = 2 ∨ b = 4 ∨ b = 8 := h
    show b % b = 0 ∧ 0 < b ∧ 0 < b
    exact ⟨Nat.mod_self b, by omega, by omega⟩
  | .ptr, _ => by decide
  | .i128, _ => by decide
  | .float k, _ => by cases k <;> decide
  | .f128, _ => by decide
  | .slice, _ => by decide
  | .any, _ => by decide
  | .agg u s a f ms, h => by
    obtain ⟨h1, h2, h3, h4⟩ := h
    exact ⟨h2, h1, valid_first u s ms h3 h4⟩
  | .array e n, h => by
    obtain ⟨h1, h2⟩ := h
    obtain ⟨g1, g2, g3⟩ := valid_size e h1
    refine ⟨?_, g2, Nat.mul_pos g3 h2⟩
    show size e * n % align e = 0
    rw [Nat.mul_mod, g1, Nat.zero_mul, Nat.zero_mod]
theorem valid_first : ∀ (u : Bool) (s : Nat) (ms : Ms), starts ms → ValidMs u s 0 ms → 0 < s
  | _, _, .nil, h, _ => h.elim
  | u, s, .cons o t rest, _, h => by
    have := (valid_size t h.1).2.2
    have := h.2.1
    omega
end

def shift (a : Nat) (l : Leaf) : Leaf := ⟨a + l.off, l.size, l.kind⟩

mutual
theorem leaves_shift : ∀ (t : Ty) (a b : Nat), leaves t (a + b) = (leaves t b).map (shift a)
  | .void, _, _ => rfl
  | .int _ _, _, _ => rfl
  | .ptr, _, _ => rfl
  | .i128, _, _ => rfl
  | .float _, _, _ => rfl
  | .f128, _, _ => rfl
  | .slice, a, b => by simp [leaves, shift]; omega
  | .any, a, b => by simp [leaves, shift]; omega
  | .agg _ _ _ _ ms, a, b => by rw [leaves, leaves]; exact leavesMs_shift ms a b
  | .array e n, a, b => by
    rw [leaves, leaves, List.map_flatMap]
    congr 1
    funext i
    rw [Nat.add_assoc, leaves_shift e]
theorem leavesMs_shift : ∀ (ms : Ms) (a b : Nat), leavesMs ms (a + b) = (leavesMs ms b).map (shift a)
  | .nil, _, _ => rfl
  | .cons o t rest, a, b => by
    rw [leavesMs, leavesMs, List.map_append, Nat.add_assoc, leaves_shift t, leavesMs_shift rest]
end

theorem kind_any {P : Kind → Prop} {t : Ty} {a b : Nat} (h : ∀ l ∈ leaves t a, P l.kind) : ∀ l ∈ leaves t b, P l.kind := by
  have h0 : ∀ l ∈ leaves t 0, P l.kind := by
    intro l hl
    rw [← Nat.add_zero a, leaves_shift] at h
    exact h (shift a l) (List.mem_map_of_mem hl)
  intro l hl
  rw [← Nat.add_zero b, leaves_shift, List.mem_map] at hl
  obtain ⟨x, hx, rfl⟩ := hl
  exact h0 x hx

mutual
theorem leaf_bounds : ∀ (t : Ty) (a : Nat), Valid t → ∀ l ∈ leaves t a, a ≤ l.off ∧ l.off + l.size ≤ a + size t ∧ 0 < l.size
  | .void, _, h => h.elim
  | .int _ b, a, h => by
    have : b = 1 ∨ b = 2 ∨ b = 4 ∨ b = 8 := h
    simp [leaves, size]; omega
  | .ptr, a, _ => by simp [leaves, size]
  | .i128, a, _ => by simp [leaves, size]
  | .float k, a, _ => by simp [leaves, size]; exact k.size_pos
  | .f128, a, _ => by simp [leaves, size]
  | .slice, a, _ => by simp [leaves, size]
  | .any, a, _ => by simp [leaves, size]
  | .agg u s al f ms, a, h => by
    intro l hl
    exact leafMs_bounds ms a u s 0 h.2.2.2 l hl
  | .array e n, a, h => by
    intro l hl
    rw [leaves, List.mem_flatMap] at hl
    obtain ⟨i, hi, hl⟩ := hl
    have hi : i < n := List.mem_range.1 hi
    obtain ⟨g1, g2, g3⟩ := leaf_bounds e _ h.1 l hl
    have : (i + 1) * size e ≤ n * size e := Nat.mul_le_mul_right _ hi
    rw [Nat.add_mul] at this
    show a ≤ l.off ∧ l.off + l.size ≤ a + size e * n ∧ 0 < l.size
    rw [Nat.mul_comm (size e) n]
    omega
theorem leafMs_bounds : ∀ (ms : Ms) (a : Nat) (u : Bool) (s f : Nat), ValidMs u s f ms →
    ∀ l ∈ leavesMs ms a, a ≤ l.off ∧ l.off + l.size ≤ a + s ∧ 0 < l.size
  | .nil, _, _, _, _, _ => by intro l hl; cases hl
  | .cons o t rest, a, u, s, f, h => by
    intro l hl
    rw [leavesMs, List.mem_append] at hl
    rcases hl with hl | hl
    · obtain ⟨g1, g2, g3⟩ := leaf_bounds t _ h.1 l hl
      have := h.2.1
      omega
    · exact leafMs_bounds rest a u s _ h.2.2.2 l hl
end

/-! ### Merging -/

def classes : List Class := [.no, .mem, .integer, .sse, .sseup]

theorem mem_classes (c : Class) : c ∈ classes := by cases c <;> decide

/-- Merging where nothing is in memory. -/
def join (a b : Class) : Class := (merge a b).getD .mem

def joinBoth (s f : Classes) : Classes := (join s.1 f.1, join s.2 f.2)

/-- The classes of a number. -/
def leafClass (l : Leaf) : Classes :=
  match l.kind with
  | .integer => (if l.off < 8 then .integer else .no, if 8 < l.off + l.size then .integer else .no)
  | .float _ => (if l.off < 8 then .sse else .no, if 8 < l.off + l.size then .sse else .no)
  | .quad => (.sse, .sseup)

def raw : List Leaf → Classes
  | [] => (.no, .no)
  | l :: L => joinBoth (leafClass l) (raw L)

def conv (s : Classes) : Classes := if s.2 = .sseup ∧ s.1 ≠ .sse then (s.1, .sse) else s

/-- Classes that numbers have. -/
def Fine (s : Classes) : Prop := s.1 ≠ .mem ∧ s.1 ≠ .sseup ∧ s.2 ≠ .mem ∧ (s.2 = .sseup → s.1 ≠ .no)

instance (s : Classes) : Decidable (Fine s) := by unfold Fine; infer_instance

theorem fine_leaf (l : Leaf) : Fine (leafClass l) := by
  unfold leafClass
  split <;> (repeat' split) <;> decide

theorem fine_join {s f : Classes} (hs : Fine s) (hf : Fine f) : Fine (joinBoth s f) := by
  have key : ∀ a ∈ classes, ∀ b ∈ classes, ∀ c ∈ classes, ∀ d ∈ classes, Fine (a, b) → Fine (c, d) → Fine (joinBoth (a, b) (c, d)) := by
    decide +kernel
  exact key _ (mem_classes s.1) _ (mem_classes s.2) _ (mem_classes f.1) _ (mem_classes f.2) hs hf

theorem fine_raw : ∀ L, Fine (raw L)
  | [] => by decide
  | l :: L => fine_join (fine_leaf l) (fine_raw L)

theorem join_assoc (a b c : Class) (ha : a ≠ .mem) (hb : b ≠ .mem) (hc : c ≠ .mem) : join (join a b) c = join a (join b c) := by
  cases a <;> cases b <;> cases c <;> first | rfl | contradiction

theorem raw_append : ∀ L M, raw (L ++ M) = joinBoth (raw L) (raw M)
  | [], M => by
    have := fine_raw M
    have key : ∀ a ∈ classes, join .no a = a := by decide
    show raw M = (join .no (raw M).1, join .no (raw M).2)
    rw [key _ (mem_classes _), key _ (mem_classes _)]
  | l :: L, M => by
    show joinBoth (leafClass l) (raw (L ++ M)) = joinBoth (joinBoth (leafClass l) (raw L)) (raw M)
    rw [raw_append L M]
    have h1 := fine_leaf l
    have h2 := fine_raw L
    have h3 := fine_raw M
    unfold joinBoth
    exact Prod.ext (join_assoc _ _ _ h1.1 h2.1 h3.1).symm (join_assoc _ _ _ h1.2.2.1 h2.2.2.1 h3.2.2.1).symm

/-- One round, where the converted classes stand for the unconverted ones. -/
theorem round {s R r : Classes} (hs : Fine s) (hR : Fine R) (hr : Fine r) (h : conv s = conv R) :
    ∃ x, mergeBoth s (conv r) = some x ∧ Fine x ∧ conv x = conv (joinBoth R r) := by
  have h1 : s.1 = R.1 := by
    have := congrArg Prod.fst h
    unfold conv at this
    split at this <;> split at this <;> exact this
  have key : ∀ a ∈ classes, ∀ b ∈ classes, ∀ b' ∈ classes, ∀ c ∈ classes, ∀ d ∈ classes, Fine (a, b) → Fine (a, b') → Fine (c, d) →
      conv (a, b) = conv (a, b') → (mergeBoth (a, b) (conv (c, d))).any (fun x => decide (Fine x) && decide (conv x = conv (joinBoth (a, b') (c, d)))) = true := by
    decide +kernel
  obtain ⟨s1, s2⟩ := s
  obtain ⟨R1, R2⟩ := R
  cases h1
  have := key _ (mem_classes s1) _ (mem_classes s2) _ (mem_classes R2) _ (mem_classes r.1) _ (mem_classes r.2) hs hR hr h
  cases hx : mergeBoth (s1, s2) (conv (r.1, r.2)) with
  | none => rw [hx] at this; cases this
  | some x =>
    rw [hx] at this
    have t2 : (decide (Fine x) && decide (conv x = conv (joinBoth (s1, R2) (r.1, r.2)))) = true := this
    rw [Bool.and_eq_true, decide_eq_true_iff, decide_eq_true_iff] at t2
    exact ⟨x, rfl, t2.1, t2.2⟩

theorem post_small {s : Classes} {n : Nat} (hn : n ≤ 16) (hs : Fine s) : postMerge n s = conv s := by
  unfold postMerge conv
  rw [if_neg hs.2.2.1, if_neg (by omega)]
  have := hs.2.1
  by_cases h : s.2 = .sseup ∧ s.1 ≠ .sse
  · rw [if_pos ⟨h.1, h.2, this⟩, if_pos h]
  · rw [if_neg (fun g => h ⟨g.1, g.2.1⟩), if_neg h]

theorem conv_fine {s : Classes} (hs : Fine s) : (conv s).1 ≠ .mem ∧ (conv s).2 ≠ .mem ∧ ((conv s).2 = .sseup → (conv s).1 = .sse) := by
  have key : ∀ a ∈ classes, ∀ b ∈ classes, Fine (a, b) → (conv (a, b)).1 ≠ .mem ∧ (conv (a, b)).2 ≠ .mem ∧ ((conv (a, b)).2 = .sseup → (conv (a, b)).1 = .sse) := by
    decide +kernel
  exact key _ (mem_classes s.1) _ (mem_classes s.2) hs

/-! ### Classes of aligned values of at most two eightbytes -/

theorem one_eight {b off : Nat} (hb : b = 1 ∨ b = 2 ∨ b = 4 ∨ b = 8) (h : off % b = 0) (hl : off < 8) : off + b ≤ 8 := by
  rcases hb with rfl | rfl | rfl | rfl <;> omega

theorem leaf_int {off b : Nat} (hb : b = 1 ∨ b = 2 ∨ b = 4 ∨ b = 8) (h : off % b = 0) :
    setCurrent off (.no, .no) .integer = conv (raw [⟨off, b, .integer⟩]) := by
  unfold setCurrent raw raw leafClass
  by_cases hl : off < 8
  · have := one_eight hb h hl
    rw [if_pos hl]
    simp only
    rw [if_pos hl, if_neg (by omega)]
    rfl
  · rw [if_neg hl]
    simp only
    rw [if_neg hl, if_pos (by omega)]
    rfl

theorem leaf_float {off b : Nat} {k : FKind} (hb : b = 1 ∨ b = 2 ∨ b = 4 ∨ b = 8) (h : off % b = 0) :
    setCurrent off (.no, .no) .sse = conv (raw [⟨off, b, .float k⟩]) := by
  unfold setCurrent raw raw leafClass
  by_cases hl : off < 8
  · have := one_eight hb h hl
    rw [if_pos hl]
    simp only
    rw [if_pos hl, if_neg (by omega)]
    rfl
  · rw [if_neg hl]
    simp only
    rw [if_neg hl, if_pos (by omega)]
    rfl

theorem FKind.sizes (k : FKind) : k.size = 1 ∨ k.size = 2 ∨ k.size = 4 ∨ k.size = 8 := by cases k <;> decide

theorem arrayLoop_good (f : Nat → Option Classes) (g : Nat → List Leaf) (es : Nat) :
    ∀ (n off : Nat) (s R : Classes), Fine s → Fine R → conv s = conv R →
    (∀ i, i < n → f (off + i * es) = some (conv (raw (g (off + i * es))))) →
    ∃ x, arrayLoop f es n off s = some x ∧ Fine x ∧ conv x = conv (joinBoth R (raw ((List.range n).flatMap fun i => g (off + i * es))))
  | 0, off, s, R, hs, hR, he, _ => by
    refine ⟨s, rfl, hs, ?_⟩
    rw [he]
    have key : ∀ a ∈ classes, join a .no = a ∨ a = .mem := by decide
    have h1 := key _ (mem_classes R.1)
    have h2 := key _ (mem_classes R.2)
    show conv R = conv (join R.1 .no, join R.2 .no)
    rw [h1.resolve_right hR.1, h2.resolve_right hR.2.2.1]
  | n + 1, off, s, R, hs, hR, he, hf => by
    have h0 := hf 0 (by omega)
    rw [Nat.zero_mul, Nat.add_zero] at h0
    obtain ⟨x, hx1, hx2, hx3⟩ := round hs hR (fine_raw (g off)) he
    obtain ⟨y, hy1, hy2, hy3⟩ := arrayLoop_good f g es n (off + es) x (joinBoth R (raw (g off))) hx2 (fine_join hR (fine_raw _)) hx3 (by
      intro i hi
      have := hf (i + 1) (by omega)
      rw [show off + (i + 1) * es = off + es + i * es by rw [Nat.add_mul]; omega] at this
      exact this)
    refine ⟨y, ?_, hy2, ?_⟩
    · unfold arrayLoop
      rw [h0]
      show (mergeBoth s (conv (raw (g off)))).bind _ = _
      rw [hx1]
      show (if x.1 = .mem ∨ x.2 = .mem then some x else arrayLoop f es n (off + es) x) = _
      rw [if_neg (fun h => h.elim hx2.1 hx2.2.2.1)]
      exact hy1
    · rw [hy3]
      have e : ((List.range (n + 1)).flatMap fun i => g (off + i * es)) = g off ++ (List.range n).flatMap fun i => g (off + es + i * es) := by
        rw [List.range_succ_eq_map, List.flatMap_cons, List.flatMap_map, Nat.zero_mul, Nat.add_zero]
        congr 2
        funext i
        rw [show off + (i + 1) * es = off + es + i * es by rw [Nat.add_mul]; omega]
      rw [e, raw_append]
      unfold joinBoth
      have f1 := fine_raw (g off)
      have f2 := fine_raw ((List.range n).flatMap fun i => g (off + es + i * es))
      rw [join_assoc _ _ _ hR.1 f1.1 f2.1, join_assoc _ _ _ hR.2.2.1 f1.2.2.1 f2.2.2.1]

mutual
theorem classify_good (avx : Nat) : ∀ (t : Ty) (off : Nat), Valid t → aligned t off → ¬ flexible t → off % align t = 0 →
    off + size t ≤ 16 → classify avx t off = some (conv (raw (leaves t off)))
  | .void, _, h, _, _, _, _ => h.elim
  | .int _ b, off, h, _, _, h3, _ => by
    rw [classify, leaf_int h h3]; rfl
  | .ptr, off, _, _, _, h3, _ => by
    rw [classify, leaf_int (b := 8) (by decide) h3]; rfl
  | .float k, off, _, _, _, h3, _ => by
    rw [classify, leaf_float (b := k.size) (k := k) k.sizes h3]; rfl
  | .i128, off, _, _, _, _, h4 => by
    have : off = 0 := by have : off + 16 ≤ 16 := h4; omega
    subst this; rfl
  | .slice, off, _, _, _, _, h4 => by
    have : off = 0 := by have : off + 16 ≤ 16 := h4; omega
    subst this; rfl
  | .any, off, _, _, _, _, h4 => by
    have : off = 0 := by have : off + 16 ≤ 16 := h4; omega
    subst this; rfl
  | .f128, off, _, _, _, _, h4 => by
    have : off = 0 := by have : off + 16 ≤ 16 := h4; omega
    subst this; rfl
  | .agg u s a fl ms, off, h, h1, h2, h3, h4 => by
    have hs : off + s ≤ 16 := h4
    rw [classify, if_neg (by omega), if_neg (fun g => h2 (Or.inl g))]
    rw [members_good avx u s off 0 ms (.no, .no) (.no, .no) (by decide) (by decide) rfl (by omega) h.2.2.2 h1 (fun g => h2 (Or.inr g))]
    rw [leaves]
    have := raw_append [] (leavesMs ms off)
    rw [List.nil_append] at this
    rw [← show raw [] = (.no, .no) from rfl, ← this]
  | .array e n, off, h, h1, h2, h3, h4 => by
    have hs : off + size e * n ≤ 16 := h4
    have h3' : off % align e = 0 := h3
    rw [classify]
    simp only
    rw [if_neg (by omega), if_neg (by omega), if_neg (by omega)]
    obtain ⟨z1, z2, z3⟩ := valid_size e h.1
    obtain ⟨x, hx1, hx2, hx3⟩ := arrayLoop_good (classify avx e) (leaves e) (size e) n off (.no, .no) (.no, .no) (by decide) (by decide) rfl (by
      intro i hi
      refine classify_good avx e _ h.1 (h1.2 i hi) h2 ?_ ?_
      · rw [Nat.add_mod, h3', Nat.mul_mod, z1, Nat.mul_zero, Nat.zero_mod, Nat.add_zero, Nat.zero_mod]
      · have : (i + 1) * size e ≤ n * size e := Nat.mul_le_mul_right _ hi
        rw [Nat.add_mul, Nat.mul_comm n] at this
        omega)
    rw [hx1]
    show (if (postMerge (size e * n) x).2 ≠ .sseup ∨ (postMerge (size e * n) x).1 = .sse then some (postMerge (size e * n) x) else none) = _
    rw [post_small (by omega) hx2]
    have hc := conv_fine hx2
    rw [if_pos ((Decidable.em ((conv x).2 = .sseup)).elim (fun g => Or.inr (hc.2.2 g)) Or.inl), hx3, leaves]
    have := raw_append [] ((List.range n).flatMap fun i => leaves e (off + i * size e))
    rw [List.nil_append] at this
    rw [← show raw [] = (.no, .no) from rfl, ← this]
theorem members_good (avx : Nat) (u : Bool) (sz base : Nat) : ∀ (free : Nat) (ms : Ms) (s R : Classes), Fine s → Fine R → conv s = conv R →
    base + sz ≤ 16 → ValidMs u sz free ms → alignedMs ms base → ¬ flexibleMs ms →
    classifyMembers avx u sz base ms s = some (conv (joinBoth R (raw (leavesMs ms base))))
  | _, .nil, s, R, hs, hR, he, hsz, _, _, _ => by
    rw [classifyMembers, post_small (by omega) hs, he]
    have key : ∀ a ∈ classes, join a .no = a ∨ a = .mem := by decide
    have h1 := key _ (mem_classes R.1)
    have h2 := key _ (mem_classes R.2)
    show some (conv R) = some (conv (join R.1 .no, join R.2 .no))
    rw [h1.resolve_right hR.1, h2.resolve_right hR.2.2.1]
  | free, .cons o t rest, s, R, hs, hR, he, hsz, hv, ha, hf => by
    obtain ⟨v1, v2, v3, v4⟩ := hv
    obtain ⟨⟨a1, a2⟩, a3⟩ := ha
    rw [classifyMembers, if_neg (by omega), if_neg (by omega), classify_good avx t (base + o) v1 a2 (fun g => hf (Or.inl g)) a1 (by omega)]
    obtain ⟨x, hx1, hx2, hx3⟩ := round hs hR (fine_raw (leaves t (base + o))) he
    show (mergeBoth s (conv (raw (leaves t (base + o))))).bind _ = _
    rw [hx1]
    show (if x.1 = .mem ∨ x.2 = .mem then some (postMerge sz x) else classifyMembers avx u sz base rest x) = _
    rw [if_neg (fun h => h.elim hx2.1 hx2.2.2.1)]
    rw [members_good avx u sz base (o + size t) rest x (joinBoth R (raw (leaves t (base + o)))) hx2 (fine_join hR (fine_raw _)) hx3 hsz v4 a3
      (fun g => hf (Or.inr g))]
    rw [leavesMs, raw_append]
    unfold joinBoth
    have f1 := fine_raw (leaves t (base + o))
    have f2 := fine_raw (leavesMs rest base)
    rw [join_assoc _ _ _ hR.1 f1.1 f2.1, join_assoc _ _ _ hR.2.2.1 f1.2.2.1 f2.2.2.1]
end

/-! ### The classes of a list of numbers -/

def pick2 (p q : Bool) : Class := if p then .integer else if q then .sse else .no

theorem low_eq (L : List Leaf) : low L = pick2 (L.any fun l => decide (l.off < 8) && decide (l.kind = .integer)) (L.any fun l => decide (l.off < 8)) := rfl

theorem low_cons (l : Leaf) (L : List Leaf) (hq : l.kind = .quad → l.off = 0) : low (l :: L) = join (leafClass l).1 (low L) := by
  obtain ⟨o, z, k⟩ := l
  rw [low_eq, low_eq, List.any_cons, List.any_cons]
  generalize (L.any fun l => decide (l.off < 8) && decide (l.kind = .integer)) = p
  generalize (L.any fun l => decide (l.off < 8)) = q
  unfold leafClass pick2
  by_cases h : o < 8
  · cases k <;> cases p <;> cases q <;> simp [h] <;> rfl
  · cases k with
    | quad => exact absurd (hq rfl) (by show o ≠ 0; omega)
    | _ => cases p <;> cases q <;> simp [h] <;> rfl

theorem low_raw : ∀ L : List Leaf, (∀ l ∈ L, l.kind = .quad → l.off = 0) → low L = (raw L).1
  | [], _ => rfl
  | l :: L, h => by
    rw [low_cons l L (h l List.mem_cons_self), low_raw L (fun x hx => h x (List.mem_cons_of_mem _ hx))]
    rfl

/-- The second class before the last step. -/
def high0 (L : List Leaf) : Class :=
  if L.any fun l => decide (8 < l.off + l.size) && decide (l.kind = .integer) then .integer
  else if L.any fun l => decide (8 < l.off + l.size) && decide (l.kind ≠ .quad) then .sse
  else if L.any fun l => decide (8 < l.off + l.size) then .sseup
  else .no

def pick3 (p q r : Bool) : Class := if p then .integer else if q then .sse else if r then .sseup else .no

theorem high0_eq (L : List Leaf) : high0 L = pick3 (L.any fun l => decide (8 < l.off + l.size) && decide (l.kind = .integer))
    (L.any fun l => decide (8 < l.off + l.size) && decide (l.kind ≠ .quad)) (L.any fun l => decide (8 < l.off + l.size)) := rfl

theorem high0_cons (l : Leaf) (L : List Leaf) (hq : l.kind = .quad → 8 < l.off + l.size) : high0 (l :: L) = join (leafClass l).2 (high0 L) := by
  obtain ⟨o, z, k⟩ := l
  rw [high0_eq, high0_eq, List.any_cons, List.any_cons, List.any_cons]
  generalize (L.any fun l => decide (8 < l.off + l.size) && decide (l.kind = .integer)) = p
  generalize (L.any fun l => decide (8 < l.off + l.size) && decide (l.kind ≠ .quad)) = r
  generalize (L.any fun l => decide (8 < l.off + l.size)) = q
  unfold leafClass pick3
  by_cases h : 8 < o + z
  · cases k <;> cases p <;> cases q <;> cases r <;> simp [h] <;> rfl
  · cases k with
    | quad => exact absurd (hq rfl) h
    | _ => cases p <;> cases q <;> cases r <;> simp [h] <;> rfl

theorem high0_raw : ∀ L : List Leaf, (∀ l ∈ L, l.kind = .quad → 8 < l.off + l.size) → high0 L = (raw L).2
  | [], _ => rfl
  | l :: L, h => by
    rw [high0_cons l L (h l List.mem_cons_self), high0_raw L (fun x hx => h x (List.mem_cons_of_mem _ hx))]
    rfl

theorem std_raw (L : List Leaf) (h : ∀ l ∈ L, l.kind = .quad → l.off = 0 ∧ l.size = 16) : conv (raw L) = (low L, high L) := by
  have h1 := low_raw L (fun l hl hk => (h l hl hk).1)
  have h2 := high0_raw L (fun l hl hk => by have := h l hl hk; omega)
  have e : high L = if high0 L = .sseup then if low L = .sse then .sseup else .sse else high0 L := by
    unfold high high0
    repeat' split
    all_goals first | rfl | contradiction
  rw [e, h1, h2]
  unfold conv
  by_cases g : (raw L).2 = .sseup
  · by_cases g2 : (raw L).1 = .sse
    · rw [if_neg (fun x => x.2 g2), if_pos g, if_pos g2, ← g]
    · rw [if_pos ⟨g, g2⟩, if_pos g, if_neg g2]
  · rw [if_neg (fun x => g x.1), if_neg g]

mutual
theorem quad_size : ∀ (t : Ty) (a : Nat), ∀ l ∈ leaves t a, l.kind = .quad → l.size = 16
  | .void, _ => by simp [leaves]
  | .int _ _, _ => by simp [leaves]
  | .ptr, _ => by simp [leaves]
  | .i128, _ => by simp [leaves]
  | .float _, _ => by simp [leaves]
  | .f128, _ => by simp [leaves]
  | .slice, _ => by simp [leaves]
  | .any, _ => by simp [leaves]
  | .agg _ _ _ _ ms, a => by rw [leaves]; exact quadMs_size ms a
  | .array e n, a => by
    intro l hl
    rw [leaves, List.mem_flatMap] at hl
    obtain ⟨i, -, hl⟩ := hl
    exact quad_size e _ l hl
theorem quadMs_size : ∀ (ms : Ms) (a : Nat), ∀ l ∈ leavesMs ms a, l.kind = .quad → l.size = 16
  | .nil, _ => by simp [leavesMs]
  | .cons o t rest, a => by
    intro l hl
    rw [leavesMs, List.mem_append] at hl
    rcases hl with hl | hl
    · exact quad_size t _ l hl
    · exact quadMs_size rest a l hl
end

/-- The classes of a value that is not passed in memory. -/
theorem classify_std (avx : Nat) (t : Ty) (hv : Valid t) (hm : ¬ memory t) :
    classify avx t 0 = some (low (leaves t 0), high (leaves t 0)) := by
  unfold memory at hm
  have h1 : size t ≤ 16 := Nat.le_of_not_lt fun h => hm (Or.inl h)
  have h2 : ¬ flexible t := fun h => hm (Or.inr (Or.inl h))
  have h3 : aligned t 0 := Classical.byContradiction fun h => hm (Or.inr (Or.inr h))
  rw [classify_good avx t 0 hv h3 h2 (Nat.zero_mod _) (by omega), std_raw]
  intro l hl hk
  have := leaf_bounds t 0 hv l hl
  have := quad_size t 0 l hl hk
  omega

end C3.Abi
