import Verif.Tables.Spec
import Mathlib.Data.Nat.Find
import Mathlib.Tactic.Push

/-! # Open addressing: the theory shared by `STable` and `DeclTable` -/

set_option autoImplicit false

namespace C3.Tables

variable {V : Type}

/-- A cell: free, or holding a key and a value. -/
abbrev Cell (V : Type) := Option (Ptr × V)

/-- Probing invariant for `cap` cells and a home position for each key. -/
structure WF (cap : Nat) (home : Ptr → Nat) (cells : List (Cell V)) : Prop where
  len : cells.length = cap
  homeLt : ∀ k, home k < cap
  uniq : ∀ (i j : Nat) k v w, cells[i]? = some (some (k, v)) → cells[j]? = some (some (k, w)) → i = j
  path : ∀ (i : Nat) k v, cells[i]? = some (some (k, v)) →
    ∀ d, d < (i + cap - home k) % cap → ∃ c, cells[(home k + d) % cap]? = some (some c)

/-- Where a search for `k` ends: after `d` steps over other keys. -/
structure Stops (cap : Nat) (home : Ptr → Nat) (cells : List (Cell V)) (k : Ptr) (d : Nat) : Prop where
  lt : d < cap
  before : ∀ e, e < d → ∃ k' v, cells[(home k + e) % cap]? = some (some (k', v)) ∧ k' ≠ k
  stop : (cells[(home k + d) % cap]? = some none ∧ ∀ v, some (k, v) ∉ cells) ∨
    ∃ v, cells[(home k + d) % cap]? = some (some (k, v))

theorem dist_eq (cap h i : Nat) (hh : h < cap) (hi : i < cap) : (h + (i + cap - h) % cap) % cap = i := by
  by_cases hle : h ≤ i
  · rw [show i + cap - h = (i - h) + cap by omega, Nat.add_mod_right, Nat.mod_eq_of_lt (show i - h < cap by omega),
      Nat.mod_eq_of_lt (by omega)]
    omega
  · rw [Nat.mod_eq_of_lt (show i + cap - h < cap by omega), show h + (i + cap - h) = i + cap by omega, Nat.add_mod_right,
      Nat.mod_eq_of_lt hi]

theorem exists_stop (cap : Nat) (home : Ptr → Nat) (cells : List (Cell V)) (k : Ptr) (h : WF cap home cells)
    (hfree : none ∈ cells) : ∃ d, Stops cap home cells k d := by
  classical
  have hcap : 0 < cap := by have := h.homeLt k; omega
  obtain ⟨j, hj, hjn⟩ := List.getElem_of_mem hfree
  rw [h.len] at hj
  have hex : ∃ d, ¬ ∃ k' v, cells[(home k + d) % cap]? = some (some (k', v)) ∧ k' ≠ k := by
    refine ⟨(j + cap - home k) % cap, ?_⟩
    rw [dist_eq cap _ _ (h.homeLt k) hj, List.getElem?_eq_getElem (by rw [h.len]; exact hj), hjn]
    simp
  obtain ⟨D, hs, hmin, hbefore⟩ : ∃ D, (¬ ∃ k' v, cells[(home k + D) % cap]? = some (some (k', v)) ∧ k' ≠ k) ∧ D < cap ∧
      ∀ e, e < D → ∃ k' v, cells[(home k + e) % cap]? = some (some (k', v)) ∧ k' ≠ k := by
    refine ⟨Nat.find hex, Nat.find_spec hex, ?_, fun e he => not_not.1 (Nat.find_min hex he)⟩
    refine Nat.lt_of_le_of_lt (Nat.find_min' hex (m := (j + cap - home k) % cap) ?_) (Nat.mod_lt _ hcap)
    rw [dist_eq cap _ _ (h.homeLt k) hj, List.getElem?_eq_getElem (by rw [h.len]; exact hj), hjn]
    simp
  refine ⟨D, hmin, hbefore, ?_⟩
  have hidx : (home k + D) % cap < cells.length := by rw [h.len]; exact Nat.mod_lt _ hcap
  cases hc : cells[(home k + D) % cap]? with
  | none => rw [List.getElem?_eq_none_iff] at hc; omega
  | some c =>
  rw [hc] at hs
  cases c with
  | some kv =>
    obtain ⟨k', v⟩ := kv
    right
    refine ⟨v, ?_⟩
    by_contra hne
    apply hs
    refine ⟨k', v, rfl, ?_⟩
    rintro rfl
    exact hne rfl
  | none =>
    left
    refine ⟨rfl, ?_⟩
    intro v hm
    obtain ⟨i, hi, hin⟩ := List.getElem_of_mem hm
    have hi' : cells[i]? = some (some (k, v)) := by rw [List.getElem?_eq_getElem hi, hin]
    rw [h.len] at hi
    have hp := h.path i k v hi'
    have hge : (i + cap - home k) % cap ≤ D := by
      by_contra hlt
      obtain ⟨c, hcc⟩ := hp D (by omega)
      rw [hc] at hcc
      simp at hcc
    rcases Nat.lt_or_eq_of_le hge with hlt | heq
    · obtain ⟨k', v', g1, g2⟩ := hbefore _ hlt
      rw [dist_eq cap _ _ (h.homeLt k) hi, hi'] at g1
      simp at g1
      exact g2 g1.1.symm
    · have := dist_eq cap _ _ (h.homeLt k) hi
      rw [heq] at this
      rw [this, hi'] at hc
      simp at hc

/-- Filling the free cell where the search for a new key ends. -/
theorem WF.insert {cap : Nat} {home : Ptr → Nat} {cells : List (Cell V)} (h : WF cap home cells) {k : Ptr} {d : Nat}
    (hs : Stops cap home cells k d) (hfree : cells[(home k + d) % cap]? = some none) (habs : ∀ v, some (k, v) ∉ cells)
    (v : V) : WF cap home (cells.set ((home k + d) % cap) (some (k, v))) := by
  have hl : (home k + d) % cap < cells.length := (List.getElem?_eq_some_iff.1 hfree).1
  have hat : ∀ (i : Nat) k' w, (cells.set ((home k + d) % cap) (some (k, v)))[i]? = some (some (k', w)) →
      (i = (home k + d) % cap ∧ k' = k) ∨ (i ≠ (home k + d) % cap ∧ cells[i]? = some (some (k', w)) ∧ k' ≠ k) := by
    intro i k' w hi
    by_cases hii : i = (home k + d) % cap
    · subst hii
      rw [List.getElem?_set_self hl] at hi
      simp at hi
      exact Or.inl ⟨rfl, hi.1.symm⟩
    · rw [List.getElem?_set_ne (Ne.symm hii)] at hi
      refine Or.inr ⟨hii, hi, ?_⟩
      rintro rfl
      exact habs w (List.mem_of_getElem? hi)
  have hgrow : ∀ (i : Nat) c, cells[i]? = some (some c) → ∃ c', (cells.set ((home k + d) % cap) (some (k, v)))[i]? = some (some c') := by
    intro i c hi
    by_cases hii : i = (home k + d) % cap
    · subst hii
      exact ⟨_, List.getElem?_set_self hl⟩
    · exact ⟨c, by rw [List.getElem?_set_ne (Ne.symm hii), hi]⟩
  constructor
  · simpa using h.len
  · exact h.homeLt
  · intro i j k' a b hi hj
    rcases hat i k' a hi with ⟨e1, e2⟩ | ⟨e1, e2, e3⟩ <;> rcases hat j k' b hj with ⟨f1, f2⟩ | ⟨f1, f2, f3⟩
    · rw [e1, f1]
    · exact absurd e2 f3
    · exact absurd f2 e3
    · exact h.uniq i j k' a b e2 f2
  · intro i k' a hi e he
    rcases hat i k' a hi with ⟨e1, e2⟩ | ⟨e1, e2, e3⟩
    · subst e2
      have hdd : (i + cap - home k') % cap = d := by
        rw [e1]
        have hh := h.homeLt k'
        have hd := hs.lt
        by_cases hlt : home k' + d < cap
        · rw [Nat.mod_eq_of_lt hlt, show home k' + d + cap - home k' = d + cap by omega, Nat.add_mod_right,
            Nat.mod_eq_of_lt hd]
        · have : (home k' + d) % cap = home k' + d - cap := by
            rw [Nat.mod_eq_sub_mod (by omega), Nat.mod_eq_of_lt (by omega)]
          rw [this, show home k' + d - cap + cap - home k' = d by omega, Nat.mod_eq_of_lt hd]
      rw [hdd] at he
      obtain ⟨k2, v2, g1, -⟩ := hs.before e he
      exact hgrow _ _ g1
    · obtain ⟨c, hc⟩ := h.path i k' a e2 e he
      exact hgrow _ _ hc

/-- Replacing the value of a key. -/
theorem WF.replace {cap : Nat} {home : Ptr → Nat} {cells : List (Cell V)} (h : WF cap home cells) {k : Ptr} {i : Nat} {v : V}
    (hi : cells[i]? = some (some (k, v))) (w : V) : WF cap home (cells.set i (some (k, w))) := by
  have hl := (List.getElem?_eq_some_iff.1 hi).1
  have hat : ∀ (j : Nat) k' x, (cells.set i (some (k, w)))[j]? = some (some (k', x)) → ∃ y, cells[j]? = some (some (k', y)) := by
    intro j k' x hj
    by_cases hij : i = j
    · subst hij
      rw [List.getElem?_set_self hl] at hj
      simp at hj
      exact ⟨v, by rw [hi, hj.1]⟩
    · rw [List.getElem?_set_ne hij] at hj
      exact ⟨x, hj⟩
  constructor
  · simpa using h.len
  · exact h.homeLt
  · intro a b k' x y ha hb
    obtain ⟨x', ha'⟩ := hat _ _ _ ha
    obtain ⟨y', hb'⟩ := hat _ _ _ hb
    exact h.uniq a b k' x' y' ha' hb'
  · intro a k' x ha e he
    obtain ⟨x', ha'⟩ := hat _ _ _ ha
    obtain ⟨c, hc⟩ := h.path a k' x' ha' e he
    by_cases hij : i = (home k' + e) % cap
    · rw [← hij]; exact ⟨_, List.getElem?_set_self hl⟩
    · exact ⟨c, by rw [List.getElem?_set_ne hij, hc]⟩

theorem wf_empty (cap : Nat) (home : Ptr → Nat) (hh : ∀ k, home k < cap) :
    WF cap home (List.replicate cap (none : Cell V)) := by
  constructor
  · simp
  · exact hh
  · intro i j k v w hi
    rw [List.getElem?_replicate] at hi
    split at hi <;> simp at hi
  · intro i k v hi
    rw [List.getElem?_replicate] at hi
    split at hi <;> simp at hi

/-- A key is held at most once. -/
theorem WF.func {cap : Nat} {home : Ptr → Nat} {cells : List (Cell V)} (h : WF cap home cells) {k : Ptr} {v w : V}
    (hv : some (k, v) ∈ cells) (hw : some (k, w) ∈ cells) : v = w := by
  obtain ⟨i, hi, hin⟩ := List.getElem_of_mem hv
  obtain ⟨j, hj, hjn⟩ := List.getElem_of_mem hw
  have hi' : cells[i]? = some (some (k, v)) := by rw [List.getElem?_eq_getElem hi, hin]
  have hj' : cells[j]? = some (some (k, w)) := by rw [List.getElem?_eq_getElem hj, hjn]
  have := h.uniq i j k v w hi' hj'
  subst this
  rw [hi'] at hj'
  simpa using hj'

/-- The cells after filling a free cell. -/
theorem mem_fill (cells : List (Cell V)) (i : Nat) (c : Ptr × V) (h : cells[i]? = some none) (x : Ptr × V) :
    some x ∈ cells.set i (some c) ↔ x = c ∨ some x ∈ cells := by
  have hl := (List.getElem?_eq_some_iff.1 h).1
  constructor
  · intro hm
    obtain ⟨j, hj, hjn⟩ := List.getElem_of_mem hm
    by_cases hij : i = j
    · subst hij
      rw [List.getElem_set_self] at hjn
      exact Or.inl (by simpa using hjn.symm)
    · rw [List.getElem_set_ne hij] at hjn
      exact Or.inr (hjn ▸ List.getElem_mem _)
  · rintro (rfl | hm)
    · exact List.mem_set hl _
    · obtain ⟨j, hj, hjn⟩ := List.getElem_of_mem hm
      have hij : i ≠ j := by
        rintro rfl
        rw [List.getElem?_eq_getElem hl, hjn] at h
        simp at h
      have : (cells.set i (some c))[j]? = some (some x) := by
        rw [List.getElem?_set_ne hij, List.getElem?_eq_getElem hj, hjn]
      exact List.mem_of_getElem? this

/-- The cells after replacing the value of a key. -/
theorem WF.mem_replace {cap : Nat} {home : Ptr → Nat} {cells : List (Cell V)} (h : WF cap home cells) {k : Ptr} {i : Nat} {v : V}
    (hi : cells[i]? = some (some (k, v))) (w : V) (x : Ptr × V) :
    some x ∈ cells.set i (some (k, w)) ↔ x = (k, w) ∨ (x.1 ≠ k ∧ some x ∈ cells) := by
  have hl := (List.getElem?_eq_some_iff.1 hi).1
  constructor
  · intro hm
    obtain ⟨j, hj, hjn⟩ := List.getElem_of_mem hm
    by_cases hij : i = j
    · subst hij
      rw [List.getElem_set_self] at hjn
      exact Or.inl (by simpa using hjn.symm)
    · rw [List.getElem_set_ne hij] at hjn
      refine Or.inr ⟨?_, hjn ▸ List.getElem_mem _⟩
      intro hx
      have hj2 : j < cells.length := by simpa using hj
      have : cells[j]? = some (some (k, x.2)) := by rw [List.getElem?_eq_getElem hj2, hjn, ← hx]
      exact hij (h.uniq i j k v x.2 hi this)
  · rintro (rfl | ⟨hx, hm⟩)
    · exact List.mem_set hl _
    · obtain ⟨j, hj, hjn⟩ := List.getElem_of_mem hm
      have hij : i ≠ j := by
        rintro rfl
        rw [List.getElem?_eq_getElem hl, hjn] at hi
        simp at hi
        exact hx (by rw [hi])
      have : (cells.set i (some (k, w)))[j]? = some (some x) := by
        rw [List.getElem?_set_ne hij, List.getElem?_eq_getElem hj, hjn]
      exact List.mem_of_getElem? this

/-- How many cells are in use. -/
def used (cells : List (Cell V)) : Nat := cells.countP Option.isSome

theorem free_of_used_lt (cells : List (Cell V)) (h : used cells < cells.length) : none ∈ cells := by
  by_contra hn
  have : used cells = cells.length := by
    rw [used, List.countP_eq_length]
    intro c hc
    cases c with
    | none => exact absurd hc hn
    | some _ => rfl
  omega

theorem used_fill (cells : List (Cell V)) (i : Nat) (c : Ptr × V) (h : cells[i]? = some none) :
    used (cells.set i (some c)) = used cells + 1 := by
  have hl := (List.getElem?_eq_some_iff.1 h)
  unfold used
  rw [List.countP_set hl.1, hl.2]
  simp

theorem used_replace (cells : List (Cell V)) (i : Nat) (c d : Ptr × V) (h : cells[i]? = some (some c)) :
    used (cells.set i (some d)) = used cells := by
  have hl := (List.getElem?_eq_some_iff.1 h)
  have hm : some c ∈ cells := List.mem_of_getElem? h
  have : 0 < used cells := List.countP_pos_iff.2 ⟨_, hm, rfl⟩
  unfold used at this ⊢
  rw [List.countP_set hl.1, hl.2]
  simp
  omega

/-! ## Indices -/

/-- The capacity is `2 ^ n` cells. -/
theorem mask_toNat (c : BitVec 32) (n : Nat) (hc : c.toNat = 2 ^ n) : (c - 1#32).toNat = 2 ^ n - 1 := by
  have := Nat.two_pow_pos n
  rw [BitVec.toNat_sub_of_le (by rw [BitVec.le_def, hc]; exact this), hc]
  rfl

theorem next_toNat (c i : BitVec 32) (n : Nat) (hc : c.toNat = 2 ^ n) (hn : n ≤ 31) :
    ((i + 1#32) &&& (c - 1#32)).toNat = (i.toNat + 1) % 2 ^ n := by
  rw [BitVec.toNat_and, mask_toNat c n hc, Nat.and_two_pow_sub_one_eq_mod, BitVec.toNat_add]
  rw [show (1#32).toNat = 1 from rfl, Nat.mod_mod_of_dvd _ (Nat.pow_dvd_pow 2 (by omega))]

theorem first_lt (c : BitVec 32) (n : Nat) (hc : c.toNat = 2 ^ n) (k : Ptr) :
    (firstIndex k (c - 1#32)).toNat < 2 ^ n := by
  unfold firstIndex
  have := Nat.two_pow_pos n
  rw [BitVec.toNat_and, mask_toNat c n hc, Nat.and_two_pow_sub_one_eq_mod]
  exact Nat.mod_lt _ this

/-- Home positions for a capacity. -/
def homeOf (c : BitVec 32) (k : Ptr) : Nat := (firstIndex k (c - 1#32)).toNat

end C3.Tables
