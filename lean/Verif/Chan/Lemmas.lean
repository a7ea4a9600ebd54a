import Verif.Chan.Spec
import Mathlib.Data.Nat.ModEq

set_option autoImplicit false

namespace C3.Chan

variable {V : Type}

/-! ## Kinds of places, to count them -/

def kPopSleep : Pc V → Bool | .popSleep => true | _ => false
def kPopWoken : Pc V → Bool | .popWoken => true | _ => false
def kPopIn : Pc V → Bool | .popIn => true | _ => false
def kPushSleep : Pc V → Bool | .pushSleep _ => true | _ => false
def kPushWoken : Pc V → Bool | .pushWoken _ => true | _ => false
def kPushIn : Pc V → Bool | .pushIn _ => true | _ => false
def kIn : Pc V → Bool | .popIn => true | .pushIn _ => true | .closeIn => true | _ => false

theorem countP_set_eq (k : Pc V → Bool) : ∀ (l : List (Pc V)) (i : Nat) (a p : Pc V), l[i]? = some p →
    (l.set i a).countP k + (if k p then 1 else 0) = l.countP k + (if k a then 1 else 0) := by
  intro l
  induction l with
  | nil => intro i a p h; simp at h
  | cons x l ih =>
    intro i a p h
    cases i with
    | zero =>
      simp only [List.getElem?_cons_zero, Option.some.injEq] at h
      subst h
      simp only [List.set_cons_zero, List.countP_cons]
      omega
    | succ i =>
      simp only [List.getElem?_cons_succ] at h
      have := ih i a p h
      simp only [List.set_cons_succ, List.countP_cons]
      omega

theorem countP_pos_mem (k : Pc V → Bool) (l : List (Pc V)) (h : 0 < l.countP k) : ∃ p ∈ l, k p = true := by
  rcases List.countP_pos_iff.1 h with ⟨p, hp, hk⟩
  exact ⟨p, hp, hk⟩

theorem countP_zero_of (k : Pc V → Bool) (l : List (Pc V)) (h : ∀ p ∈ l, k p = false) : l.countP k = 0 := by
  rw [List.countP_eq_zero]
  intro p hp
  simp [h p hp]

/-- The counters and who sleeps. -/
structure Wait (c : Chan V) (ps : List (Pc V)) : Prop where
  readW : c.readWaiting = ps.countP kPopSleep + ps.countP kPopWoken
  sendW : c.sendWaiting = ps.countP kPushSleep + ps.countP kPushWoken
  readers : 0 < ps.countP kPopSleep → c.elems ≤ ps.countP kPopWoken + ps.countP kPopIn
  senders : 0 < ps.countP kPushSleep → c.size - c.elems ≤ ps.countP kPushWoken + ps.countP kPushIn
  open' : c.closed = true → ps.countP kPopSleep = 0 ∧ ps.countP kPushSleep = 0

/-- The mutex. -/
structure Mutex (mu : Option Nat) (ps : List (Pc V)) : Prop where
  held : ∀ t, mu = some t → ∃ p, ps[t]? = some p ∧ kIn p = true
  count : ps.countP kIn = if mu.isSome then 1 else 0

/-- The buffer holds the queue `q`. -/
structure Holds (c : Chan V) (q : List V) : Prop where
  len : c.buf.length = c.size
  elems : c.elems = q.length
  room : q.length ≤ c.size
  readx : 0 < c.size → c.readx < c.size
  sendx : 0 < c.size → c.sendx = (c.readx + q.length) % c.size
  vals : ∀ k, k < q.length → c.buf[(c.readx + k) % c.size]? = q[k]?

theorem holds_init (size : Nat) (v : V) : Holds (init size v) [] :=
  ⟨by simp [init], rfl, by simp, fun h => h, fun _ => by simp [init], fun k hk => by simp at hk⟩

theorem holds_congr {c c' : Chan V} {q : List V} (h : Holds c q) (h1 : c'.buf = c.buf) (h2 : c'.size = c.size)
    (h3 : c'.elems = c.elems) (h4 : c'.readx = c.readx) (h5 : c'.sendx = c.sendx) : Holds c' q :=
  ⟨by rw [h1, h2]; exact h.len, by rw [h3]; exact h.elems, by rw [h2]; exact h.room,
   by rw [h2, h4]; exact h.readx, by rw [h2, h4, h5]; exact h.sendx,
   by rw [h1, h2, h4]; exact h.vals⟩

theorem mod_wrap (x n : Nat) (h : x < n) : (if (x + 1 == n) = true then 0 else x + 1) = (x + 1) % n := by
  by_cases h1 : x + 1 = n
  · simp [h1]
  · rw [if_neg (by simpa using h1), Nat.mod_eq_of_lt (by omega)]

theorem mod_inj (a b c n : Nat) (hn : 0 < n) (hb : b < n) (hc : c < n) (h : (a + b) % n = (a + c) % n) : b = c := by
  have h1 := Nat.ModEq.add_left_cancel' (n := n) a (show (a + b) ≡ (a + c) [MOD n] from h)
  have h2 : b % n = c % n := h1
  rw [Nat.mod_eq_of_lt hb, Nat.mod_eq_of_lt hc] at h2
  exact h2

theorem holds_push {c : Chan V} {q : List V} (v : V) (h : Holds c q) (hr : q.length < c.size) :
    c.sendx < c.buf.length ∧
    Holds { c with buf := c.buf.set c.sendx v,
                   sendx := if c.sendx + 1 == c.size then 0 else c.sendx + 1,
                   elems := c.elems + 1 } (q ++ [v]) := by
  have hs : 0 < c.size := by omega
  have hsx := h.sendx hs
  have hlt : c.sendx < c.size := by rw [hsx]; exact Nat.mod_lt _ hs
  refine ⟨by rw [h.len]; exact hlt, ?_, ?_, ?_, ?_, ?_, ?_⟩
  · simp [h.len]
  · simp [h.elems]
  · simp; omega
  · exact h.readx
  · intro _
    show (if (c.sendx + 1 == c.size) = true then 0 else c.sendx + 1) = _
    rw [mod_wrap _ _ hlt, hsx, List.length_append, List.length_singleton, Nat.mod_add_mod]
    rfl
  · intro k hk
    rw [List.length_append, List.length_singleton] at hk
    show (c.buf.set c.sendx v)[(c.readx + k) % c.size]? = _
    by_cases hkq : k = q.length
    · subst hkq
      rw [← hsx, List.getElem?_set_self (by rw [h.len]; exact hlt)]
      simp
    · have hkl : k < q.length := by omega
      rw [List.getElem?_set_ne, h.vals k hkl, List.getElem?_append_left hkl]
      intro he
      rw [hsx] at he
      have := mod_inj _ _ _ _ hs hr (by omega) he
      omega

theorem holds_pop {c : Chan V} {v : V} {q : List V} (h : Holds c (v :: q)) :
    c.buf[c.readx]? = some v ∧
    Holds { c with readx := if c.readx + 1 == c.size then 0 else c.readx + 1,
                   elems := c.elems - 1 } q := by
  have hroom := h.room
  rw [List.length_cons] at hroom
  have hs : 0 < c.size := by omega
  have hrx := h.readx hs
  have h0 := h.vals 0 (by simp)
  rw [Nat.add_zero, Nat.mod_eq_of_lt hrx] at h0
  refine ⟨by simpa using h0, h.len, ?_, by show q.length ≤ c.size; omega, ?_, ?_, ?_⟩
  · show c.elems - 1 = _
    rw [h.elems]; simp
  · intro _
    show (if (c.readx + 1 == c.size) = true then 0 else c.readx + 1) < c.size
    rw [mod_wrap _ _ hrx]
    exact Nat.mod_lt _ hs
  · intro _
    show c.sendx = ((if (c.readx + 1 == c.size) = true then 0 else c.readx + 1) + q.length) % c.size
    rw [mod_wrap _ _ hrx, h.sendx hs, Nat.mod_add_mod, List.length_cons]
    congr 1; omega
  · intro k hk
    show c.buf[((if (c.readx + 1 == c.size) = true then 0 else c.readx + 1) + k) % c.size]? = _
    rw [mod_wrap _ _ hrx, Nat.mod_add_mod]
    have := h.vals (k + 1) (by simpa using hk)
    rw [List.getElem?_cons_succ] at this
    rw [← this]
    congr 2; omega

/-! ## What the bodies do -/

theorem pushBody_cases {c : Chan V} {q : List V} (v : V) (h : Holds c q) :
    (q.length = c.size ∧ c.closed = false ∧
      pushBody c v = some ({ c with sendWaiting := c.sendWaiting + 1 }, .wait)) ∨
    (c.closed = true ∧ pushBody c v = some (c, .closed)) ∨
    (c.closed = false ∧ q.length < c.size ∧ ∃ c', pushBody c v = some (c', .done () (decide (c.readWaiting > 0))) ∧
      Holds c' (q ++ [v]) ∧ c'.size = c.size ∧ c'.elems = c.elems + 1 ∧ c'.closed = c.closed ∧
      c'.readWaiting = c.readWaiting ∧ c'.sendWaiting = c.sendWaiting) := by
  unfold pushBody
  cases hc : c.closed with
  | true => right; left; exact ⟨rfl, by simp⟩
  | false =>
    by_cases he : c.elems = c.size
    · left
      exact ⟨by rw [← h.elems]; exact he, rfl, by simp [he]⟩
    · right; right
      have hr : q.length < c.size := by
        have := h.room; have := h.elems; omega
      obtain ⟨h1, h2⟩ := holds_push v h hr
      refine ⟨rfl, hr, _, ?_, h2, rfl, rfl, hc, rfl, rfl⟩
      rw [if_neg (by simp [he]), if_neg (by simp), if_pos h1, hc]

theorem popBody_cases {c : Chan V} {q : List V} (h : Holds c q) :
    (q = [] ∧ c.closed = false ∧
      popBody c = some ({ c with readWaiting := c.readWaiting + 1 }, .wait)) ∨
    (q = [] ∧ c.closed = true ∧ popBody c = some (c, .closed)) ∨
    (∃ v q' c', q = v :: q' ∧ popBody c = some (c', .done v (decide (c.sendWaiting > 0))) ∧
      Holds c' q' ∧ c'.size = c.size ∧ c'.elems + 1 = c.elems ∧ c'.closed = c.closed ∧
      c'.readWaiting = c.readWaiting ∧ c'.sendWaiting = c.sendWaiting) := by
  unfold popBody
  cases q with
  | nil =>
    have he : c.elems = 0 := h.elems
    cases hc : c.closed with
    | true => right; left; exact ⟨rfl, rfl, by simp [he]⟩
    | false => left; exact ⟨rfl, rfl, by simp [he]⟩
  | cons v q =>
    right; right
    have he : c.elems = q.length + 1 := by rw [h.elems]; simp
    obtain ⟨h1, h2⟩ := holds_pop h
    refine ⟨v, q, _, rfl, ?_, h2, rfl, ?_, rfl, rfl, rfl⟩
    · rw [if_neg (by simp [he]), if_neg (by simp [he])]
      simp only [h1]
    · show c.elems - 1 + 1 = c.elems
      omega

end C3.Chan
