import Verif.ConstInit.Model
import Verif.ConstInit.Spec

/-! # Trees in the heap, and stores into contents -/

set_option autoImplicit false

namespace C3.ConstInit

variable {α : Type} {fl : Bool}

/-- The content of a whole, by its parts. -/
def node (M : Nat → Content α) : Content α
  | [] => none
  | i :: q => M i q

/-- The cells of a tree, by those of its parts. -/
def fp (a : Nat) (F : Nat → Nat → Prop) (D : Nat → Prop) : Nat → Prop := fun x => x = a ∨ ∃ i, D i ∧ F i x

/-- The parts are apart from each other and from the root. -/
structure Sep (a : Nat) (F : Nat → Nat → Prop) (D : Nat → Prop) : Prop where
  root : ∀ i, D i → ¬ F i a
  parts : ∀ i j x, D i → D j → F i x → F j x → i = j

/-- The cell `a` is the root of a tree of type `t` with content `m`, whose cells are `F`; no cell is in it twice.  `fl`: it may have
`CONST_INIT_ARRAY_FULL` cells. -/
inductive Own (fl : Bool) (h : Heap α) : Ty → Nat → Content α → (Nat → Prop) → Prop
  | zero {t : Ty} {a : Nat} (ha : h[a]? = some (t, .zero)) : Own fl h t a zeros (· = a)
  | value {a : Nat} {x : Option α} (ha : h[a]? = some (.scalar, .value x)) : Own fl h .scalar a (fun q => if q = [] then x else none) (· = a)
  | struct {ms : List Ty} {els : List Nat} {a : Nat} {M : Nat → Content α} {F : Nat → Nat → Prop}
      (ha : h[a]? = some (.struct ms, .struct els)) (hl : els.length = ms.length)
      (kids : ∀ i t e, ms[i]? = some t → els[i]? = some e → Own fl h t e (M i) (F i))
      (sep : Sep a F (· < ms.length)) (out : ∀ i, ms.length ≤ i → M i = zeros) : Own fl h (.struct ms) a (node M) (fp a F (· < ms.length))
  | union {ms : List Ty} {e j a : Nat} {t : Ty} {m : Content α} {F : Nat → Prop}
      (ha : h[a]? = some (.union ms, .union e j)) (ht : ms[j]? = some t) (kid : Own fl h t e m F) (sep : ¬ F a) :
      Own fl h (.union ms) a (node fun i => if i = j then m else zeros) (fun x => x = a ∨ F x)
  | full (hfl : fl = true) {len : Nat} {base : Ty} {els : List Nat} {a : Nat} {M : Nat → Content α} {F : Nat → Nat → Prop}
      (ha : h[a]? = some (.array len base, .arrayFull els)) (hl : els.length = len)
      (kids : ∀ i e, els[i]? = some e → Own fl h base e (M i) (F i))
      (sep : Sep a F (· < len)) (out : ∀ i, len ≤ i → M i = zeros) : Own fl h (.array len base) a (node M) (fp a F (· < len))
  | array {len : Nat} {base : Ty} {L : List Nat} {C E : Nat → Nat} {T : Nat → Ty} {a : Nat} {M : Nat → Content α} {F : Nat → Nat → Prop}
      (ha : h[a]? = some (.array len base, .array (L.map C))) (sorted : L.Pairwise (· < ·))
      (cells : ∀ i, i ∈ L → h[C i]? = some (T i, .arrayValue (E i) i) ∧ ¬ F i (C i) ∧ i < len)
      (kids : ∀ i, i ∈ L → Own fl h base (E i) (M i) (F i))
      (sep : Sep a (fun i x => x = C i ∨ F i x) (· ∈ L)) (out : ∀ i, i ∉ L → M i = zeros) :
      Own fl h (.array len base) a (node M) (fp a (fun i x => x = C i ∨ F i x) (· ∈ L))

theorem Own.frame {h h' : Heap α} {t : Ty} {a : Nat} {m : Content α} {F : Nat → Prop} (o : Own fl h t a m F)
    (hf : ∀ x, F x → h'[x]? = h[x]?) : Own fl h' t a m F := by
  induction o with
  | zero ha => exact .zero ((hf _ rfl).trans ha)
  | value ha => exact .value ((hf _ rfl).trans ha)
  | @struct ms els a M F ha hl kids sep out ih =>
    refine .struct ((hf _ (Or.inl rfl)).trans ha) hl (fun i t e h1 h2 => ih i t e h1 h2 fun x hx => hf x (Or.inr ⟨i, ?_, hx⟩)) sep out
    exact (List.getElem?_eq_some_iff.1 h1).1
  | union ha ht kid sep ih => exact .union ((hf _ (Or.inl rfl)).trans ha) ht (ih fun x hx => hf x (Or.inr hx)) sep
  | @full hfl len base els a M F ha hl kids sep out ih =>
    refine .full hfl ((hf _ (Or.inl rfl)).trans ha) hl (fun i e h1 => ih i e h1 fun x hx => hf x (Or.inr ⟨i, ?_, hx⟩)) sep out
    exact hl ▸ (List.getElem?_eq_some_iff.1 h1).1
  | @array len base L C E T a M F ha sorted cells kids sep out ih =>
    refine .array ((hf _ (Or.inl rfl)).trans ha) sorted (fun i hi => ⟨(hf _ (Or.inr ⟨i, hi, Or.inl rfl⟩)).trans (cells i hi).1, (cells i hi).2⟩)
      (fun i hi => ih i hi fun x hx => hf x (Or.inr ⟨i, hi, Or.inr hx⟩)) sep out

theorem Own.mono {fl' : Bool} {h : Heap α} {t : Ty} {a : Nat} {m : Content α} {F : Nat → Prop} (o : Own fl h t a m F)
    (hm : fl = true → fl' = true) : Own fl' h t a m F := by
  induction o with
  | zero ha => exact .zero ha
  | value ha => exact .value ha
  | struct ha hl kids sep out ih => exact .struct ha hl ih sep out
  | union ha ht kid sep ih => exact .union ha ht ih sep
  | full hfl ha hl kids sep out ih => exact .full (hm hfl) ha hl ih sep out
  | array ha sorted cells kids sep out ih => exact .array ha sorted cells ih sep out

theorem lt_of_get {h : Heap α} {a : Nat} {c : Cell α} (ha : h[a]? = some c) : a < h.length := (List.getElem?_eq_some_iff.1 ha).1

theorem Own.lt {h : Heap α} {t : Ty} {a : Nat} {m : Content α} {F : Nat → Prop} (o : Own fl h t a m F) : ∀ x, F x → x < h.length := by
  induction o with
  | zero ha => rintro x rfl; exact lt_of_get ha
  | value ha => rintro x rfl; exact lt_of_get ha
  | @struct ms els a M F ha hl kids sep out ih =>
    rintro x (rfl | ⟨i, hi, hx⟩)
    · exact lt_of_get ha
    · exact ih i _ _ (List.getElem?_eq_getElem hi) (List.getElem?_eq_getElem (by omega)) x hx
  | union ha ht kid sep ih =>
    rintro x (rfl | hx)
    · exact lt_of_get ha
    · exact ih x hx
  | @full hfl len base els a M F ha hl kids sep out ih =>
    rintro x (rfl | ⟨i, hi, hx⟩)
    · exact lt_of_get ha
    · exact ih i _ (List.getElem?_eq_getElem (by omega)) x hx
  | @array len base L C E T a M F ha sorted cells kids sep out ih =>
    rintro x (rfl | ⟨i, hi, rfl | hx⟩)
    · exact lt_of_get ha
    · exact lt_of_get (cells i hi).1
    · exact ih i hi x hx

theorem Own.root {h : Heap α} {t : Ty} {a : Nat} {m : Content α} {F : Nat → Prop} (o : Own fl h t a m F) : F a := by
  cases o <;> first | rfl | exact Or.inl rfl

/-- The type in the root is the type of the tree, and the root is not an element of an array by itself. -/
theorem Own.cell {h : Heap α} {t : Ty} {a : Nat} {m : Content α} {F : Nat → Prop} (o : Own fl h t a m F) :
    ∃ n, h[a]? = some (t, n) ∧ ∀ e i, n ≠ .arrayValue e i := by
  cases o with
  | zero ha => exact ⟨_, ha, by simp⟩
  | value ha => exact ⟨_, ha, by simp⟩
  | struct ha => exact ⟨_, ha, by simp⟩
  | union ha => exact ⟨_, ha, by simp⟩
  | full hfl ha => exact ⟨_, ha, by simp⟩
  | array ha => exact ⟨_, ha, by simp⟩

theorem Own.of_zero {h : Heap α} {t t' : Ty} {a : Nat} {m : Content α} {F : Nat → Prop} (o : Own fl h t a m F) (hz : h[a]? = some (t', .zero)) :
    m = zeros := by
  cases o with
  | zero ha => rfl
  | value ha => rw [ha] at hz; cases hz
  | struct ha => rw [ha] at hz; cases hz
  | union ha => rw [ha] at hz; cases hz
  | full hfl ha => rw [ha] at hz; cases hz
  | array ha => rw [ha] at hz; cases hz

/-! ## Stores -/

theorem write_nil (t : Ty) (m w : Content α) : write t m [] w = w := by
  funext q
  simp [write]

theorem write_cons {t t' : Ty} {i : Nat} (ht : t.child i = some t') (m : Content α) (p : List Nat) (w : Content α) (q : List Nat) :
    write t m (i :: p) w q = match q with
      | [] => m []
      | j :: q => if j = i then write t' (fun q => m (i :: q)) p w q else if t.isUnion then none else m (j :: q) := by
  cases q with
  | nil => simp [write, clash]
  | cons j q =>
    simp only
    by_cases hj : j = i
    · subst hj
      simp [write, clash, ht, List.cons_prefix_cons]
    · have hj' : i ≠ j := fun h => hj h.symm
      simp [write, clash, List.cons_prefix_cons, hj, hj']

/-- Stores into one part of a whole. -/
theorem writes_cons {t t' : Ty} {i : Nat} (ht : t.child i = some t') (w : Content α) : ∀ (ps : List (List Nat)) (M : Nat → Content α),
    (ps.map (i :: ·)).foldl (fun m p => write t m p w) (node M) =
      node fun j => if j = i then ps.foldl (fun m p => write t' m p w) (M i) else if t.isUnion && !ps.isEmpty then zeros else M j := by
  intro ps
  induction ps with
  | nil =>
    intro M
    funext q
    cases q with
    | nil => rfl
    | cons j q => by_cases hj : j = i <;> simp [node, hj]
  | cons p ps ih =>
    intro M
    have h1 : write t (node M) (i :: p) w = node fun j => if j = i then write t' (M i) p w else if t.isUnion then zeros else M j := by
      funext q
      rw [write_cons ht]
      cases q with
      | nil => rfl
      | cons j q =>
        simp only [node]
        by_cases hj : j = i
        · rw [if_pos hj, if_pos hj]
        · rw [if_neg hj, if_neg hj]; split <;> rfl
    rw [List.map_cons, List.foldl_cons, h1, ih]
    congr 1
    funext j
    by_cases hj : j = i
    · simp [hj]
    · by_cases hu : t.isUnion = true <;> simp [hj, hu]

end C3.ConstInit
