import Verif.ConstInit.Lemmas

/-! # Designators are stores -/

set_option autoImplicit false

namespace C3.ConstInit

variable {α : Type} {fl : Bool}

/-- The tree of an analysed expression. -/
inductive OwnVal (fl : Bool) (h : Heap α) : Ty → Val α → Content α → (Nat → Prop) → Prop
  | scalar (x : Option α) : OwnVal fl h .scalar (.scalar x) (fun q => if q = [] then x else none) (fun _ => False)
  | init {t : Ty} {b : Nat} {m : Content α} {F : Nat → Prop} (o : Own fl h t b m F) : OwnVal fl h t (.init b) m F

theorem OwnVal.frame {h h' : Heap α} {t : Ty} {v : Val α} {m : Content α} {F : Nat → Prop} (o : OwnVal fl h t v m F)
    (hf : ∀ x, F x → h'[x]? = h[x]?) : OwnVal fl h' t v m F := by
  cases o with
  | scalar x => exact .scalar x
  | init o => exact .init (o.frame hf)

theorem OwnVal.mono {fl' : Bool} {h : Heap α} {t : Ty} {v : Val α} {m : Content α} {F : Nat → Prop} (o : OwnVal fl h t v m F)
    (hm : fl = true → fl' = true) : OwnVal fl' h t v m F := by
  cases o with
  | scalar x => exact .scalar x
  | init o => exact .init (o.mono hm)

theorem OwnVal.lt {h : Heap α} {t : Ty} {v : Val α} {m : Content α} {F : Nat → Prop} (o : OwnVal fl h t v m F) : ∀ x, F x → x < h.length := by
  cases o with
  | scalar x => intro _ h; exact h.elim
  | init o => exact o.lt

theorem OwnVal.empty_frame {h h' : Heap α} {t : Ty} {v : Val α} {m : Content α} {F : Nat → Prop} (o : OwnVal fl h t v m F)
    (hf : ∀ x, F x → h'[x]? = h[x]?) : sema_initializer_list_is_empty h' v = sema_initializer_list_is_empty h v := by
  cases o with
  | scalar x => rfl
  | init o => simp only [sema_initializer_list_is_empty, hf _ o.root]

/-- The result of a change of the tree at `a`: only its cells, those of the value and new ones are in the new tree, and no other
cells were changed. -/
structure Res (fl : Bool) (h h' : Heap α) (t : Ty) (a : Nat) (m : Content α) (F Fv F' : Nat → Prop) : Prop where
  own : Own fl h' t a m F'
  len : h.length ≤ h'.length
  sub : ∀ x, F' x → F x ∨ Fv x ∨ h.length ≤ x
  frame : ∀ x, x < h.length → ¬ F x → h'[x]? = h[x]?

/-- The change stores the value in the parts `ps`.  `nb`: only for values that are not blank; `sc`: only for scalars; `z`: a blank value may
make the tree blank; `r`: the root may become a `CONST_INIT_ARRAY_FULL`. -/
def Upd (fl : Bool) (nb sc z r : Bool) (k : Update α) (t t' : Ty) (ps : List (List Nat)) : Prop :=
  ∀ (h : Heap α) (a : Nat) (v : Val α) (h' : Heap α) (v' : Val α) (m w : Content α) (F Fv : Nat → Prop),
    k h a v = some (h', v') → Own fl h t a m F → OwnVal fl h t' v w Fv → (∀ x, F x → ¬ Fv x) →
    (nb = true → sema_initializer_list_is_empty h v = false) → (sc = true → ∃ x, v = .scalar x) →
    (∃ F', Res fl h h' t a (ps.foldl (fun m p => write t m p w) m) F Fv F') ∧ (∀ x, v = .scalar x → v' = .scalar x) ∧
      ∀ t'' n, h'[a]? = some (t'', n) → (n = .zero → z = true ∧ sema_initializer_list_is_empty h v = true) ∧ (∀ els, n = .arrayFull els → r = true)

theorem get_set_self {h : Heap α} {a : Nat} (ha : a < h.length) (c : Cell α) : (h.set a c)[a]? = some c := by
  rw [List.getElem?_set_self ha]

theorem get_set_ne {h : Heap α} {a x : Nat} (hx : x ≠ a) (c : Cell α) : (h.set a c)[x]? = h[x]? := by
  rw [List.getElem?_set_ne (fun h => hx h.symm)]

/-- A tree moved to another root. -/
theorem Own.move {h : Heap α} {t : Ty} {a b : Nat} {w : Content α} {Fv : Nat → Prop} (o : Own fl h t b w Fv) (ha : a < h.length) (hv : ¬ Fv a)
    {c : Cell α} (hb : h[b]? = some c) : ∃ F', Own fl (h.set a c) t a w F' ∧ ∀ x, F' x → x = a ∨ Fv x := by
  have fr : ∀ x, Fv x → (h.set a c)[x]? = h[x]? := fun x hx => get_set_ne (fun (e : x = a) => hv (e ▸ hx)) c
  have hs := get_set_self ha c
  cases o with
  | zero hz =>
    rw [hz] at hb; cases hb
    exact ⟨_, .zero hs, fun x hx => Or.inl hx⟩
  | value hz =>
    rw [hz] at hb; cases hb
    exact ⟨_, .value hs, fun x hx => Or.inl hx⟩
  | @struct ms els _ M F hz hl kids sep out =>
    rw [hz] at hb; cases hb
    refine ⟨_, .struct hs hl (F := F) (fun i t e h1 h2 => (kids i t e h1 h2).frame fun x hx => fr x (Or.inr ⟨i, (List.getElem?_eq_some_iff.1 h1).1, hx⟩))
      ⟨fun i hi hx => hv (Or.inr ⟨i, hi, hx⟩), sep.parts⟩ out, ?_⟩
    rintro x (hx | hx)
    · exact Or.inl hx
    · exact Or.inr (Or.inr hx)
  | union hz ht kid sep =>
    rw [hz] at hb; cases hb
    refine ⟨_, .union hs ht (kid.frame fun x hx => fr x (Or.inr hx)) fun hx => hv (Or.inr hx), ?_⟩
    rintro x (hx | hx)
    · exact Or.inl hx
    · exact Or.inr (Or.inr hx)
  | @full hfl len base els _ M F hz hl kids sep out =>
    rw [hz] at hb; cases hb
    refine ⟨_, .full hfl hs hl (F := F) (fun i e h1 => (kids i e h1).frame fun x hx => fr x (Or.inr ⟨i, hl ▸ (List.getElem?_eq_some_iff.1 h1).1, hx⟩))
      ⟨fun i hi hx => hv (Or.inr ⟨i, hi, hx⟩), sep.parts⟩ out, ?_⟩
    rintro x (hx | hx)
    · exact Or.inl hx
    · exact Or.inr (Or.inr hx)
  | @array len base L C E T _ M F hz sorted cells kids sep out =>
    rw [hz] at hb; cases hb
    refine ⟨_, .array hs sorted (F := F) (E := E) (T := T)
      (fun i hi => ⟨(fr _ (Or.inr ⟨i, hi, Or.inl rfl⟩)).trans (cells i hi).1, (cells i hi).2⟩)
      (fun i hi => (kids i hi).frame fun x hx => fr x (Or.inr ⟨i, hi, Or.inr hx⟩))
      ⟨fun i hi hx => hv (Or.inr ⟨i, hi, hx⟩), sep.parts⟩ out, ?_⟩
    rintro x (hx | hx)
    · exact Or.inl hx
    · exact Or.inr (Or.inr hx)

theorem rewrite_upd (t : Ty) : Upd (α := α) fl false false true true const_init_rewrite_to_value t t [[]] := by
  intro h a v h' v' m w F Fv hk o ov dj _ _
  have ha : a < h.length := o.lt a o.root
  rw [List.foldl_cons, List.foldl_nil, write_nil]
  cases ov with
  | scalar x =>
    simp only [const_init_rewrite_to_value, Option.some.injEq, Prod.mk.injEq] at hk
    obtain ⟨rfl, rfl⟩ := hk
    refine ⟨⟨_, .value (get_set_self ha _), by simp, ?_, ?_⟩, fun y hy => hy, fun t'' n hz => by rw [get_set_self ha] at hz; cases hz; exact ⟨nofun, nofun⟩⟩
    · rintro x rfl; exact Or.inl o.root
    · intro y _ hy
      exact get_set_ne (fun (e : y = a) => hy (e ▸ o.root)) _
  | @init _ b _ _ ob =>
    obtain ⟨n, hb, -⟩ := ob.cell
    simp only [const_init_rewrite_to_value, hb, Option.map_some, Option.some.injEq, Prod.mk.injEq] at hk
    obtain ⟨rfl, rfl⟩ := hk
    obtain ⟨F', o', hF⟩ := ob.move ha (dj a o.root) hb
    refine ⟨⟨F', o', by simp, ?_, ?_⟩, fun y hy => (by cases hy), fun t'' n hz => ⟨fun hn => ?_, fun _ _ => rfl⟩⟩
    · intro x hx
      rcases hF x hx with rfl | h
      · exact Or.inl o.root
      · exact Or.inr (Or.inl h)
    · intro y _ hy
      exact get_set_ne (fun (e : y = a) => hy (e ▸ o.root)) _
    · rw [get_set_self ha, hn] at hz
      cases hz
      simp [sema_initializer_list_is_empty, hb]

/-! ## Structs -/

theorem allocZeros_spec (ts : List Ty) : ∀ h : Heap α,
    (allocZeros h ts).1 = List.range' h.length ts.length ∧ (allocZeros h ts).2 = h ++ ts.map fun t => (t, Node.zero) := by
  induction ts with
  | nil => intro h; simp [allocZeros]
  | cons t ts ih =>
    intro h
    simp only [allocZeros, (ih _).1, (ih _).2]
    constructor
    · simp [List.range'_succ]
    · simp

/-- The members of a struct that is expanded. -/
structure Str (fl : Bool) (h : Heap α) (ms : List Ty) (a : Nat) (els : List Nat) (M : Nat → Content α) (F : Nat → Nat → Prop) : Prop where
  ha : h[a]? = some (.struct ms, .struct els)
  hl : els.length = ms.length
  kids : ∀ i t e, ms[i]? = some t → els[i]? = some e → Own fl h t e (M i) (F i)
  sep : Sep a F (· < ms.length)
  out : ∀ i, ms.length ≤ i → M i = zeros

theorem expandStruct_spec {h h1 : Heap α} {ms : List Ty} {a : Nat} {m : Content α} {F : Nat → Prop} {n : Node α} {els : List Nat}
    (o : Own fl h (.struct ms) a m F) (hn : h[a]? = some (.struct ms, n)) (he : expandStruct h a ms n = some (els, h1)) :
    ∃ M F1, m = node M ∧ Str fl h1 ms a els M F1 ∧ h.length ≤ h1.length ∧ (∀ x, fp a F1 (· < ms.length) x → F x ∨ h.length ≤ x) ∧
      (∀ x, x < h.length → ¬ F x → h1[x]? = h[x]?) := by
  have ha := lt_of_get hn
  cases o with
  | zero hz =>
    rw [hz] at hn; cases hn
    simp only [expandStruct, Option.some.injEq, Prod.mk.injEq] at he
    obtain ⟨rfl, rfl⟩ := he
    rw [(allocZeros_spec ms h).1, (allocZeros_spec ms h).2]
    refine ⟨fun _ => zeros, fun i x => x = h.length + i, ?_, ?_, by simp, ?_, ?_⟩
    · funext q; cases q <;> rfl
    · refine ⟨get_set_self (by simp; omega) _, by simp, ?_, ⟨?_, ?_⟩, fun _ _ => rfl⟩
      · intro i t e h1 h2
        have hi := (List.getElem?_eq_some_iff.1 h1).1
        rw [List.getElem?_range' hi] at h2
        simp only [Nat.one_mul, Option.some.injEq] at h2
        subst h2
        refine .zero ?_
        rw [get_set_ne (by omega), List.getElem?_append_right (by omega)]
        simp [h1]
      · intro i hi h; omega
      · intro i j x hi hj h1 h2; omega
    · rintro x (hx | ⟨i, hi, hx⟩)
      · exact Or.inl hx
      · right; omega
    · intro x hx hf
      rw [get_set_ne (show x ≠ a from hf), List.getElem?_append_left hx]
  | @struct _ els' _ M F1 hz hl kids sep out =>
    rw [hz] at hn; cases hn
    simp only [expandStruct, Option.some.injEq, Prod.mk.injEq] at he
    obtain ⟨rfl, rfl⟩ := he
    exact ⟨M, F1, rfl, ⟨hz, hl, kids, sep, out⟩, Nat.le_refl _, fun x hx => Or.inl hx, fun _ _ _ => rfl⟩

/-- A change of the member `i`. -/
theorem Str.change {h h' : Heap α} {ms : List Ty} {a : Nat} {els : List Nat} {M : Nat → Content α} {F : Nat → Nat → Prop}
    (s : Str fl h ms a els M F) {i : Nat} {t : Ty} {e : Nat} (ht : ms[i]? = some t) (he : els[i]? = some e) {m : Content α}
    {Fv F' : Nat → Prop} (r : Res fl h h' t e m (F i) Fv F') (dj : ∀ x, fp a F (· < ms.length) x → ¬ Fv x) :
    ∃ F2, Own fl h' (.struct ms) a (node fun j => if j = i then m else M j) F2 ∧
      (∀ x, F2 x → fp a F (· < ms.length) x ∨ Fv x ∨ h.length ≤ x) ∧ (∀ x, x < h.length → ¬ fp a F (· < ms.length) x → h'[x]? = h[x]?) := by
  have hi : i < ms.length := (List.getElem?_eq_some_iff.1 ht).1
  have al := lt_of_get s.ha
  have klt : ∀ j, j < ms.length → ∀ x, F j x → x < h.length := fun j hj x hx =>
    (s.kids j _ _ (List.getElem?_eq_getElem hj) (List.getElem?_eq_getElem (by have := s.hl; omega))).lt x hx
  refine ⟨fp a (fun j => if j = i then F' else F j) (· < ms.length), .struct ?_ s.hl ?_ ⟨?_, ?_⟩ ?_, ?_, ?_⟩
  · rw [r.frame a al (s.sep.root i hi)]; exact s.ha
  · intro j t' e' h1 h2
    by_cases hj : j = i
    · subst hj
      rw [ht] at h1; cases h1
      rw [he] at h2; cases h2
      simp only [if_true]
      exact r.own
    · simp only [if_neg hj]
      have hj' := (List.getElem?_eq_some_iff.1 h1).1
      exact (s.kids j t' e' h1 h2).frame fun x hx => r.frame x (klt j hj' x hx) fun hx' => hj (s.sep.parts j i x hj' hi hx hx')
  · intro j hj hx
    by_cases hji : j = i
    · simp only [if_pos hji] at hx
      rcases r.sub a hx with h1 | h1 | h1
      · exact s.sep.root i hi h1
      · exact dj a (Or.inl rfl) h1
      · omega
    · simp only [if_neg hji] at hx
      exact s.sep.root j hj hx
  · have key : ∀ j x, j < ms.length → j ≠ i → F j x → ¬ F' x := by
      intro j x hj hji hx hx'
      rcases r.sub x hx' with h1 | h1 | h1
      · exact hji (s.sep.parts j i x hj hi hx h1)
      · exact dj x (Or.inr ⟨j, hj, hx⟩) h1
      · have := klt j hj x hx; omega
    intro j l x hj hl hx hx'
    by_cases h1 : j = i <;> by_cases h2 : l = i
    · omega
    · simp only [if_pos h1] at hx; simp only [if_neg h2] at hx'
      exact (key l x hl h2 hx' hx).elim
    · simp only [if_neg h1] at hx; simp only [if_pos h2] at hx'
      exact (key j x hj h1 hx hx').elim
    · simp only [if_neg h1] at hx; simp only [if_neg h2] at hx'
      exact s.sep.parts j l x hj hl hx hx'
  · intro j hj
    rw [if_neg (by omega)]
    exact s.out j hj
  · rintro x (hx | ⟨j, hj, hx⟩)
    · exact Or.inl (Or.inl hx)
    · by_cases hji : j = i
      · simp only [if_pos hji] at hx
        rcases r.sub x hx with h1 | h1 | h1
        · exact Or.inl (Or.inr ⟨i, hi, h1⟩)
        · exact Or.inr (Or.inl h1)
        · exact Or.inr (Or.inr h1)
      · simp only [if_neg hji] at hx
        exact Or.inl (Or.inr ⟨j, hj, hx⟩)
  · intro x hx hn
    exact r.frame x hx fun h => hn (Or.inr ⟨i, hi, h⟩)

theorem struct_upd {nb sc z r last : Bool} {k : Update α} {ms : List Ty} {i : Nat} {t t' : Ty} {ps : List (List Nat)} (hk : Upd fl nb sc z r k t t' ps)
    (ht : ms[i]? = some t) : Upd fl (nb || last) sc false false (updateStruct last k ms i) (.struct ms) t' (ps.map (i :: ·)) := by
  intro h a v h' v' m w F Fv hu o ov dj hnb hsc
  obtain ⟨n, hn, -⟩ := o.cell
  simp only [updateStruct, hn, Option.bind_eq_bind, Option.bind_some] at hu
  have hcond : (last && sema_initializer_list_is_empty h v) = false := by
    cases hl : last
    · rfl
    · simp [hnb (by simp [hl])]
  rw [hcond] at hu
  simp only [Bool.false_eq_true, if_false, Option.bind_eq_some_iff] at hu
  obtain ⟨⟨els, h1⟩, he, sub, hs, hu⟩ := hu
  obtain ⟨M, F1, rfl, s, hlen, hsub, hfr⟩ := expandStruct_spec o hn he
  have ovf : ∀ x, Fv x → h1[x]? = h[x]? := fun x hx => hfr x (ov.lt x hx) fun h => dj x h hx
  have dj1 : ∀ x, fp a F1 (· < ms.length) x → ¬ Fv x := by
    intro x hx hv
    rcases hsub x hx with h1 | h1
    · exact dj x h1 hv
    · have := ov.lt x hv; omega
  have hi : i < ms.length := (List.getElem?_eq_some_iff.1 ht).1
  obtain ⟨⟨F', r⟩, hv, -⟩ := hk h1 sub v h' v' (M i) w (F1 i) Fv hu (s.kids i t sub ht hs) (ov.frame ovf)
    (fun x hx => dj1 x (Or.inr ⟨i, hi, hx⟩)) (fun hb => by rw [ov.empty_frame ovf]; exact hnb (by simp [hb])) hsc
  obtain ⟨F2, o2, hsub2, hfr2⟩ := s.change ht hs r dj1
  refine ⟨⟨F2, ?_, Nat.le_trans hlen r.len, ?_, ?_⟩, hv, fun t'' n hz => ?_⟩
  · rw [writes_cons (t' := t) (show (Ty.struct ms).child i = some t from ht)]
    simpa [Ty.isUnion] using o2
  · intro x hx
    rcases hsub2 x hx with h2 | h2 | h2
    · rcases hsub x h2 with h3 | h3
      · exact Or.inl h3
      · exact Or.inr (Or.inr h3)
    · exact Or.inr (Or.inl h2)
    · exact Or.inr (Or.inr (by omega))
  · intro x hx hf
    rw [hfr2 x (by omega) ?_, hfr x hx hf]
    intro h2
    rcases hsub x h2 with h3 | h3
    · exact hf h3
    · omega
  · rw [r.frame a (lt_of_get s.ha) (s.sep.root i hi), s.ha] at hz
    cases hz
    exact ⟨nofun, nofun⟩

theorem Upd.weaken {nb sc z r nb' sc' z' r' : Bool} {k : Update α} {t t' : Ty} {ps : List (List Nat)} (hk : Upd fl nb sc z r k t t' ps)
    (h1 : nb = true → nb' = true) (h2 : sc = true → sc' = true) (h3 : z = true → z' = true) (h4 : r = true → r' = true) : Upd fl nb' sc' z' r' k t t' ps := by
  intro h a v h' v' m w F Fv hu o ov dj hnb hsc
  obtain ⟨r, hv, hz⟩ := hk h a v h' v' m w F Fv hu o ov dj (fun h => hnb (h1 h)) (fun h => hsc (h2 h))
  exact ⟨r, hv, fun t'' n h => ⟨fun hn => ⟨h3 ((hz t'' n h).1 hn).1, ((hz t'' n h).1 hn).2⟩, fun els he => h4 ((hz t'' n h).2 els he)⟩⟩

end C3.ConstInit
