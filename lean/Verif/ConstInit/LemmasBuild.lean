import Verif.ConstInit.LemmasPath
import Verif.ConstInit.Cond

/-! # Initializers are built as they are meant -/

set_option autoImplicit false

namespace C3.ConstInit

variable {α : Type} {fl : Bool}

theorem analyse_typeAt : ∀ (p : List Step) {t t' : Ty}, sema_expr_analyse_designator t p = some t' → typeAt t p = some t' := by
  intro p
  induction p with
  | nil => intro t t' h; simpa [sema_expr_analyse_designator, typeAt] using h
  | cons s p ih =>
    intro t t' h
    cases s <;> cases t <;> simp only [sema_expr_analyse_designator, reduceCtorEq] at h
    · obtain ⟨u, h1, h2⟩ := Option.bind_eq_some_iff.1 h
      simp [typeAt, Ty.child, h1, ih h2]
    · obtain ⟨u, h1, h2⟩ := Option.bind_eq_some_iff.1 h
      simp [typeAt, Ty.child, h1, ih h2]
    · split at h
      · cases h
      · simp [typeAt, Ty.child, ih h]
    · split at h
      · cases h
      · split at h
        · cases h
        · split at h
          · cases h
          · simp [typeAt, Ty.child, ih h]

theorem expand_ne_nil : ∀ (p : List Step) {t t' : Ty}, sema_expr_analyse_designator t p = some t' → expand p ≠ [] := by
  intro p
  induction p with
  | nil => intro t t' h; simp [expand]
  | cons s p ih =>
    intro t t' h
    cases s <;> cases t <;> simp only [sema_expr_analyse_designator, reduceCtorEq] at h
    · obtain ⟨u, h1, h2⟩ := Option.bind_eq_some_iff.1 h
      simpa [expand] using ih h2
    · obtain ⟨u, h1, h2⟩ := Option.bind_eq_some_iff.1 h
      simpa [expand] using ih h2
    · split at h
      · cases h
      · simpa [expand] using ih h
    · rename_i lo hi len base
      split at h
      · cases h
      · split at h
        · cases h
        · split at h
          · cases h
          · have := ih h
            obtain ⟨n, hn⟩ : ∃ n, hi + 1 - lo = n + 1 := ⟨hi - lo, by omega⟩
            simp [expand, hn, List.range'_succ, this]

theorem path_upd : ∀ (p : List Step) {t t' : Ty}, sema_expr_analyse_designator t p = some t' → inside t p = true →
    Upd (α := α) fl (endsInStruct t p) (p.any Step.wide) (p.isEmpty || (t.isUnion && p.length == 1)) p.isEmpty
      (if p.isEmpty then const_init_rewrite_to_value else update p) t t' (expand p) := by
  intro p
  induction p with
  | nil =>
    intro t t' h _
    simp only [sema_expr_analyse_designator, Option.some.injEq] at h
    subst h
    exact rewrite_upd t
  | cons s p ih =>
    intro t t' h hin
    simp only [List.isEmpty_cons, Bool.false_eq_true, if_false]
    have step : ∀ {k : Update α} {nb sc z r : Bool} {ps}, Upd fl nb sc z r k t t' ps →
        (∀ h a v n, h[a]? = some (t, n) → update (s :: p) h a v = k h a v) → Upd (α := α) fl nb sc z r (update (s :: p)) t t' ps := by
      intro k nb sc z r ps hk heq h a v h' v' m w F Fv hu o
      obtain ⟨n, hn, -⟩ := o.cell
      rw [heq h a v n hn] at hu
      exact hk h a v h' v' m w F Fv hu o
    cases s <;> cases t <;> simp only [sema_expr_analyse_designator, reduceCtorEq] at h
    · obtain ⟨u, h1, h2⟩ := Option.bind_eq_some_iff.1 h
      rename_i i ms
      have hk := ih h2 (by simpa [inside, Ty.child, Step.first, h1] using hin)
      refine step (nb := _) (sc := _) (z := _) (r := _) (k := updateStruct p.isEmpty (if p.isEmpty then const_init_rewrite_to_value else update p) ms i) ?_ ?_
      · refine (struct_upd (last := p.isEmpty) hk h1).weaken ?_ ?_ (by simp) (by simp)
        · simp only [endsInStruct, Step.first, Ty.child, h1, Ty.isStruct, Option.any_some, Bool.or_eq_true, Bool.true_and]
          exact Or.symm
        · simp [Step.wide]
      · intro h a v n hn
        simp [update, hn]
    · obtain ⟨u, h1, h2⟩ := Option.bind_eq_some_iff.1 h
      rename_i i ms
      have hk := ih h2 (by simpa [inside, Ty.child, Step.first, h1] using hin)
      refine step (nb := _) (sc := _) (z := _) (r := _) (k := updateUnion p.isEmpty (if p.isEmpty then const_init_rewrite_to_value else update p) ms i) ?_ ?_
      · refine (union_upd (last := p.isEmpty) hk h1 ?_ (expand_ne_nil p h2)).weaken ?_ ?_ ?_ (by simp)
        · intro he
          rw [List.isEmpty_iff.1 he]; rfl
        · simp [endsInStruct, Step.first, Ty.child, h1, Ty.isStruct]
        · simp [Step.wide]
        · simp [Ty.isUnion]
      · intro h a v n hn
        simp [update, hn]
    · rename_i i len base
      by_cases hi : i ≥ len
      · rw [if_pos hi] at h; cases h
      · rw [if_neg hi] at h
        have hk := ih h (by simpa [inside, Ty.child, Step.first] using hin)
        refine step (nb := _) (sc := _) (z := _) (r := _) (k := updateArray (if p.isEmpty then const_init_rewrite_to_value else update p) base i i) ?_ ?_
        · have := array_upd (len := len) hk (Nat.le_refl i) (by omega)
          have he : ((List.range' i (i + 1 - i)).flatMap fun i => (expand p).map (i :: ·)) = expand (.index i :: p) := by
            simp [expand, show i + 1 - i = 1 by omega]
          rw [he] at this
          refine this.weaken ?_ ?_ (by simp) (by simp)
          · simp [endsInStruct, Step.first, Ty.child, Ty.isStruct]
          · simp [Step.wide]
        · intro h a v n hn
          simp [update, hn]
    · rename_i lo hi len base
      by_cases h1 : lo ≥ len
      · rw [if_pos h1] at h; cases h
      · rw [if_neg h1] at h
        by_cases h2 : lo > hi
        · rw [if_pos h2] at h; cases h
        · rw [if_neg h2] at h
          by_cases h3 : hi > len
          · rw [if_pos h3] at h; cases h
          · rw [if_neg h3] at h
            simp only [inside, Bool.and_eq_true, decide_eq_true_eq] at hin
            have hk := ih h hin.2
            refine step (nb := _) (sc := _) (z := _) (r := _) (k := updateArray (if p.isEmpty then const_init_rewrite_to_value else update p) base lo hi) ?_ ?_
            · refine (array_upd (len := len) hk (by omega) hin.1).weaken ?_ ?_ (by simp) (by simp)
              · simp [endsInStruct, Step.first, Ty.child, Ty.isStruct]
              · simp only [List.any_cons, Step.wide, Bool.or_eq_true]; exact Or.symm
            · intro h a v n hn
              simp [update, hn]

/-! ## Lists -/

/-- Trees that are apart, one for each type, with contents and cells. -/
inductive Kids {β : Type} (R : Ty → β → Content α → (Nat → Prop) → Prop) : List Ty → List β → List (Content α × (Nat → Prop)) → Prop
  | nil : Kids R [] [] []
  | cons {t : Ty} {v : β} {m : Content α} {F : Nat → Prop} {ts : List Ty} {vs : List β} {gs : List (Content α × (Nat → Prop))}
      (o : R t v m F) (os : Kids R ts vs gs) (dj : ∀ g, g ∈ gs → ∀ x, F x → ¬ g.2 x) : Kids R (t :: ts) (v :: vs) ((m, F) :: gs)

def contentAt (gs : List (Content α × (Nat → Prop))) (i : Nat) : Content α := ((gs[i]?).map Prod.fst).getD zeros

def cellsAt (gs : List (Content α × (Nat → Prop))) (i : Nat) : Nat → Prop := ((gs[i]?).map Prod.snd).getD fun _ => False

section
variable {β : Type} {R : Ty → β → Content α → (Nat → Prop) → Prop} {ts : List Ty} {vs : List β} {gs : List (Content α × (Nat → Prop))}

theorem Kids.mono {R' : Ty → β → Content α → (Nat → Prop) → Prop} (k : Kids R ts vs gs)
    (hR : ∀ t v m F, (m, F) ∈ gs → R t v m F → R' t v m F) : Kids R' ts vs gs := by
  induction k with
  | nil => exact .nil
  | cons o os dj ih => exact .cons (hR _ _ _ _ (by simp) o) (ih fun t v m F h => hR t v m F (by simp [h])) dj

theorem Kids.length (k : Kids R ts vs gs) : vs.length = ts.length ∧ gs.length = ts.length := by
  induction k with
  | nil => simp
  | cons o os dj ih => simp [ih.1, ih.2]

theorem Kids.get (k : Kids R ts vs gs) : ∀ {i : Nat} {t : Ty} {v : β}, ts[i]? = some t → vs[i]? = some v →
    R t v (contentAt gs i) (cellsAt gs i) := by
  induction k with
  | nil => intro i t v h; simp at h
  | cons o os dj ih =>
    intro i t v h1 h2
    cases i with
    | zero => simp at h1 h2; subst h1 h2; exact o
    | succ i => exact ih (by simpa using h1) (by simpa using h2)

theorem cellsAt_mem {i x : Nat} (h : cellsAt gs i x) : ∃ g, g ∈ gs ∧ g.2 x := by
  unfold cellsAt at h
  cases hg : gs[i]? with
  | none => simp [hg] at h
  | some g => exact ⟨g, List.mem_of_getElem? hg, by simpa [hg] using h⟩

theorem Kids.sep (k : Kids R ts vs gs) : ∀ {i j x : Nat}, cellsAt gs i x → cellsAt gs j x → i = j := by
  induction k with
  | nil => intro i j x h; simp [cellsAt] at h
  | @cons _ _ _ _ _ _ gs o os dj ih =>
    intro i j x h1 h2
    cases i with
    | zero =>
      cases j with
      | zero => rfl
      | succ j =>
        obtain ⟨g, hg, hx⟩ := cellsAt_mem (gs := gs) (i := j) (x := x) (by simpa [cellsAt] using h2)
        exact (dj g hg x (by simpa [cellsAt] using h1) hx).elim
    | succ i =>
      cases j with
      | zero =>
        obtain ⟨g, hg, hx⟩ := cellsAt_mem (gs := gs) (i := i) (x := x) (by simpa [cellsAt] using h1)
        exact (dj g hg x (by simpa [cellsAt] using h2) hx).elim
      | succ j =>
        rw [ih (i := i) (j := j) (by simpa [cellsAt] using h1) (by simpa [cellsAt] using h2)]

end

/-- The heap grew. -/
structure Ext (h h' : Heap α) : Prop where
  len : h.length ≤ h'.length
  same : ∀ x, x < h.length → h'[x]? = h[x]?

theorem Ext.refl (h : Heap α) : Ext h h := ⟨Nat.le_refl _, fun _ _ => rfl⟩

theorem Ext.trans {h h1 h2 : Heap α} (a : Ext h h1) (b : Ext h1 h2) : Ext h h2 :=
  ⟨Nat.le_trans a.len b.len, fun x hx => (b.same x (Nat.lt_of_lt_of_le hx a.len)).trans (a.same x hx)⟩

theorem Ext.append (h : Heap α) (c : Cell α) : Ext h (h ++ [c]) := ⟨by simp, fun _ hx => List.getElem?_append_left hx⟩

theorem Own.ext {h h' : Heap α} {t : Ty} {a : Nat} {m : Content α} {F : Nat → Prop} (o : Own fl h t a m F) (e : Ext h h') : Own fl h' t a m F :=
  o.frame fun x hx => e.same x (o.lt x hx)

theorem OwnVal.ext {h h' : Heap α} {t : Ty} {v : Val α} {m : Content α} {F : Nat → Prop} (o : OwnVal fl h t v m F) (e : Ext h h') :
    OwnVal fl h' t v m F := o.frame fun x hx => e.same x (o.lt x hx)

theorem Kids.lt {h : Heap α} {ts : List Ty} {vs : List (Val α)} {gs : List (Content α × (Nat → Prop))} (k : Kids (OwnVal fl h) ts vs gs) :
    ∀ g, g ∈ gs → ∀ x, g.2 x → x < h.length := by
  induction k with
  | nil => simp
  | cons o os dj ih =>
    intro g hg x hx
    rcases List.mem_cons.1 hg with rfl | hg
    · exact o.lt x hx
    · exact ih g hg x hx

theorem cellOf_spec {h : Heap α} {t : Ty} {v : Val α} {m : Content α} {F : Nat → Prop} (o : OwnVal fl h t v m F) :
    Ext h (cellOf h v).2 ∧ ∃ F', Own fl (cellOf h v).2 t (cellOf h v).1 m F' ∧ ∀ x, F' x → F x ∨ h.length ≤ x := by
  cases o with
  | scalar x =>
    refine ⟨Ext.append h _, _, .value (by simp [cellOf, alloc]), ?_⟩
    rintro x rfl; right; simp [cellOf, alloc]
  | init o => exact ⟨Ext.refl h, _, o, fun x hx => .inl hx⟩

theorem cellsOf_spec {ts : List Ty} {vs : List (Val α)} {gs : List (Content α × (Nat → Prop))} : ∀ {h : Heap α}, Kids (OwnVal fl h) ts vs gs →
    Ext h (cellsOf h vs).2 ∧ ∃ gs', Kids (Own fl (cellsOf h vs).2) ts (cellsOf h vs).1 gs' ∧ gs'.map Prod.fst = gs.map Prod.fst ∧
      ∀ g, g ∈ gs' → ∀ x, g.2 x → (∃ g', g' ∈ gs ∧ g'.2 x) ∨ h.length ≤ x := by
  induction vs generalizing ts gs with
  | nil =>
    intro h k
    cases k
    exact ⟨Ext.refl h, [], .nil, rfl, by simp⟩
  | cons v vs ih =>
    intro h k
    cases k with
    | @cons t _ m F ts _ gs o os dj =>
    obtain ⟨e1, F', o', hF⟩ := cellOf_spec o
    have lts := os.lt
    have os1 : Kids (OwnVal fl (cellOf h v).2) ts vs gs := os.mono fun t v m F _ o => o.ext e1
    obtain ⟨e2, gs', k', hm, hg⟩ := ih os1
    refine ⟨e1.trans e2, (m, F') :: gs', .cons (o'.ext e2) k' ?_, by simp [hm], ?_⟩
    · intro g hgm x hx hx'
      have hlt := o'.lt x hx
      rcases hg g hgm x hx' with ⟨g', hg', hx2⟩ | hx2
      · rcases hF x hx with h1 | h1
        · exact dj g' hg' x h1 hx2
        · have := lts g' hg' x hx2; omega
      · omega
    · intro g hgm x hx
      rcases List.mem_cons.1 hgm with rfl | hgm
      · rcases hF x hx with h1 | h1
        · exact .inl ⟨_, List.mem_cons_self, h1⟩
        · exact .inr h1
      · rcases hg g hgm x hx with ⟨g', hg', hx2⟩ | hx2
        · exact .inl ⟨g', List.mem_cons_of_mem _ hg', hx2⟩
        · exact .inr (Nat.le_trans e1.len hx2)

/-! ## Designated initializers -/

/-- The analysed designators, with the cells of their values. -/
inductive Todo (fl : Bool) (h : Heap α) (t : Ty) : Desigs α → List (List Step × Val α) → List (Nat → Prop) → Prop
  | nil : Todo fl h t .nil [] []
  | cons {path : List Step} {i : Init α} {v : Val α} {t' : Ty} {F : Nat → Prop} {ds : Desigs α} {l : List (List Step × Val α)}
      {Fs : List (Nat → Prop)} (hp : path.isEmpty = false) (ht : sema_expr_analyse_designator t path = some t') (hin : inside t path = true)
      (ov : OwnVal fl h t' v (denote t' i) F) (hw : path.any Step.wide = true → ∃ x, v = .scalar x)
      (hs : endsInStruct t path = true → sema_initializer_list_is_empty h v = false)
      (hb : sema_initializer_list_is_empty h v = true → blank t' i = true)
      (rest : Todo fl h t ds l Fs) (dj : ∀ G, G ∈ Fs → ∀ x, F x → ¬ G x) : Todo fl h t (.cons path i ds) ((path, v) :: l) (F :: Fs)

theorem Todo.frame {h h' : Heap α} {t : Ty} {ds : Desigs α} {l : List (List Step × Val α)} {Fs : List (Nat → Prop)} (d : Todo fl h t ds l Fs)
    (hf : ∀ G, G ∈ Fs → ∀ x, G x → h'[x]? = h[x]?) : Todo fl h' t ds l Fs := by
  induction d with
  | nil => exact .nil
  | cons hp ht hin ov hw hs hb rest dj ih =>
    have h1 := hf _ (List.mem_cons_self)
    refine .cons hp ht hin (ov.frame h1) hw ?_ ?_ (ih fun G hG => hf G (by simp [hG])) dj
    · rw [ov.empty_frame h1]; exact hs
    · rw [ov.empty_frame h1]; exact hb

theorem Todo.lt {h : Heap α} {t : Ty} {ds : Desigs α} {l : List (List Step × Val α)} {Fs : List (Nat → Prop)} (d : Todo fl h t ds l Fs) :
    ∀ G, G ∈ Fs → ∀ x, G x → x < h.length := by
  induction d with
  | nil => simp
  | cons hp ht hin ov hw hs hb rest dj ih =>
    intro G hG x hx
    rcases List.mem_cons.1 hG with rfl | hG
    · exact ov.lt x hx
    · exact ih G hG x hx

theorem applyAll_spec {t : Ty} {a : Nat} {ds : Desigs α} : ∀ {l : List (List Step × Val α)} {Fs : List (Nat → Prop)} {h h' : Heap α} {m : Content α} {F : Nat → Prop},
    Todo fl h t ds l Fs → Own fl h t a m F → (∀ G, G ∈ Fs → ∀ x, F x → ¬ G x) → applyAll a l h = some h' →
    ∃ F', Res fl h h' t a (denoteDesigs t m ds) (fun x => F x ∨ ∃ G, G ∈ Fs ∧ G x) (fun _ => False) F' ∧
      (l ≠ [] → ∀ t'', h'[a]? = some (t'', .zero) → blankLast t ds = true) := by
  intro l
  induction l generalizing ds with
  | nil =>
    intro Fs h h' m F d o dj hu
    cases d
    cases hu
    exact ⟨F, ⟨o, Nat.le_refl _, fun x hx => .inl (.inl hx), fun _ _ _ => rfl⟩, fun h => absurd rfl h⟩
  | cons pv l ih =>
    intro Fs h h' m F d o dj hu
    cases d with
    | @cons path i v t' Fv ds _ Fs hp ht hin ov hw hs hb rest djr =>
    simp only [applyAll, Option.bind_eq_bind, Option.bind_eq_some_iff] at hu
    obtain ⟨⟨h1, v1⟩, hu1, hu⟩ := hu
    have hpu := path_upd (α := α) (fl := fl) path ht hin
    rw [hp] at hpu
    simp only [Bool.false_eq_true, if_false, Bool.false_or] at hpu
    obtain ⟨⟨F1, r⟩, -, hz⟩ := hpu h a v h1 v1 m (denote t' i) F Fv hu1 o ov (dj Fv (by simp)) hs hw
    have dlt := rest.lt
    have rest1 : Todo fl h1 t ds l Fs := rest.frame fun G hG x hx =>
      r.frame x (dlt G hG x hx) fun hf => dj G (by simp [hG]) x hf hx
    have dj1 : ∀ G, G ∈ Fs → ∀ x, F1 x → ¬ G x := by
      intro G hG x hx hgx
      rcases r.sub x hx with h2 | h2 | h2
      · exact dj G (by simp [hG]) x h2 hgx
      · exact djr G hG x h2 hgx
      · have := dlt G hG x hgx; omega
    obtain ⟨F2, r2, hz2⟩ := ih rest1 r.own dj1 hu
    refine ⟨F2, ⟨?_, Nat.le_trans r.len r2.len, ?_, ?_⟩, ?_⟩
    · have := r2.own
      rw [denoteDesigs, analyse_typeAt path ht]
      exact this
    · intro x hx
      rcases r2.sub x hx with (h2 | ⟨G, hG, h2⟩) | h2 | h2
      · rcases r.sub x h2 with h3 | h3 | h3
        · exact .inl (.inl h3)
        · exact .inl (.inr ⟨Fv, by simp, h3⟩)
        · exact .inr (.inr h3)
      · exact .inl (.inr ⟨G, by simp [hG], h2⟩)
      · exact h2.elim
      · exact .inr (.inr (Nat.le_trans r.len h2))
    · intro x hx hn
      rw [r2.frame x (Nat.lt_of_lt_of_le hx r.len) ?_, r.frame x hx fun h => hn (.inl h)]
      rintro (h2 | ⟨G, hG, h2⟩)
      · rcases r.sub x h2 with h3 | h3 | h3
        · exact hn (.inl h3)
        · exact hn (.inr ⟨Fv, by simp, h3⟩)
        · omega
      · exact hn (.inr ⟨G, by simp [hG], h2⟩)
    · rintro - t'' h0
      cases rest with
      | nil =>
        cases hu
        obtain ⟨h3, h4⟩ := (hz t'' _ h0).1 rfl
        simp only [blankLast, analyse_typeAt path ht, Option.getD_some, hb h4, Bool.and_true]
        exact h3
      | cons => exact hz2 (by simp) t'' h0

end C3.ConstInit
