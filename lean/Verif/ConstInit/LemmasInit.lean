import Verif.ConstInit.LemmasBuild

/-! # Whole initializers -/

set_option autoImplicit false

namespace C3.ConstInit

variable {α : Type} {fl : Bool}

/-- What is known of an analysed expression. -/
def Built (t : Ty) (i : Init α) (h : Heap α) (v : Val α) (h' : Heap α) : Prop :=
  Ext h h' ∧ (∃ F, OwnVal (hasArrayList t i) h' t v (denote t i) F ∧ ∀ x, F x → h.length ≤ x) ∧
  (sema_initializer_list_is_empty h' v = true → blank t i = true) ∧ (t.isScalar = true → ∃ x, v = .scalar x)

theorem node_contentAt {gs gs' : List (Content α × (Nat → Prop))} (h : gs'.map Prod.fst = gs.map Prod.fst) :
    contentAt gs' = contentAt gs := by
  funext i
  simp only [contentAt, ← List.getElem?_map, h]

theorem contentAt_out {gs : List (Content α × (Nat → Prop))} {i : Nat} (h : gs.length ≤ i) : contentAt gs i = zeros := by
  simp [contentAt, List.getElem?_eq_none h]

theorem empty_last {t : Ty} {n : Node α} {h : Heap α} (hn : n ≠ .zero) : sema_initializer_list_is_empty (h ++ [(t, n)]) (.init h.length) = false := by
  simp only [sema_initializer_list_is_empty, List.getElem?_append_right (Nat.le_refl _), Nat.sub_self, List.getElem?_cons_zero]
  split
  · rename_i h1; cases h1; exact absurd rfl hn
  · rfl

/-- A new root over trees. -/
theorem Kids.sepRoot {h : Heap α} {ts : List Ty} {els : List Nat} {gs : List (Content α × (Nat → Prop))} (k : Kids (Own fl h) ts els gs) {n : Nat} {c : Cell α}
    (hn : n = ts.length) : Sep h.length (cellsAt gs) (· < n) ∧ (∀ i t e, ts[i]? = some t → els[i]? = some e → Own fl (h ++ [c]) t e (contentAt gs i) (cellsAt gs i)) := by
  refine ⟨⟨fun i hi hx => ?_, fun i j x _ _ => k.sep⟩, fun i t e h1 h2 => (k.get h1 h2).ext (Ext.append h c)⟩
  have hl := k.length
  have := (k.get (List.getElem?_eq_getElem (by omega : i < ts.length)) (List.getElem?_eq_getElem (by omega : i < els.length))).lt _ hx
  omega

theorem Kids.fp_ge {h0 : Nat} {a : Nat} {gs : List (Content α × (Nat → Prop))} {D : Nat → Prop} (ha : h0 ≤ a)
    (hg : ∀ g, g ∈ gs → ∀ x, g.2 x → h0 ≤ x) : ∀ x, fp a (cellsAt gs) D x → h0 ≤ x := by
  rintro x (rfl | ⟨i, _, hx⟩)
  · exact ha
  · obtain ⟨g, hgm, hx⟩ := cellsAt_mem hx
    exact hg g hgm x hx

theorem hroot {t : Ty} {vs : Inits α} (gs gs' : List (Content α × (Nat → Prop))) (hm : gs'.map Prod.fst = gs.map Prod.fst)
    (hden : denoteList t 0 vs = node fun i => if i < 0 then zeros else contentAt gs (i - 0)) : node (contentAt gs') = denote t (.list vs) := by
  rw [denote, hden, node_contentAt hm]
  simp

theorem hroot' {h h1 : Heap α} (gs gs' : List (Content α × (Nat → Prop))) (e1 : Ext h h1) (hge : ∀ g, g ∈ gs → ∀ x, g.2 x → h.length ≤ x)
    (hg' : ∀ g, g ∈ gs' → ∀ x, g.2 x → (∃ g', g' ∈ gs ∧ g'.2 x) ∨ h1.length ≤ x) : ∀ g, g ∈ gs' → ∀ x, g.2 x → h.length ≤ x := by
  intro g hg x hx
  rcases hg' g hg x hx with ⟨g', h2, h3⟩ | h2
  · exact hge g' h2 x h3
  · exact Nat.le_trans e1.len h2

mutual

theorem build_spec : ∀ (i : Init α) (t : Ty) (h : Heap α) (v : Val α) (h' : Heap α), build t i h = some (v, h') → plain t i = true →
    Built t i h v h'
  | .scalar x => by
    intro t h v h' hb hp
    cases t <;> simp [build] at hb
    obtain ⟨rfl, rfl⟩ := hb
    exact ⟨Ext.refl _, ⟨_, .scalar _, by simp⟩, by simp [sema_initializer_list_is_empty], fun _ => ⟨_, rfl⟩⟩
  | .empty => by
    intro t h v h' hb hp
    by_cases hs : t = .scalar
    · subst hs
      simp [build] at hb
      obtain ⟨rfl, rfl⟩ := hb
      refine ⟨Ext.refl _, ⟨fun _ => False, ?_, by simp⟩, by simp [sema_initializer_list_is_empty], fun _ => ⟨_, rfl⟩⟩
      have : (denote .scalar .empty : Content α) = fun q => if q = [] then none else none := by
        funext q; simp [denote, zeros]
      rw [this]
      exact .scalar none
    · have hb' : v = .init h.length ∧ h' = h ++ [(t, .zero)] := by
        cases t with
        | scalar => exact absurd rfl hs
        | _ => simp [build] at hb; exact ⟨hb.1.symm, hb.2.symm⟩
      obtain ⟨rfl, rfl⟩ := hb'
      have hsc : t.isScalar = false := by cases t <;> first | rfl | exact absurd rfl hs
      refine ⟨Ext.append _ _, ⟨_, .init (.zero (by simp)), by rintro x rfl; exact Nat.le_refl _⟩, by simp [blank, hsc], by simp [hsc]⟩
  | .list vs => by
    intro t h v h' hb hp
    simp only [plain] at hp
    cases t with
    | scalar => simp [build] at hb
    | struct ms =>
      simp only [build, Option.bind_eq_bind, Option.bind_eq_some_iff] at hb
      obtain ⟨⟨l, h1⟩, hl, hb⟩ := hb
      by_cases hle : l.isEmpty = true
      · rw [if_pos hle] at hb; cases hb
      rw [if_neg hle] at hb
      simp only [Option.some.injEq, Prod.mk.injEq] at hb
      obtain ⟨rfl, rfl⟩ := hb
      obtain ⟨e1, gs, k, hge, hden⟩ := buildList_spec vs (.struct ms) 0 ms h l h1 hl hp (fun j u hu => by simpa [Ty.child] using hu) _
        (fun h => show hasArrayList (.struct ms) (.list vs) = true by simp [hasArrayList, h])
      obtain ⟨e2, gs', k', hm, hg'⟩ := cellsOf_spec k
      have hlen := k'.length
      obtain ⟨sep, kids⟩ := k'.sepRoot (n := ms.length) (c := (.struct ms, .struct (cellsOf h1 l).1)) rfl
      have own := Own.struct (a := (cellsOf h1 l).2.length) (by simp) hlen.1 kids sep fun i hi => contentAt_out (by omega)
      refine ⟨e1.trans (e2.trans (Ext.append _ _)), ⟨_, .init (hroot gs gs' hm hden ▸ own), ?_⟩, ?_, by simp [Ty.isScalar]⟩
      · exact Kids.fp_ge (e1.trans e2).len fun g hg x hx => hroot' gs gs' e1 hge hg' g hg x hx
      · rw [empty_last (by simp)]; simp
    | union ms =>
      simp only [build, Option.bind_eq_bind, Option.bind_eq_some_iff] at hb
      obtain ⟨⟨l, h1⟩, hl, hb⟩ := hb
      by_cases hle : l.isEmpty = true
      · rw [if_pos hle] at hb; cases hb
      rw [if_neg hle] at hb
      obtain ⟨e, he, hb⟩ := Option.bind_eq_some_iff.1 hb
      simp only [Option.some.injEq, Prod.mk.injEq] at hb
      obtain ⟨rfl, rfl⟩ := hb
      obtain ⟨e1, gs, k, hge, hden⟩ := buildList_spec vs (.union ms) 0 (ms.take 1) h l h1 hl hp (fun j u hu => by
        rw [List.getElem?_take] at hu
        split at hu
        · simpa [Ty.child] using hu
        · cases hu) _ (fun h => show hasArrayList (.union ms) (.list vs) = true by simp [hasArrayList, h])
      obtain ⟨e2, gs', k', hm, hg'⟩ := cellsOf_spec k
      cases ms with
      | nil =>
        have := k.length
        simp at this
        simp [this.1] at hle
      | cons u ms =>
        simp only [List.take_succ_cons, List.take_zero] at k'
        have hnode := hroot gs gs' hm hden
        have hge' := hroot' gs gs' e1 hge hg'
        generalize (cellsOf h1 l).1 = els at k' he
        cases k' with
        | @cons _ e' m F _ _ gs'' o os dj =>
        cases os
        simp only [List.getElem?_cons_zero, Option.some.injEq] at he
        subst he
        have own := Own.union (ms := u :: ms) (j := 0) (a := (cellsOf h1 l).2.length) (h := (cellsOf h1 l).2 ++ [(.union (u :: ms), .union e' 0)]) (by simp) rfl
          (o.ext (Ext.append _ _)) (fun hx => Nat.lt_irrefl _ (o.lt _ hx))
        have hc : (fun i => if i = 0 then m else zeros) = contentAt [(m, F)] := by
          funext i
          cases i <;> simp [contentAt]
        rw [hc] at own
        refine ⟨e1.trans (e2.trans (Ext.append _ _)), ⟨_, .init (hnode ▸ own), ?_⟩, ?_, by simp [Ty.isScalar]⟩
        · rintro x (rfl | hx)
          · exact (e1.trans e2).len
          · exact hge' (m, F) (by simp) x hx
        · rw [empty_last (by simp)]; simp
    | array len base =>
      simp only [build, Option.bind_eq_bind, Option.bind_eq_some_iff] at hb
      obtain ⟨⟨l, h1⟩, hl, hb⟩ := hb
      by_cases hle : l.isEmpty = true
      · rw [if_pos hle] at hb; cases hb
      rw [if_neg hle] at hb
      simp only [Option.some.injEq, Prod.mk.injEq] at hb
      obtain ⟨rfl, rfl⟩ := hb
      obtain ⟨e1, gs, k, hge, hden⟩ := buildList_spec vs (.array len base) 0 (List.replicate len base) h l h1 hl hp (fun j u hu => by
        rw [List.getElem?_replicate] at hu
        split at hu
        · simpa [Ty.child] using hu
        · cases hu) (hasArrayList (.array len base) (.list vs)) (fun h => by simp [hasArrayList, h])
      obtain ⟨e2, gs', k', hm, hg'⟩ := cellsOf_spec k
      have hlen := k'.length
      simp only [List.length_replicate] at hlen
      obtain ⟨sep, kids⟩ := k'.sepRoot (n := len) (c := (.array len base, .arrayFull (cellsOf h1 l).1)) (by simp)
      have own := Own.full (by simp [hasArrayList, Ty.isArray]) (a := (cellsOf h1 l).2.length) (by simp) hlen.1 (fun i e he => kids i base e
        (by rw [List.getElem?_replicate, if_pos (hlen.1 ▸ (List.getElem?_eq_some_iff.1 he).1)]) he) sep fun i hi => contentAt_out (by omega)
      refine ⟨e1.trans (e2.trans (Ext.append _ _)), ⟨_, .init (hroot gs gs' hm hden ▸ own), ?_⟩, ?_, by simp [Ty.isScalar]⟩
      · exact Kids.fp_ge (e1.trans e2).len fun g hg x hx => hroot' gs gs' e1 hge hg' g hg x hx
      · rw [empty_last (by simp)]; simp
  | .desig ds => by
    intro t h v h' hb hp
    simp only [plain] at hp
    simp only [build, Option.bind_eq_bind, Option.bind_eq_some_iff] at hb
    obtain ⟨⟨l, h1⟩, hl, hb⟩ := hb
    by_cases hle : l.isEmpty = true
    · rw [if_pos hle] at hb; cases hb
    rw [if_neg hle] at hb
    obtain ⟨h2, ha, hb⟩ := Option.bind_eq_some_iff.1 hb
    simp only [Option.some.injEq, Prod.mk.injEq] at hb
    obtain ⟨rfl, rfl⟩ := hb
    obtain ⟨e1, Fs, td, hge⟩ := buildDesigs_spec ds t h l h1 hl hp (hasArrayList t (.desig ds)) (fun h => by simpa [hasArrayList] using h)
    have td' := td.frame (h' := h1 ++ [(t, .zero)]) fun G hG x hx => List.getElem?_append_left (td.lt G hG x hx)
    obtain ⟨F', r, hz⟩ := applyAll_spec td' (.zero (a := h1.length) (by simp)) (fun G hG x hx hgx => by
      have := td.lt G hG x hgx; omega) ha
    have hr := r.len
    simp only [List.length_append, List.length_cons, List.length_nil] at hr
    have e1l := e1.len
    refine ⟨⟨by omega, fun x hx => ?_⟩, ⟨F', .init r.own, fun x hx => ?_⟩, ?_, ?_⟩
    · rw [r.frame x (by simp; omega) ?_, List.getElem?_append_left (by omega), e1.same x hx]
      rintro (h3 | ⟨G, hG, h3⟩)
      · omega
      · have := hge G hG x h3; omega
    · rcases r.sub x hx with (h3 | ⟨G, hG, h3⟩) | h3 | h3
      · have := e1.len; omega
      · exact hge G hG x h3
      · exact h3.elim
      · have := e1.len
        simp at h3; omega
    · intro he
      simp only [sema_initializer_list_is_empty] at he
      split at he
      · rename_i t'' heq
        simp only [blank]
        exact hz (fun hl0 => by rw [hl0] at hle; exact hle rfl) t'' heq
      · cases he
    · intro hs
      cases t <;> first | cases hs | skip
      exfalso
      cases td with
      | nil => exact hle rfl
      | @cons path _ _ _ _ _ _ _ hp0 ht =>
        cases path with
        | nil => cases hp0
        | cons s p => simp [sema_expr_analyse_designator] at ht

theorem buildList_spec : ∀ (vs : Inits α) (t : Ty) (k : Nat) (ts : List Ty) (h : Heap α) (l : List (Val α)) (h' : Heap α),
    buildList ts vs h = some (l, h') → plainList t k vs = true → (∀ (j : Nat) (u : Ty), ts[j]? = some u → t.child (k + j) = some u) →
    ∀ fl, (listsHave t k vs = true → fl = true) →
    Ext h h' ∧ ∃ gs, Kids (OwnVal fl h') ts l gs ∧ (∀ g, g ∈ gs → ∀ x, g.2 x → h.length ≤ x) ∧
      denoteList t k vs = node fun i => if i < k then zeros else contentAt gs (i - k)
  | .nil => by
    intro t k ts h l h' hb hp hts fl hfl
    cases ts <;> simp [buildList] at hb
    obtain ⟨rfl, rfl⟩ := hb
    refine ⟨Ext.refl _, [], .nil, by simp, ?_⟩
    funext q
    cases q with
    | nil => rfl
    | cons i q => simp [denoteList, node, contentAt, zeros]
  | .cons v vs => by
    intro t k ts h l h' hb hp hts fl hfl
    cases ts with
    | nil => simp [buildList] at hb
    | cons u ts =>
      simp only [buildList, Option.bind_eq_bind, Option.bind_eq_some_iff] at hb
      obtain ⟨⟨x, h1⟩, hb1, ⟨l', h2⟩, hb2, hb⟩ := hb
      simp only [Option.some.injEq, Prod.mk.injEq] at hb
      obtain ⟨rfl, rfl⟩ := hb
      have hu : t.child k = some u := by simpa using hts 0 u rfl
      simp only [plainList, hu, Option.getD_some, Bool.and_eq_true] at hp
      simp only [listsHave, hu, Option.getD_some, Bool.or_eq_true] at hfl
      obtain ⟨e1, ⟨F, ov, hF⟩, -, -⟩ := build_spec v u h x h1 hb1 hp.1
      obtain ⟨e2, gs, ks, hge, hden⟩ := buildList_spec vs t (k + 1) ts h1 l' h2 hb2 hp.2 (fun j w hw => by
        rw [Nat.add_assoc, Nat.add_comm 1]; exact hts (j + 1) w (by simpa using hw)) fl fun h => hfl (.inr h)
      replace ov := ov.mono fun h => hfl (.inl h)
      refine ⟨e1.trans e2, (denote u v, F) :: gs, .cons (ov.ext e2) ks ?_, ?_, ?_⟩
      · intro g hg x hx hx'
        have h3 := ov.lt x hx
        have h4 := hge g hg x hx'
        omega
      · intro g hg x hx
        rcases List.mem_cons.1 hg with rfl | hg
        · exact hF x hx
        · exact Nat.le_trans e1.len (hge g hg x hx)
      · funext q
        cases q with
        | nil => rfl
        | cons i q =>
          simp only [denoteList, hu, Option.getD_some, node, hden]
          by_cases h1 : i = k
          · subst h1; simp [contentAt]
          · by_cases h2 : i < k
            · rw [if_neg h1, if_pos h2, if_pos (by omega)]
            · rw [if_neg h1, if_neg h2, if_neg (by omega)]
              obtain ⟨n, hn⟩ : ∃ n, i - k = n + 1 := ⟨i - k - 1, by omega⟩
              have hn' : i - (k + 1) = n := by omega
              rw [hn, hn']
              simp [contentAt]

theorem buildDesigs_spec : ∀ (ds : Desigs α) (t : Ty) (h : Heap α) (l : List (List Step × Val α)) (h' : Heap α),
    buildDesigs t ds h = some (l, h') → plainDesigs t ds = true → ∀ fl, (desigsHave t ds = true → fl = true) →
    Ext h h' ∧ ∃ Fs, Todo fl h' t ds l Fs ∧ ∀ G, G ∈ Fs → ∀ x, G x → h.length ≤ x
  | .nil => by
    intro t h l h' hb hp fl hfl
    simp [buildDesigs] at hb
    obtain ⟨rfl, rfl⟩ := hb
    exact ⟨Ext.refl _, [], .nil, by simp⟩
  | .cons path v ds => by
    intro t h l h' hb hp fl hfl
    simp only [buildDesigs] at hb
    by_cases hpe : path.isEmpty = true
    · rw [if_pos hpe] at hb; cases hb
    rw [if_neg hpe] at hb
    simp only [Option.bind_eq_bind, Option.bind_eq_some_iff] at hb
    obtain ⟨t', ht, ⟨x, h1⟩, hb1, ⟨l', h2⟩, hb2, hb⟩ := hb
    simp only [Option.some.injEq, Prod.mk.injEq] at hb
    obtain ⟨rfl, rfl⟩ := hb
    simp only [plainDesigs, analyse_typeAt path ht, Option.getD_some, Bool.and_eq_true, Bool.or_eq_true, Bool.not_eq_true'] at hp
    obtain ⟨⟨⟨⟨hp1, hp2⟩, hp3⟩, hp4⟩, hp5⟩ := hp
    obtain ⟨e1, ⟨F, ov, hF⟩, hbl, hsc⟩ := build_spec v t' h x h1 hb1 hp4
    simp only [desigsHave, analyse_typeAt path ht, Option.getD_some, Bool.or_eq_true] at hfl
    replace ov := ov.mono fun h => hfl (.inl h)
    obtain ⟨e2, Fs, td, hge⟩ := buildDesigs_spec ds t h1 l' h2 hb2 hp5 fl fun h => hfl (.inr h)
    have hem : sema_initializer_list_is_empty h2 x = sema_initializer_list_is_empty h1 x :=
      ov.empty_frame fun y hy => e2.same y (ov.lt y hy)
    refine ⟨e1.trans e2, F :: Fs, .cons (by simpa using hpe) ht hp3 (ov.ext e2) ?_ ?_ ?_ td ?_, ?_⟩
    · intro hw
      rcases hp1 with h3 | h3
      · rw [h3] at hw; cases hw
      · exact hsc h3
    · intro hs
      rw [hem]
      rcases hp2 with h3 | h3
      · rw [h3] at hs; cases hs
      · cases hx : sema_initializer_list_is_empty h1 x with
        | false => rfl
        | true => rw [hbl hx] at h3; cases h3
    · rw [hem]; exact hbl
    · intro G hG y hy hy'
      have h3 := ov.lt y hy
      have h4 := hge G hG y hy'
      omega
    · intro G hG y hy
      rcases List.mem_cons.1 hG with rfl | hG
      · exact hF y hy
      · exact Nat.le_trans e1.len (hge G hG y hy)

end

end C3.ConstInit
