import Verif.ConstInit.LemmasUpdate

/-! # Designators of unions -/

set_option autoImplicit false

namespace C3.ConstInit

variable {α : Type} {fl : Bool}

theorem node_zeros : (zeros : Content α) = node fun _ => zeros := by
  funext q; cases q <;> rfl

theorem Own.union_node {h : Heap α} {ms : List Ty} {a : Nat} {m : Content α} {F : Nat → Prop} (o : Own fl h (.union ms) a m F) :
    ∃ M, m = node M := by
  cases o with
  | zero => exact ⟨_, node_zeros⟩
  | union => exact ⟨_, rfl⟩

theorem unionElement_spec {h h1 : Heap α} {ms : List Ty} {a i sub : Nat} {t : Ty} {m : Content α} {F : Nat → Prop} {n : Node α}
    (o : Own fl h (.union ms) a m F) (hn : h[a]? = some (.union ms, n)) (ht : ms[i]? = some t) (he : unionElement h i t n = some (sub, h1)) :
    ∃ M Fk, m = node M ∧ Own fl (h1.set a (.union ms, .union sub i)) t sub (M i) Fk ∧ ¬ Fk a ∧ a < h1.length ∧ h.length ≤ h1.length ∧
      (∀ x, Fk x → F x ∨ h.length ≤ x) ∧ (∀ x, x < h.length → ¬ F x → h1[x]? = h[x]?) := by
  have ha := lt_of_get hn
  cases o with
  | zero hz =>
    rw [hz] at hn; cases hn
    simp only [unionElement, alloc, Option.some.injEq, Prod.mk.injEq] at he
    obtain ⟨rfl, rfl⟩ := he
    refine ⟨fun _ => zeros, (· = h.length), node_zeros, .zero ?_, by omega, by simp; omega, by simp, fun x hx => Or.inr (by omega), ?_⟩
    · rw [get_set_ne (by omega)]; simp
    · intro x hx _
      rw [List.getElem?_append_left hx]
  | @union _ e j _ tj mj Fj hz htj kid sep =>
    rw [hz] at hn; cases hn
    have hea : e ≠ a := fun h => sep (h ▸ kid.root)
    have hel := kid.lt e kid.root
    simp only [unionElement] at he
    by_cases hij : i = j
    · subst hij
      rw [ht] at htj; cases htj
      obtain ⟨n, hkc, -⟩ := kid.cell
      simp only [ne_eq, not_true_eq_false, if_false, hkc, Option.map_some, Option.some.injEq, Prod.mk.injEq] at he
      obtain ⟨rfl, rfl⟩ := he
      have same : h.set e (t, n) = h := by
        apply List.ext_getElem?
        intro x
        by_cases hx : x = e
        · subst hx; rw [get_set_self hel, hkc]
        · rw [get_set_ne hx]
      rw [same]
      refine ⟨_, Fj, rfl, ?_, sep, ha, Nat.le_refl _, fun x hx => Or.inl (Or.inr hx), fun _ _ _ => rfl⟩
      simp only [if_true]
      exact kid.frame fun x hx => get_set_ne (fun (e : x = a) => sep (e ▸ hx)) _
    · simp only [ne_eq, hij, not_false_eq_true, if_true, Option.some.injEq, Prod.mk.injEq] at he
      obtain ⟨rfl, rfl⟩ := he
      refine ⟨_, (· = e), rfl, ?_, fun h => hea h.symm, by simpa using ha, by simp, ?_, ?_⟩
      · simp only [if_neg hij]
        refine .zero ?_
        rw [get_set_ne hea, get_set_self hel]
      · rintro x rfl; exact Or.inl (Or.inr kid.root)
      · intro x _ hx
        exact get_set_ne (fun (h : x = e) => hx (Or.inr (h ▸ kid.root))) _

theorem union_upd {nb sc z r last : Bool} {k : Update α} {ms : List Ty} {i : Nat} {t t' : Ty} {ps : List (List Nat)} (hk : Upd fl nb sc z r k t t' ps)
    (ht : ms[i]? = some t) (hl : last = true → ps = [[]]) (hps : ps ≠ []) :
    Upd fl nb sc last false (updateUnion last k ms i) (.union ms) t' (ps.map (i :: ·)) := by
  intro h a v h' v' m w F Fv hu o ov dj hnb hsc
  obtain ⟨n, hn, -⟩ := o.cell
  have ha := lt_of_get hn
  have hps' : ps.isEmpty = false := by simp [hps]
  simp only [updateUnion, hn, Option.bind_eq_bind, Option.bind_some] at hu
  by_cases hcond : (last && sema_initializer_list_is_empty h v) = true
  · rw [if_pos hcond] at hu
    simp only [Option.some.injEq, Prod.mk.injEq] at hu
    obtain ⟨rfl, rfl⟩ := hu
    simp only [Bool.and_eq_true] at hcond
    obtain ⟨hlast, hemp⟩ := hcond
    cases ov with
    | scalar x => simp [sema_initializer_list_is_empty] at hemp
    | @init _ b _ _ ob =>
      have hz : ∃ t'', h[b]? = some (t'', .zero) := by
        simp only [sema_initializer_list_is_empty] at hemp
        split at hemp
        · exact ⟨_, by assumption⟩
        · cases hemp
      obtain ⟨t'', hz⟩ := hz
      have hw := ob.of_zero hz
      subst hw
      obtain ⟨M, rfl⟩ := o.union_node
      refine ⟨⟨(· = a), ?_, by simp, fun x hx => Or.inl (by rw [hx]; exact o.root), ?_⟩, fun x hx => hx, fun t'' n hz' => ⟨fun _ => ⟨hlast, hemp⟩, fun els hn => by rw [get_set_self ha, hn] at hz'; cases hz'⟩⟩
      · rw [writes_cons (t' := t) (show (Ty.union ms).child i = some t from ht), hl hlast]
        have : (node fun j => if j = i then [[]].foldl (fun m p => write t m p (zeros : Content α)) (M i)
            else if (Ty.union ms).isUnion && !([[]] : List (List Nat)).isEmpty then zeros else M j) = zeros := by
          funext q
          cases q with
          | nil => rfl
          | cons j q => by_cases hj : j = i <;> simp [node, write_nil, Ty.isUnion, hj, zeros]
        rw [this]
        exact .zero (get_set_self ha _)
      · intro x _ hx
        exact get_set_ne (fun (e : x = a) => hx (e ▸ o.root)) _
  · rw [if_neg hcond] at hu
    simp only [ht, Option.bind_some, Option.bind_eq_some_iff] at hu
    obtain ⟨⟨sub, h1⟩, he, hu⟩ := hu
    obtain ⟨M, Fk, rfl, ok, hka, ha1, hlen, hsub, hfr⟩ := unionElement_spec o hn ht he
    have hfr1 : ∀ x, x < h.length → ¬ F x → (h1.set a (.union ms, .union sub i))[x]? = h[x]? := by
      intro x hx hf
      rw [get_set_ne (fun (e : x = a) => hf (e ▸ o.root)), hfr x hx hf]
    have ovf : ∀ x, Fv x → (h1.set a (.union ms, .union sub i))[x]? = h[x]? := fun x hx => hfr1 x (ov.lt x hx) fun h => dj x h hx
    have dj1 : ∀ x, Fk x → ¬ Fv x := by
      intro x hx hv
      rcases hsub x hx with h1 | h1
      · exact dj x h1 hv
      · have := ov.lt x hv; omega
    obtain ⟨⟨F', r⟩, hv, -⟩ := hk _ sub v h' v' (M i) w Fk Fv hu ok (ov.frame ovf) dj1
      (fun hb => by rw [ov.empty_frame ovf]; exact hnb hb) hsc
    have hlen' : h1.length ≤ h'.length := by simpa using r.len
    refine ⟨⟨fun x => x = a ∨ F' x, ?_, by omega, ?_, ?_⟩, hv, fun t'' n hz => ?_⟩
    · rw [writes_cons (t' := t) (show (Ty.union ms).child i = some t from ht)]
      have : (node fun j => if j = i then ps.foldl (fun m p => write t m p w) (M i)
          else if (Ty.union ms).isUnion && !ps.isEmpty then zeros else M j) =
          node fun j => if j = i then ps.foldl (fun m p => write t m p w) (M i) else zeros := by
        congr 1
        funext j
        simp [Ty.isUnion, hps]
      rw [this]
      refine .union (ms := ms) ?_ ht r.own ?_
      · rw [r.frame a (by simpa using ha1) hka]
        exact get_set_self ha1 _
      · intro hx
        rcases r.sub a hx with h1 | h1 | h1
        · exact hka h1
        · exact dj a o.root h1
        · simp at h1; omega
    · rintro x (rfl | hx)
      · exact Or.inl o.root
      · rcases r.sub x hx with h1 | h1 | h1
        · rcases hsub x h1 with h2 | h2
          · exact Or.inl h2
          · exact Or.inr (Or.inr h2)
        · exact Or.inr (Or.inl h1)
        · simp at h1; exact Or.inr (Or.inr (by omega))
    · intro x hx hf
      rw [r.frame x (by simp; omega) ?_, hfr1 x hx hf]
      intro h2
      rcases hsub x h2 with h3 | h3
      · exact hf h3
      · omega
    · rw [r.frame a (by simpa using ha1) hka, get_set_self ha1] at hz
      cases hz
      exact ⟨nofun, nofun⟩

end C3.ConstInit
