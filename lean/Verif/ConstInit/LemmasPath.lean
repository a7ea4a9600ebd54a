import Verif.ConstInit.LemmasArray

/-! # Whole paths -/

set_option autoImplicit false

namespace C3.ConstInit

variable {α : Type} {fl : Bool}

theorem arrayLoop_spec {nb sc z r : Bool} {k : Update α} {base t' : Ty} {ps : List (List Nat)} (hk : Upd fl nb sc z r k base t' ps) {len a : Nat} :
    ∀ (n lo ins : Nat) (h : Heap α) (v : Val α) (h' : Heap α) (v' : Val α) (L : List Nat) (C E : Nat → Nat) (T : Nat → Ty)
      (M : Nat → Content α) (F : Nat → Nat → Prop) (w : Content α) (Fv : Nat → Prop),
    arrayLoop k base a n lo ins h v = some (h', v') → Arr fl h len base a L C E T M F → ins ≤ L.length → (∀ j, j ∈ L.take ins → j < lo) →
    lo + n ≤ len → OwnVal fl h t' v w Fv → (∀ x, arrFp a L C F x → ¬ Fv x) →
    (nb = true → sema_initializer_list_is_empty h v = false) → (sc = true → ∃ x, v = .scalar x) → (2 ≤ n → ∃ x, v = .scalar x) →
    (∃ F', Res fl h h' (.array len base) a
      (((List.range' lo n).flatMap fun i => ps.map (i :: ·)).foldl (fun m p => write (.array len base) m p w) (node M)) (arrFp a L C F) Fv F') ∧
    (∀ x, v = .scalar x → v' = .scalar x) ∧ (0 < n ∨ L ≠ [] → ∃ els, h'[a]? = some (.array len base, .array els)) := by
  intro n
  induction n with
  | zero =>
    intro lo ins h v h' v' L C E T M F w Fv hu s hins hlt hlen ov dj hnb hsc h2
    simp only [arrayLoop, Option.some.injEq, Prod.mk.injEq] at hu
    obtain ⟨rfl, rfl⟩ := hu
    refine ⟨⟨_, s.own, Nat.le_refl _, fun x hx => .inl hx, fun _ _ _ => rfl⟩, fun x hx => hx, ?_⟩
    rintro (hn | hn)
    · omega
    · rcases s.ha with ha | ⟨_, ha⟩
      · exact ⟨_, ha⟩
      · exact absurd ha hn
  | succ n ih =>
    intro lo ins h v h' v' L C E T M F w Fv hu s hins hlt hlen ov dj hnb hsc h2
    obtain ⟨nd, hnd, hel, hwe⟩ : ∃ nd : Node α, h[a]? = some (.array len base, nd) ∧ elementsOf nd = some (L.map C) ∧
        ∀ els, withElements els nd = .array els := by
      rcases s.ha with ha | ⟨ha, rfl⟩
      · exact ⟨_, ha, rfl, fun _ => rfl⟩
      · exact ⟨_, ha, rfl, fun _ => rfl⟩
    simp only [arrayLoop, hnd, Option.bind_eq_bind, Option.bind_some, hel, hwe, Option.bind_eq_some_iff] at hu
    obtain ⟨⟨e, els, pos, h1⟩, hf, ⟨h2', v2⟩, hk', hu⟩ := hu
    obtain ⟨L1, C1, E1, T1, F1, s1, hels, hi, he, hpos, hlt1, hlen1, hfr1, hsub1⟩ := s.find (by omega) hlt hins hf
    subst he
    have al := lt_of_get hnd
    have ovf : ∀ x, Fv x → (h1.set a (.array len base, .array els))[x]? = h[x]? := fun x hx =>
      hfr1 x (ov.lt x hx) fun (e : x = a) => dj x (.inl e) hx
    have dj1 : ∀ x, arrFp a L1 C1 F1 x → ¬ Fv x := by
      intro x hx hv
      rcases hsub1 x hx with h3 | h3
      · exact dj x h3 hv
      · have := ov.lt x hv; omega
    obtain ⟨⟨F', r⟩, hv, -⟩ := hk _ _ v h2' v2 (M lo) w (F1 lo) Fv hk' (s1.kids lo hi) (ov.frame ovf)
      (fun x hx => dj1 x (.inr ⟨lo, hi, .inr hx⟩)) (fun hb => by rw [ov.empty_frame ovf]; exact hnb hb) hsc
    obtain ⟨F2, s2, hsub2, hfr2⟩ := s1.change hi r dj1
    have hlen2 : h1.length ≤ h2'.length := by simpa using r.len
    have fold : ∀ m, ((List.range' lo (n + 1)).flatMap fun i => ps.map (i :: ·)).foldl (fun m p => write (.array len base) m p w) m =
        ((List.range' (lo + 1) n).flatMap fun i => ps.map (i :: ·)).foldl (fun m p => write (.array len base) m p w)
          ((ps.map (lo :: ·)).foldl (fun m p => write (.array len base) m p w) m) := by
      intro m
      rw [List.range'_succ, List.flatMap_cons, List.foldl_append]
    have hM : (ps.map (lo :: ·)).foldl (fun m p => write (.array len base) m p w) (node M) =
        node fun j => if j = lo then ps.foldl (fun m p => write base m p w) (M lo) else M j := by
      rw [writes_cons (t' := base) (show (Ty.array len base).child lo = some base from rfl)]
      simp [Ty.isUnion]
    rw [fold, hM]
    -- the cells of the tree after the first step
    have sub' : ∀ x, arrFp a L1 C1 F2 x → arrFp a L C F x ∨ Fv x ∨ h.length ≤ x := by
      intro x hx
      rcases hsub2 x hx with h3 | h3 | h3
      · rcases hsub1 x h3 with h4 | h4
        · exact .inl h4
        · exact .inr (.inr h4)
      · exact .inr (.inl h3)
      · simp at h3; exact .inr (.inr (by omega))
    have fr' : ∀ x, x < h.length → ¬ arrFp a L C F x → h2'[x]? = h[x]? := by
      intro x hx hn
      rw [hfr2 x (by simp; omega) ?_, hfr1 x hx fun e => hn (.inl e)]
      intro h3
      rcases hsub1 x h3 with h4 | h4
      · exact hn h4
      · omega
    cases n with
    | zero =>
      simp only [arrayLoop, Option.some.injEq, Prod.mk.injEq] at hu
      obtain ⟨rfl, rfl⟩ := hu
      refine ⟨⟨_, s2.own, by omega, sub', fr'⟩, hv, ?_⟩
      rintro -
      rcases s2.ha with ha | ⟨_, ha⟩
      · exact ⟨_, ha⟩
      · rw [ha] at hi; cases hi
    | succ n =>
      obtain ⟨x0, rfl⟩ := h2 (by omega)
      have hv2 := hv x0 rfl
      subst hv2
      cases ov with
      | scalar x0 =>
      obtain ⟨⟨F3, r3⟩, hv3, hz3⟩ := ih (lo + 1) pos h2' (.scalar x0) h' v' L1 C1 E1 T1 _ F2 _ (fun _ => False) hu s2 hpos
        (fun j hj => by have := hlt1 j hj; omega) (by omega) (.scalar x0) (fun _ _ h => h) (fun _ => rfl) (fun _ => ⟨x0, rfl⟩) (fun _ => ⟨x0, rfl⟩)
      refine ⟨⟨F3, r3.own, by have := r3.len; omega, ?_, ?_⟩, hv3, fun _ => hz3 (.inl (by omega))⟩
      · intro x hx
        rcases r3.sub x hx with h4 | h4 | h4
        · exact sub' x h4
        · exact h4.elim
        · exact .inr (.inr (by omega))
      · intro x hx hn
        rw [r3.frame x (by omega) ?_, fr' x hx hn]
        intro h4
        rcases sub' x h4 with h5 | h5 | h5
        · exact hn h5
        · exact h5
        · omega

theorem array_upd {nb sc z r : Bool} {k : Update α} {base t' : Ty} {ps : List (List Nat)} (hk : Upd fl nb sc z r k base t' ps) {len lo hi : Nat}
    (hlh : lo ≤ hi) (hh : hi < len) :
    Upd fl nb (sc || decide (lo < hi)) false false (updateArray k base lo hi) (.array len base) t'
      ((List.range' lo (hi + 1 - lo)).flatMap fun i => ps.map (i :: ·)) := by
  intro h a v h' v' m w F Fv hu o ov dj hnb hsc
  rcases o.arr with ⟨L, C, E, T, M, F', s, rfl, rfl⟩ | ⟨-, els, ha, hl, hc⟩
  · obtain ⟨r, hv, hz⟩ := arrayLoop_spec hk (hi + 1 - lo) lo 0 h v h' v' L C E T M F' w Fv hu s (by simp) (by simp) (by omega) ov dj hnb
      (fun hb => hsc (by simp [hb])) (fun h2 => hsc (by simp; omega))
    obtain ⟨els, he⟩ := hz (.inl (by omega))
    exact ⟨r, hv, fun t'' n h => by rw [he] at h; cases h; exact ⟨nofun, nofun⟩⟩
  · exfalso
    obtain ⟨n, hn⟩ : ∃ n, hi + 1 - lo = n + 1 := ⟨hi - lo, by omega⟩
    obtain ⟨e, els', rfl⟩ : ∃ e els', els = e :: els' := by
      cases els with
      | nil => simp at hl; omega
      | cons e els => exact ⟨e, els, rfl⟩
    obtain ⟨c, hce, hcn⟩ := hc e (by simp)
    have hw : walk h lo (e :: els') 0 = none := by
      simp only [walk, hce]
      split
      · rename_i e' j h1
        exact absurd (by rw [Option.some.inj h1]) (hcn e' j)
      · rfl
    simp [updateArray, hn, arrayLoop, ha, elementsOf, atIndex, hw] at hu

end C3.ConstInit
