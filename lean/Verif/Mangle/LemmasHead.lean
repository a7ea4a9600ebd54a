import Verif.Mangle.LemmasWord

/-!
# The first word of a mangled name
-/

set_option autoImplicit false

namespace C3.Mangle

/-- The name of a module within the name of a declaration that is not exported. -/
def Mod.qual (m : Mod) : Name := appendModule false m.ext m.text

/-! ## Mangled names have no ':' -/

theorem basic_chars (b : Basic) : ∀ c ∈ b.name, wordChar c = true := by
  cases b <;> decide

theorem colon_of_word {w : Name} (h : ∀ c ∈ w, wordChar c = true) : ':' ∉ w := by
  intro e; exact absurd (h _ e) (by decide)

theorem colon_dotted {ws : List Name} (h : ∀ w ∈ ws, Word w) : ':' ∉ dotted ws := by
  induction ws with
  | nil => simp [dotted]
  | cons w ws ih =>
    by_cases e : ws = []
    · subst e; exact colon_of_word (h w (by simp)).word
    · rw [dotted_cons e]
      intro c
      rcases List.mem_append.1 c with c | c
      · exact colon_of_word (h w (by simp)).word c
      · rcases List.mem_cons.1 c with c | c
        · exact absurd c (by decide)
        · exact ih (fun a h' => h a (by simp [h'])) c

theorem declName_plain (me : Option Name) (mt name : Name) :
    declName none false false me mt name = appendModule false me mt ++ ('.' :: name) := by
  simp [declName]

mutual

theorem Ty.colon (P : Program) : ∀ t : Ty, t.Good P → ':' ∉ t.mangle
  | .basic b, _ => by rw [Ty.mangle]; exact colon_of_word (basic_chars b)
  | .any, _ => by rw [Ty.mangle]; decide
  | .ptr t, h => by
    have := Ty.colon P t (by rw [Ty.Good] at h; exact h)
    rw [Ty.mangle]; simp [this]
  | .slice t, h => by
    have := Ty.colon P t (by rw [Ty.Good] at h; exact h)
    rw [Ty.mangle]; simp [this]
  | .flex t, h => by
    have := Ty.colon P t (by rw [Ty.Good] at h; exact h)
    rw [Ty.mangle]; simp [this]
  | .opt t, h => by
    have := Ty.colon P t (by rw [Ty.Good] at h; exact h)
    rw [Ty.mangle]; simp [this]
  | .vec n t, h => by
    have := Ty.colon P t (by rw [Ty.Good] at h; exact h)
    rw [Ty.mangle]; simp [this, colon_of_word (digits_word (n := n))]
  | .arr n t, h => by
    have := Ty.colon P t (by rw [Ty.Good] at h; exact h.2)
    rw [Ty.mangle]; simp [this, colon_of_word (digits_word (n := n))]
  | .func _ _ _, h => by rw [Ty.Good] at h; exact h.elim
  | .user f m name ext ex exp, h => by
    rw [Ty.Good] at h
    obtain ⟨rfl, rfl, rfl, _, hn, hm⟩ := h
    have := Mod.colon P m hm
    rw [Ty.mangle, declName_plain]
    rw [Mod.qual] at this
    simp [this, colon_of_word hn.word]

theorem Mod.colon (P : Program) : ∀ m : Mod, m.Good P → ':' ∉ m.qual
  | .plain path ext, h => by
    rw [Mod.Good] at h
    obtain ⟨rfl, _, hw⟩ := h
    rw [Mod.qual, Mod.ext, Mod.text, appendModule, appendLoop_path_false hw]
    exact colon_dotted hw
  | .inst path ext args, h => by
    rw [Mod.Good] at h
    obtain ⟨rfl, hne, hw, _, _, ha⟩ := h
    have := Args.colon P args ha
    have hj := joined_word hne (fun s hs => (hw s hs).toWord)
    have hc : ':' ∉ (Mod.inst path none args).text := by
      rw [Mod.text, appendModule, appendLoop_path_true (fun s hs => (hw s hs).toWord)]
      simp [this, colon_of_word hj.word]
    rw [Mod.qual, Mod.ext, appendModule, appendLoop_id hc]
    exact hc

theorem Args.colon (P : Program) : ∀ as : Args, as.Good P → ':' ∉ as.text
  | .nil, _ => by rw [Args.text]; simp
  | .cons a .nil, h => by
    rw [Args.Good] at h
    rw [Args.text]; exact Arg.colon P a h.1
  | .cons a (.cons b bs), h => by
    rw [Args.Good] at h
    have h1 := Arg.colon P a h.1
    have h2 := Args.colon P (.cons b bs) h.2
    rw [Args.text]
    simp [h1, h2]
    simp

theorem Arg.colon (P : Program) : ∀ a : Arg, a.Good P → ':' ∉ a.text
  | .type t, h => by
    rw [Arg.Good] at h
    rw [Arg.text]; exact Ty.colon P t h
  | .bool b, _ => by rw [Arg.text]; cases b <;> decide
  | .enum (.user f m name ext ex exp) v, h => by
    rw [Arg.Good] at h
    obtain ⟨⟨rfl, rfl, rfl, _, hn, hm⟩, _, hv⟩ := h
    have := Mod.colon P m hm
    rw [Arg.text, Ty.mangle, declName_plain]
    rw [Mod.qual] at this
    simp [this, colon_of_word hn.word, colon_of_word hv.word]
  | .enum (.basic _) _, h => by simp [Arg.Good] at h
  | .enum .any _, h => by simp [Arg.Good] at h
  | .enum (.ptr _) _, h => by simp [Arg.Good] at h
  | .enum (.slice _) _, h => by simp [Arg.Good] at h
  | .enum (.flex _) _, h => by simp [Arg.Good] at h
  | .enum (.opt _) _, h => by simp [Arg.Good] at h
  | .enum (.vec _ _) _, h => by simp [Arg.Good] at h
  | .enum (.arr _ _) _, h => by simp [Arg.Good] at h
  | .enum (.func _ _ _) _, h => by simp [Arg.Good] at h
  | .fault _ _, h => by rw [Arg.Good] at h; exact h.elim
  | .int b v, _ => by rw [Arg.text]; exact colon_of_word (intText_word v)

end

/-! ## The texts of modules -/

theorem qual_plain {P : Program} {path : List Name} {e : Option Name}
    (h : (Mod.plain path e).Good P) : (Mod.plain path e).qual = dotted path := by
  rw [Mod.Good] at h
  obtain ⟨rfl, _, hw⟩ := h
  rw [Mod.qual, Mod.ext, Mod.text, appendModule, appendLoop_path_false hw]

theorem instName_eq {path : List Name} {args : Args} (h : ∀ s ∈ path, Word s) :
    instName path none args = joined path ++ '$' :: args.text ++ ['$'] := by
  rw [instName, appendModule, appendLoop_path_true h]

theorem qual_inst {P : Program} {path : List Name} {e : Option Name} {args : Args}
    (h : (Mod.inst path e args).Good P) :
    (Mod.inst path e args).qual = joined path ++ '$' :: args.text ++ ['$'] := by
  have hq := h
  rw [Mod.Good] at h
  obtain ⟨rfl, hne, hw, _, _, ha⟩ := h
  have hc : ':' ∉ (Mod.inst path none args).text := by
    rw [Mod.text, appendModule, appendLoop_path_true (fun s hs => (hw s hs).toWord)]
    simp [Args.colon P args ha,
      colon_of_word (joined_word hne (fun s hs => (hw s hs).toWord)).word]
  rw [Mod.qual, Mod.ext, appendModule, appendLoop_id hc, Mod.text, appendModule,
    appendLoop_path_true (fun s hs => (hw s hs).toWord)]

/-! ## Codes -/

theorem code_underscore {w : Name} (h : Code w) : '_' ∉ w := by
  cases h with
  | basic b => cases b <;> decide
  | vec n => simp [underscore_digits]
  | arr n => simp [underscore_digits]
  | _ => decide

theorem low_word {w r : Name} (h : Low w) : Low (w ++ r) := by
  obtain ⟨c, h1, h2⟩ := h
  refine ⟨c, ?_, h2⟩
  cases w with
  | nil => cases h1
  | cons a b => simpa using h1

theorem joined_low {ws : List Name} (hn : ws ≠ []) (h : ∀ w ∈ ws, Low w) : Low (joined ws) := by
  cases ws with
  | nil => exact absurd rfl hn
  | cons w ws =>
    by_cases e : ws = []
    · subst e; exact h w (by simp)
    · rw [joined_cons e]; exact low_word (h w (by simp))

theorem joined_code {ws : List Name} (hn : ws ≠ []) (h : ∀ s, ws = [s] → ¬ Code s) :
    ¬ Code (joined ws) := by
  cases ws with
  | nil => exact absurd rfl hn
  | cons w ws =>
    by_cases e : ws = []
    · subst e; exact h w rfl
    · intro hc
      rw [joined_cons e] at hc
      exact code_underscore hc (by simp)

/-- The first word of a module's text. -/
theorem mod_head {P : Program} {m : Mod} (h : m.Good P) (r : Name) :
    ∃ w q, m.qual ++ '.' :: r = w ++ q ∧ (∀ c ∈ w, wordChar c = true) ∧
      (((∃ q', q = '.' :: q') ∧ ∃ p, m = .plain p none) ∨
       ((∃ q', q = '$' :: q') ∧ ¬ Code w ∧ Low w ∧ ∃ p a, m = .inst p none a)) := by
  cases m with
  | plain path e =>
    rw [qual_plain h]
    rw [Mod.Good] at h
    obtain ⟨rfl, hne, hw⟩ := h
    cases path with
    | nil => exact absurd rfl hne
    | cons s ss =>
      refine ⟨s, ?_⟩
      by_cases e : ss = []
      · subst e
        exact ⟨'.' :: r, rfl, (hw s (by simp)).word, Or.inl ⟨⟨r, rfl⟩, [s], rfl⟩⟩
      · refine ⟨'.' :: (dotted ss ++ '.' :: r), ?_, (hw s (by simp)).word,
          Or.inl ⟨⟨_, rfl⟩, s :: ss, rfl⟩⟩
        rw [dotted_cons e]; simp
  | inst path e args =>
    rw [qual_inst h]
    rw [Mod.Good] at h
    obtain ⟨rfl, hne, hw, hcode, _, _⟩ := h
    refine ⟨joined path, '$' :: (args.text ++ ['$'] ++ '.' :: r), by simp,
      (joined_word hne (fun s hs => (hw s hs).toWord)).word,
      Or.inr ⟨⟨_, rfl⟩, joined_code hne hcode, joined_low hne (fun s hs => (hw s hs).low),
        path, args, rfl⟩⟩

end C3.Mangle
