import Verif.Mangle.Spec

/-!
# Reading words
-/

set_option autoImplicit false

namespace C3.Mangle

/-- The text does not begin with a character of a word. -/
def NoWord (r : Name) : Prop := ∀ c r', r = c :: r' → wordChar c = false

/-- What follows a mangled type. -/
def Fol (r : Name) : Prop := r = [] ∨ ∃ r', r = '$' :: r'

theorem fol_cons (r : Name) : Fol ('$' :: r) := Or.inr ⟨r, rfl⟩

theorem noWord_of_fol {r : Name} (h : Fol r) : NoWord r := by
  intro c r' e
  rcases h with h | ⟨q, h⟩
  · rw [h] at e; cases e
  · rw [h] at e; injection e with e1 e2; subst e1; decide

theorem noWord_dollar (r : Name) : NoWord ('$' :: r) := noWord_of_fol (fol_cons r)

theorem noWord_dot (r : Name) : NoWord ('.' :: r) := by
  intro c r' e
  injection e with e1 e2; subst e1; decide

/-- A word is read in one way. -/
theorem word_split {w w' r r' : Name} (hw : ∀ c ∈ w, wordChar c = true)
    (hw' : ∀ c ∈ w', wordChar c = true) (hr : NoWord r) (hr' : NoWord r')
    (h : w ++ r = w' ++ r') : w = w' ∧ r = r' := by
  induction w generalizing w' with
  | nil =>
    cases w' with
    | nil => exact ⟨rfl, h⟩
    | cons c w' =>
      have := hr c (w' ++ r') h
      have := hw' c (by simp)
      simp_all
  | cons c w ih =>
    cases w' with
    | nil =>
      have := hr' c (w ++ r) h.symm
      have := hw c (by simp)
      simp_all
    | cons c' w' =>
      injection h with h1 h2
      have := ih (fun x hx => hw x (by simp [hx])) (fun x hx => hw' x (by simp [hx])) h2
      exact ⟨by rw [h1, this.1], this.2⟩

/-- Words separated by dots. -/
def dotted : List Name → Name
  | [] => []
  | [w] => w
  | w :: ws => w ++ '.' :: dotted ws

theorem dotted_cons {w : Name} {ws : List Name} (h : ws ≠ []) :
    dotted (w :: ws) = w ++ '.' :: dotted ws := by
  cases ws with
  | nil => exact absurd rfl h
  | cons a b => rfl

theorem dotted_append {vs ws : List Name} (hv : vs ≠ []) (hw : ws ≠ []) :
    dotted (vs ++ ws) = dotted vs ++ '.' :: dotted ws := by
  induction vs with
  | nil => exact absurd rfl hv
  | cons v vs ih =>
    cases vs with
    | nil => exact dotted_cons hw
    | cons a b =>
      rw [List.cons_append, dotted_cons (w := v) (ws := (a :: b) ++ ws) (by simp), ih (by simp),
        dotted_cons (w := v) (ws := a :: b) (by simp)]
      simp

/-- What follows a list of words. -/
def NoDot (r : Name) : Prop := NoWord r ∧ ∀ r', r ≠ '.' :: r'

theorem noDot_of_fol {r : Name} (h : Fol r) : NoDot r := by
  refine ⟨noWord_of_fol h, ?_⟩
  intro r' e
  rcases h with h | ⟨q, h⟩
  · rw [h] at e; cases e
  · rw [h] at e; injection e with e1 e2; exact absurd e1 (by decide)

theorem dotted_split {ws ws' : List Name} {r r' : Name} (hn : ws ≠ []) (hn' : ws' ≠ [])
    (hw : ∀ w ∈ ws, Word w) (hw' : ∀ w ∈ ws', Word w) (hr : NoDot r) (hr' : NoDot r')
    (h : dotted ws ++ r = dotted ws' ++ r') : ws = ws' ∧ r = r' := by
  induction ws generalizing ws' with
  | nil => exact absurd rfl hn
  | cons w ws ih =>
    cases ws' with
    | nil => exact absurd rfl hn'
    | cons w' ws' =>
      have a := (hw w (by simp)).word
      have a' := (hw' w' (by simp)).word
      by_cases e : ws = [] <;> by_cases e' : ws' = []
      · subst e; subst e'
        obtain ⟨x, y⟩ := word_split a a' hr.1 hr'.1 h
        exact ⟨by rw [x], y⟩
      · subst e
        rw [dotted_cons e', List.append_assoc] at h
        obtain ⟨x, y⟩ := word_split a a' hr.1 (noWord_dot _) h
        exact absurd y (hr.2 _)
      · subst e'
        rw [dotted_cons e, List.append_assoc] at h
        obtain ⟨x, y⟩ := word_split a a' (noWord_dot _) hr'.1 h
        exact absurd y.symm (hr'.2 _)
      · rw [dotted_cons e, dotted_cons e', List.append_assoc, List.append_assoc] at h
        obtain ⟨x, y⟩ := word_split a a' (noWord_dot _) (noWord_dot _) h
        injection y with _ y
        obtain ⟨p, q⟩ := ih e e' (fun w h => hw w (by simp [h])) (fun w h => hw' w (by simp [h])) y
        exact ⟨by rw [x, p], q⟩

/-- Words separated by '_'. -/
def joined : List Name → Name
  | [] => []
  | [w] => w
  | w :: ws => w ++ '_' :: joined ws

theorem joined_cons {w : Name} {ws : List Name} (h : ws ≠ []) :
    joined (w :: ws) = w ++ '_' :: joined ws := by
  cases ws with
  | nil => exact absurd rfl h
  | cons a b => rfl

theorem split_at {w w' r r' : Name} {c : Char} (hw : c ∉ w) (hw' : c ∉ w')
    (h : w ++ c :: r = w' ++ c :: r') : w = w' ∧ r = r' := by
  induction w generalizing w' with
  | nil =>
    cases w' with
    | nil => injection h with _ h; exact ⟨rfl, h⟩
    | cons a w' => injection h with h1 h2; subst h1; exact absurd (by simp) hw'
  | cons a w ih =>
    cases w' with
    | nil => injection h with h1 h2; subst h1; exact absurd (by simp) hw
    | cons a' w' =>
      injection h with h1 h2
      obtain ⟨x, y⟩ := ih (fun e => hw (by simp [e])) (fun e => hw' (by simp [e])) h2
      exact ⟨by rw [h1, x], y⟩

theorem joined_inj {ws ws' : List Name} (hn : ws ≠ []) (hn' : ws' ≠ [])
    (hw : ∀ w ∈ ws, '_' ∉ w) (hw' : ∀ w ∈ ws', '_' ∉ w)
    (h : joined ws = joined ws') : ws = ws' := by
  induction ws generalizing ws' with
  | nil => exact absurd rfl hn
  | cons w ws ih =>
    cases ws' with
    | nil => exact absurd rfl hn'
    | cons w' ws' =>
      have a := hw w (by simp)
      have a' := hw' w' (by simp)
      by_cases e : ws = [] <;> by_cases e' : ws' = []
      · subst e; subst e'
        have : w = w' := h
        rw [this]
      · subst e
        rw [dotted_free e'] at h
        exact absurd (by rw [show joined [w] = w from rfl] at h; rw [h]; simp) a
      · subst e'
        rw [dotted_free e] at h
        exact absurd (by rw [show joined [w'] = w' from rfl] at h; rw [← h]; simp) a'
      · rw [joined_cons e, joined_cons e'] at h
        obtain ⟨x, y⟩ := split_at a a' h
        rw [x, ih e e' (fun w h => hw w (by simp [h])) (fun w h => hw' w (by simp [h])) y]
where
  dotted_free {w : Name} {ws : List Name} (h : ws ≠ []) :
      joined (w :: ws) = w ++ '_' :: joined ws := joined_cons h

/-! ## The path of a module -/

theorem appendLoop_word (x : Bool) {w : Name} (hw : ∀ c ∈ w, wordChar c = true) (r : Name) :
    appendLoop x false (w ++ r) = w ++ appendLoop x false r := by
  induction w with
  | nil => rfl
  | cons c w ih =>
    have hc := hw c (by simp)
    have h1 : c ≠ ':' := by intro e; subst e; exact absurd hc (by decide)
    have h2 : c ≠ '.' := by intro e; subst e; exact absurd hc (by decide)
    rw [List.cons_append, appendLoop, if_neg h1, if_neg h2,
      ih (fun a h => hw a (by simp [h]))]
    rfl

theorem pathText_cons {w : Name} {ws : List Name} (h : ws ≠ []) :
    pathText (w :: ws) = w ++ ':' :: ':' :: pathText ws := by
  cases ws with
  | nil => exact absurd rfl h
  | cons a b => rfl

theorem appendLoop_path_false {ws : List Name} (hw : ∀ w ∈ ws, Word w) :
    appendLoop false false (pathText ws) = dotted ws := by
  induction ws with
  | nil => rfl
  | cons w ws ih =>
    by_cases e : ws = []
    · subst e
      have := appendLoop_word false (hw w (by simp)).word []
      simpa [appendLoop, pathText, dotted] using this
    · rw [pathText_cons e, appendLoop_word false (hw w (by simp)).word, dotted_cons e, appendLoop,
        if_pos rfl, appendLoop, ih (fun a h => hw a (by simp [h]))]
      rfl

theorem appendLoop_path_true {ws : List Name} (hw : ∀ w ∈ ws, Word w) :
    appendLoop true false (pathText ws) = joined ws := by
  induction ws with
  | nil => rfl
  | cons w ws ih =>
    by_cases e : ws = []
    · subst e
      have := appendLoop_word true (hw w (by simp)).word []
      simpa [appendLoop, pathText, joined] using this
    · rw [pathText_cons e, appendLoop_word true (hw w (by simp)).word, joined_cons e, appendLoop,
        if_pos rfl, appendLoop, ih (fun a h => hw a (by simp [h]))]
      rfl

/-- A text without ':' is kept. -/
theorem appendLoop_id {s : Name} (h : ':' ∉ s) : appendLoop false false s = s := by
  induction s with
  | nil => rfl
  | cons c s ih =>
    have h1 : c ≠ ':' := by intro e; subst e; exact h (by simp)
    rw [appendLoop, if_neg h1, ih (fun e => h (by simp [e]))]
    by_cases h2 : c = '.'
    · rw [if_pos h2, h2]; rfl
    · rw [if_neg h2]

theorem joined_word {ws : List Name} (hn : ws ≠ []) (hw : ∀ w ∈ ws, Word w) : Word (joined ws) := by
  induction ws with
  | nil => exact absurd rfl hn
  | cons w ws ih =>
    by_cases e : ws = []
    · subst e; exact hw w (by simp)
    · rw [joined_cons e]
      have hi := ih e (fun a h => hw a (by simp [h]))
      refine ⟨by simp, ?_⟩
      intro c hc
      rcases List.mem_append.1 hc with h | h
      · exact (hw w (by simp)).word c h
      · rcases List.mem_cons.1 h with h | h
        · subst h; decide
        · exact hi.word c h

/-! ## Numbers -/

theorem digits_inj {n m : Nat} (h : digits n = digits m) : n = m := by
  have := congrArg (fun s => Nat.ofDigitChars 10 s 0) h
  simpa [digits, Nat.ofDigitChars_ten_toDigits] using this

theorem digits_ne (n : Nat) : digits n ≠ [] := Nat.toDigits_ne_nil

theorem digits_digit {n : Nat} {c : Char} (h : c ∈ digits n) : c.isDigit = true :=
  Nat.isDigit_of_mem_toDigits (by decide) (by decide) h

theorem digit_word {c : Char} (h : c.isDigit = true) : wordChar c = true := by
  simp only [Char.isDigit, Bool.and_eq_true, decide_eq_true_eq] at h
  simp only [wordChar, Bool.or_eq_true, Bool.and_eq_true, decide_eq_true_eq]
  exact Or.inl (Or.inr h)

theorem digits_word {n : Nat} : ∀ c ∈ digits n, wordChar c = true :=
  fun _ h => digit_word (digits_digit h)

theorem intText_word (v : Int) : ∀ c ∈ intText v, wordChar c = true := by
  intro c h
  rw [intText] at h
  split at h
  · rcases List.mem_cons.1 h with h | h
    · subst h; decide
    · exact digits_word c h
  · exact digits_word c h

theorem underscore_digits (n : Nat) : '_' ∉ digits n := Nat.underscore_not_in_toDigits

theorem intText_inj {v v' : Int} (h : intText v = intText v') : v = v' := by
  rw [intText, intText] at h
  split at h <;> split at h
  · injection h with _ h
    have := digits_inj h
    omega
  · exact absurd (show '_' ∈ digits v'.natAbs by rw [← h]; simp) (underscore_digits _)
  · exact absurd (show '_' ∈ digits v.natAbs by rw [h]; simp) (underscore_digits _)
  · have := digits_inj h
    omega

end C3.Mangle
