import Verif.Mangle.LemmasHead

/-!
# Mangled names are read in one way
-/

set_option autoImplicit false

namespace C3.Mangle

/-- The names of the basic types. -/
def basicNames : List Name :=
  [Basic.void, .bool, .ichar, .short, .int, .long, .int128, .char, .ushort, .uint, .ulong,
    .uint128, .float16, .bfloat, .float, .double, .float128, .fault, .typeid].map Basic.name

theorem basicNames_mem (b : Basic) : b.name ∈ basicNames := by cases b <;> decide

theorem basicNames_code {w : Name} (h : w ∈ basicNames) : Code w := by
  rw [basicNames, List.mem_map] at h
  obtain ⟨b, _, rfl⟩ := h
  exact .basic b

theorem basic_inj {b b' : Basic} (h : b.name = b'.name) : b = b' := by
  revert b b'
  intro b b'
  cases b <;> cases b' <;> first | (intro _; rfl) | (intro h; exact absurd h (by decide))

open Classical in
/-- The shape of a type, read off the first word and whether a '.' follows. -/
noncomputable def shapeOf (w : Name) (dot : Prop) : Nat :=
  if dot then 9
  else if w ∈ basicNames then 0
  else if w = ['a', 'n', 'y'] then 1
  else if w = ['p'] then 2
  else if w = ['s', 'a'] then 3
  else if w = ['a', '0'] then 4
  else if w = ['f'] then 5
  else if ∃ n, w = 'v' :: digits n then 6
  else if ∃ n, w = 'a' :: digits n then 7
  else 9

/-- The shape of a type. -/
def Ty.shape : Ty → Nat
  | .basic _ => 0
  | .any => 1
  | .ptr _ => 2
  | .slice _ => 3
  | .flex _ => 4
  | .opt _ => 5
  | .vec _ _ => 6
  | .arr _ _ => 7
  | .func _ _ _ => 8
  | .user .. => 9

/-- The text begins with a dot. -/
def Dot (q : Name) : Prop := ∃ q', q = '.' :: q'

theorem not_dot_fol {r : Name} (h : Fol r) : ¬ Dot r := by
  rintro ⟨q, e⟩
  exact (noDot_of_fol h).2 q e

theorem not_dot (r : Name) : ¬ Dot ('$' :: r) := not_dot_fol (fol_cons r)

theorem shape_code {w : Name} {d : Prop} (h : d ∨ ¬ Code w) : shapeOf w d = 9 := by
  rw [shapeOf]
  by_cases hd : d
  · rw [if_pos hd]
  · have hc : ¬ Code w := h.resolve_left hd
    rw [if_neg hd, if_neg (fun e => hc (basicNames_code e)),
      if_neg (fun e => hc (by rw [e]; exact .any)), if_neg (fun e => hc (by rw [e]; exact .ptr)),
      if_neg (fun e => hc (by rw [e]; exact .slice)),
      if_neg (fun e => hc (by rw [e]; exact .arr 0)),
      if_neg (fun e => hc (by rw [e]; exact .opt)),
      if_neg (fun ⟨n, e⟩ => hc (by rw [e]; exact .vec n)),
      if_neg (fun ⟨n, e⟩ => hc (by rw [e]; exact .arr n))]

theorem digits_no {n : Nat} {c : Char} {w : Name} (h : digits n = w) (hc : c ∈ w)
    (hd : c.isDigit = false) : False := by
  have := digits_digit (n := n) (c := c) (by rw [h]; exact hc)
  rw [hd] at this; cases this

theorem vec_basic (n : Nat) : 'v' :: digits n ∉ basicNames := by
  intro h
  rw [basicNames, List.mem_map] at h
  obtain ⟨b, _, e⟩ := h
  have h1 : b.name.head? = some 'v' := congrArg List.head? e
  have h2 := congrArg List.tail e
  cases b <;> first
    | exact absurd h1 (by decide)
    | exact digits_no (c := 'o') h2.symm (by decide) (by decide)

theorem arr_basic (n : Nat) : 'a' :: digits n ∉ basicNames := by
  intro h
  rw [basicNames, List.mem_map] at h
  obtain ⟨b, _, e⟩ := h
  have h1 : b.name.head? = some 'a' := congrArg List.head? e
  cases b <;> exact absurd h1 (by decide)

theorem shape_vec (n : Nat) {d : Prop} (hd : ¬ d) : shapeOf ('v' :: digits n) d = 6 := by
  rw [shapeOf, if_neg hd, if_neg (vec_basic n),
    if_neg (fun e => absurd (List.cons.inj e).1 (by decide)),
    if_neg (fun e => absurd (List.cons.inj e).1 (by decide)),
    if_neg (fun e => absurd (List.cons.inj e).1 (by decide)),
    if_neg (fun e => absurd (List.cons.inj e).1 (by decide)),
    if_neg (fun e => absurd (List.cons.inj e).1 (by decide)), if_pos ⟨n, rfl⟩]

theorem shape_arr (n : Nat) (hn : n ≠ 0) {d : Prop} (hd : ¬ d) :
    shapeOf ('a' :: digits n) d = 7 := by
  rw [shapeOf, if_neg hd, if_neg (arr_basic n),
    if_neg (fun e => digits_no (c := 'n') (List.cons.inj e).2 (by decide) (by decide)),
    if_neg (fun e => absurd (List.cons.inj e).1 (by decide)),
    if_neg (fun e => absurd (List.cons.inj e).1 (by decide)),
    if_neg (fun e : 'a' :: digits n = ['a', '0'] => hn (digits_inj (m := 0) (List.cons.inj e).2)),
    if_neg (fun e => absurd (List.cons.inj e).1 (by decide)),
    if_neg (fun ⟨m, e⟩ => absurd (List.cons.inj e).1 (by decide)), if_pos ⟨n, rfl⟩]

theorem shape_basic (b : Basic) {d : Prop} (hd : ¬ d) : shapeOf b.name d = 0 := by
  rw [shapeOf, if_neg hd, if_pos (basicNames_mem b)]

theorem shape_any {d : Prop} (hd : ¬ d) : shapeOf ['a', 'n', 'y'] d = 1 := by
  rw [shapeOf, if_neg hd, if_neg (by decide), if_pos rfl]

theorem shape_ptr {d : Prop} (hd : ¬ d) : shapeOf ['p'] d = 2 := by
  rw [shapeOf, if_neg hd, if_neg (by decide), if_neg (by decide), if_pos rfl]

theorem shape_slice {d : Prop} (hd : ¬ d) : shapeOf ['s', 'a'] d = 3 := by
  rw [shapeOf, if_neg hd, if_neg (by decide), if_neg (by decide), if_neg (by decide), if_pos rfl]

theorem shape_flex {d : Prop} (hd : ¬ d) : shapeOf ['a', '0'] d = 4 := by
  rw [shapeOf, if_neg hd, if_neg (by decide), if_neg (by decide), if_neg (by decide),
    if_neg (by decide), if_pos rfl]

theorem shape_opt {d : Prop} (hd : ¬ d) : shapeOf ['f'] d = 5 := by
  rw [shapeOf, if_neg hd, if_neg (by decide), if_neg (by decide), if_neg (by decide),
    if_neg (by decide), if_neg (by decide), if_pos rfl]

/-- The first word tells the shape. -/
theorem ty_head {P : Program} {t : Ty} (h : t.Good P) {r : Name} (hr : Fol r) :
    ∃ w q, t.mangle ++ r = w ++ q ∧ (∀ c ∈ w, wordChar c = true) ∧ NoWord q ∧
      shapeOf w (Dot q) = t.shape := by
  cases t with
  | basic b =>
    refine ⟨b.name, r, by rw [Ty.mangle], basic_chars b, noWord_of_fol hr, ?_⟩
    exact shape_basic b (not_dot_fol hr)
  | any =>
    refine ⟨['a', 'n', 'y'], '$' :: r, by rw [Ty.mangle]; rfl, by decide, noWord_dollar _, ?_⟩
    exact shape_any (not_dot _)
  | ptr t =>
    refine ⟨['p'], '$' :: (t.mangle ++ r), by rw [Ty.mangle]; rfl, by decide,
      noWord_dollar _, ?_⟩
    exact shape_ptr (not_dot _)
  | slice t =>
    refine ⟨['s', 'a'], '$' :: (t.mangle ++ r), by rw [Ty.mangle]; rfl, by decide,
      noWord_dollar _, ?_⟩
    exact shape_slice (not_dot _)
  | flex t =>
    refine ⟨['a', '0'], '$' :: (t.mangle ++ r), by rw [Ty.mangle]; rfl, by decide,
      noWord_dollar _, ?_⟩
    exact shape_flex (not_dot _)
  | opt t =>
    refine ⟨['f'], '$' :: (t.mangle ++ r), by rw [Ty.mangle]; rfl, by decide,
      noWord_dollar _, ?_⟩
    exact shape_opt (not_dot _)
  | vec n t =>
    refine ⟨'v' :: digits n, '$' :: (t.mangle ++ r), by rw [Ty.mangle]; simp, ?_,
      noWord_dollar _, ?_⟩
    · intro c hc
      rcases List.mem_cons.1 hc with e | e
      · subst e; decide
      · exact digits_word c e
    · exact shape_vec n (not_dot _)
  | arr n t =>
    rw [Ty.Good] at h
    refine ⟨'a' :: digits n, '$' :: (t.mangle ++ r), by rw [Ty.mangle]; simp, ?_,
      noWord_dollar _, ?_⟩
    · intro c hc
      rcases List.mem_cons.1 hc with e | e
      · subst e; decide
      · exact digits_word c e
    · exact shape_arr n h.1 (not_dot _)
  | func _ _ _ => rw [Ty.Good] at h; exact h.elim
  | user f m name ext ex exp =>
    rw [Ty.Good] at h
    obtain ⟨rfl, rfl, rfl, _, hn, hm⟩ := h
    obtain ⟨w, q, h1, h2, h3⟩ := mod_head hm (name ++ r)
    refine ⟨w, q, ?_, h2, ?_, ?_⟩
    · rw [Ty.mangle, declName_plain, ← h1, Mod.qual]; simp
    · rcases h3 with ⟨⟨q', e⟩, _⟩ | ⟨⟨q', e⟩, _⟩
      · rw [e]; exact noWord_dot _
      · rw [e]; exact noWord_dollar _
    · rcases h3 with ⟨e, _⟩ | ⟨_, e, _⟩
      · exact shape_code (Or.inl e)
      · exact shape_code (Or.inr e)

theorem ty_shape {P : Program} {t t' : Ty} (h : t.Good P) (h' : t'.Good P) {r r' : Name}
    (hr : Fol r) (hr' : Fol r') (e : t.mangle ++ r = t'.mangle ++ r') : t.shape = t'.shape := by
  obtain ⟨w, q, a1, a2, a3, a4⟩ := ty_head h hr
  obtain ⟨w', q', b1, b2, b3, b4⟩ := ty_head h' hr'
  rw [a1, b1] at e
  obtain ⟨x, y⟩ := word_split a2 b2 a3 b3 e
  rw [← a4, ← b4, x, y]

/-- The arguments, each followed by '$'. -/
def Args.seq : Args → Name
  | .nil => []
  | .cons a as => a.text ++ '$' :: as.seq

theorem args_seq (a : Arg) (as : Args) :
    (Args.cons a as).text ++ ['$'] = (Args.cons a as).seq := by
  match as with
  | .nil => rw [Args.text, Args.seq, Args.seq]
  | .cons b bs =>
    have := args_seq b bs
    rw [Args.text, Args.seq, ← this]
    · simp
    · simp

/-- Values: what the first word of the text tells. -/
def vshape : Arg → Nat
  | .bool _ => 0
  | .int _ _ => 1
  | _ => 2

open Classical in
/-- The shape of a value, read off the first word and whether a '.' follows. -/
noncomputable def vshapeOf (w : Name) (dot : Prop) : Nat :=
  if dot then 2
  else if Code w then 0
  else if Low w then 2
  else 1

theorem intText_low (v : Int) : ¬ Low (intText v) := by
  rintro ⟨c, h1, h2, h3⟩
  rw [intText] at h1
  split at h1
  · simp only [List.head?_cons, Option.some.injEq] at h1
    subst h1
    exact absurd h2 (by decide)
  · have : c ∈ digits v.natAbs := by
      cases hd : digits v.natAbs with
      | nil => rw [hd] at h1; cases h1
      | cons a b => rw [hd] at h1; simp at h1; subst h1; simp
    have hd := digits_digit this
    simp only [Char.isDigit, Bool.and_eq_true, decide_eq_true_eq] at hd
    have := hd.2
    have h4 : 'a'.val ≤ c.val := h2
    have h5 : ('a'.val : UInt32) ≤ '9'.val := Nat.le_trans h4 this
    exact absurd h5 (by decide)

theorem intText_code (v : Int) : ¬ Code (intText v) := by
  intro h
  refine intText_low v ?_
  generalize intText v = w at h
  cases h with
  | basic b => cases b <;> exact ⟨_, rfl, by decide, by decide⟩
  | _ => exact ⟨_, rfl, by decide, by decide⟩

theorem arg_head {P : Program} {a : Arg} (h : a.Good P) (ht : a.isType = false) {r : Name}
    (hr : Fol r) :
    ∃ w q, a.text ++ r = w ++ q ∧ (∀ c ∈ w, wordChar c = true) ∧ NoWord q ∧
      vshapeOf w (Dot q) = vshape a := by
  cases a with
  | type t => cases ht
  | bool b =>
    cases b
    · refine ⟨['f'], r, by rw [Arg.text]; rfl, by decide, noWord_of_fol hr, ?_⟩
      rw [vshapeOf, if_neg (not_dot_fol hr), if_pos Code.opt, vshape]
    · refine ⟨['t'], r, by rw [Arg.text]; rfl, by decide, noWord_of_fol hr, ?_⟩
      rw [vshapeOf, if_neg (not_dot_fol hr), if_pos Code.yes, vshape]
  | int b v =>
    refine ⟨intText v, r, by rw [Arg.text], intText_word v, noWord_of_fol hr, ?_⟩
    rw [vshapeOf, if_neg (not_dot_fol hr), if_neg (intText_code v), if_neg (intText_low v), vshape]
  | fault _ _ => rw [Arg.Good] at h; exact h.elim
  | enum t v =>
    cases t with
    | user f m name ext ex exp =>
      rw [Arg.Good] at h
      obtain ⟨⟨rfl, rfl, rfl, _, hn, hm⟩, _, hv⟩ := h
      obtain ⟨w, q, h1, h2, h3⟩ := mod_head hm (name ++ '_' :: v ++ r)
      refine ⟨w, q, ?_, h2, ?_, ?_⟩
      · rw [Arg.text, Ty.mangle, declName_plain, ← h1, Mod.qual]; simp
      · rcases h3 with ⟨⟨q', e⟩, _⟩ | ⟨⟨q', e⟩, _⟩
        · rw [e]; exact noWord_dot _
        · rw [e]; exact noWord_dollar _
      · rcases h3 with ⟨e, _⟩ | ⟨⟨q', e'⟩, e, el, _⟩
        · rw [vshapeOf, if_pos (show Dot q from e)]; rfl
        · rw [vshapeOf, if_neg (e' ▸ not_dot _), if_neg e, if_pos el]; rfl
    | _ => simp [Arg.Good] at h

theorem arg_shape {P : Program} {a a' : Arg} (h : a.Good P) (h' : a'.Good P)
    (ht : a.isType = false) (ht' : a'.isType = false) {r r' : Name}
    (hr : Fol r) (hr' : Fol r') (e : a.text ++ r = a'.text ++ r') : vshape a = vshape a' := by
  obtain ⟨w, q, a1, a2, a3, a4⟩ := arg_head h ht hr
  obtain ⟨w', q', b1, b2, b3, b4⟩ := arg_head h' ht' hr'
  rw [a1, b1] at e
  obtain ⟨x, y⟩ := word_split a2 b2 a3 b3 e
  rw [← a4, ← b4, x, y]

/-- What equal texts tell of the modules. -/
def SameMod (m m' : Mod) (ws ws' : List Name) : Prop :=
  (∃ p p', m = .plain p none ∧ m' = .plain p' none ∧ p ++ ws = p' ++ ws') ∨
    (m = m' ∧ ws = ws' ∧ ∃ p a, m = .inst p none a)

theorem sameMod_one {m m' : Mod} {n n' : Name} (h : SameMod m m' [n] [n']) : m = m' ∧ n = n' := by
  rcases h with ⟨p, p', rfl, rfl, e⟩ | ⟨e, e', _⟩
  · obtain ⟨x, y⟩ := List.append_inj' e rfl
    injection y with y _
    exact ⟨by rw [x], y⟩
  · injection e' with e' _
    exact ⟨e, e'⟩

theorem word_one {n : Name} (h : Word n) : ∀ w ∈ [n], Word w := by
  intro w hw; rw [List.mem_singleton.1 hw]; exact h

theorem word_enum {n v : Name} (h : Word n) (hv : Word v) : Word (n ++ '_' :: v) := by
  refine ⟨by simp, ?_⟩
  intro c hc
  rcases List.mem_append.1 hc with e | e
  · exact h.word c e
  · rcases List.mem_cons.1 e with e | e
    · subst e; decide
    · exact hv.word c e

mutual

theorem Ty.inj (P : Program) : ∀ (t t' : Ty) (r r' : Name), t.Good P → t'.Good P → Fol r → Fol r' →
    t.mangle ++ r = t'.mangle ++ r' → t = t' ∧ r = r'
  | .basic b, t', r, r', h, h', hr, hr', e => by
    have hs := ty_shape h h' hr hr' e
    cases t' <;> first | (simp [Ty.shape] at hs; done) | skip
    rename_i b'
    rw [Ty.mangle, Ty.mangle] at e
    obtain ⟨x, y⟩ := word_split (basic_chars b) (basic_chars b') (noWord_of_fol hr)
      (noWord_of_fol hr') e
    exact ⟨by rw [basic_inj x], y⟩
  | .any, t', r, r', h, h', hr, hr', e => by
    have hs := ty_shape h h' hr hr' e
    cases t' <;> first | (simp [Ty.shape] at hs; done) | skip
    rw [Ty.mangle] at e
    exact ⟨rfl, List.append_cancel_left e⟩
  | .ptr t, t', r, r', h, h', hr, hr', e => by
    have hs := ty_shape h h' hr hr' e
    cases t' <;> first | (simp [Ty.shape] at hs; done) | skip
    rename_i t'
    rw [Ty.mangle, Ty.mangle] at e
    rw [Ty.Good] at h h'
    obtain ⟨x, y⟩ := Ty.inj P t t' r r' h h' hr hr' (by simpa using e)
    exact ⟨by rw [x], y⟩
  | .slice t, t', r, r', h, h', hr, hr', e => by
    have hs := ty_shape h h' hr hr' e
    cases t' <;> first | (simp [Ty.shape] at hs; done) | skip
    rename_i t'
    rw [Ty.mangle, Ty.mangle] at e
    rw [Ty.Good] at h h'
    obtain ⟨x, y⟩ := Ty.inj P t t' r r' h h' hr hr' (by simpa using e)
    exact ⟨by rw [x], y⟩
  | .flex t, t', r, r', h, h', hr, hr', e => by
    have hs := ty_shape h h' hr hr' e
    cases t' <;> first | (simp [Ty.shape] at hs; done) | skip
    rename_i t'
    rw [Ty.mangle, Ty.mangle] at e
    rw [Ty.Good] at h h'
    obtain ⟨x, y⟩ := Ty.inj P t t' r r' h h' hr hr' (by simpa using e)
    exact ⟨by rw [x], y⟩
  | .opt t, t', r, r', h, h', hr, hr', e => by
    have hs := ty_shape h h' hr hr' e
    cases t' <;> first | (simp [Ty.shape] at hs; done) | skip
    rename_i t'
    rw [Ty.mangle, Ty.mangle] at e
    rw [Ty.Good] at h h'
    obtain ⟨x, y⟩ := Ty.inj P t t' r r' h h' hr hr' (by simpa using e)
    exact ⟨by rw [x], y⟩
  | .vec n t, t', r, r', h, h', hr, hr', e => by
    have hs := ty_shape h h' hr hr' e
    cases t' <;> first | (simp [Ty.shape] at hs; done) | skip
    rename_i n' t'
    rw [Ty.mangle, Ty.mangle] at e
    rw [Ty.Good] at h h'
    simp only [List.cons_append, List.append_assoc, List.cons.injEq, true_and] at e
    obtain ⟨x, y⟩ := word_split digits_word digits_word (noWord_dollar _) (noWord_dollar _) e
    injection y with _ y
    obtain ⟨z, y⟩ := Ty.inj P t t' r r' h h' hr hr' y
    exact ⟨by rw [z, digits_inj x], y⟩
  | .arr n t, t', r, r', h, h', hr, hr', e => by
    have hs := ty_shape h h' hr hr' e
    cases t' <;> first | (simp [Ty.shape] at hs; done) | skip
    rename_i n' t'
    rw [Ty.mangle, Ty.mangle] at e
    rw [Ty.Good] at h h'
    simp only [List.cons_append, List.append_assoc, List.cons.injEq, true_and] at e
    obtain ⟨x, y⟩ := word_split digits_word digits_word (noWord_dollar _) (noWord_dollar _) e
    injection y with _ y
    obtain ⟨z, y⟩ := Ty.inj P t t' r r' h.2 h'.2 hr hr' y
    exact ⟨by rw [z, digits_inj x], y⟩
  | .func _ _ _, _, _, _, h, _, _, _, _ => by rw [Ty.Good] at h; exact h.elim
  | .user f m name ext ex exp, t', r, r', h, h', hr, hr', e => by
    have hs := ty_shape h h' hr hr' e
    cases t' <;> first | (simp [Ty.shape] at hs; done) | skip
    rename_i f' m' name' ext' ex' exp'
    rw [Ty.Good] at h h'
    obtain ⟨rfl, rfl, rfl, hf, hn, hm⟩ := h
    obtain ⟨rfl, rfl, rfl, hf', hn', hm'⟩ := h'
    rw [Ty.mangle, Ty.mangle, declName_plain, declName_plain] at e
    obtain ⟨x, y⟩ := Mod.inj P m m' [name] [name'] r r' hm hm' (by simp) (by simp)
      (word_one hn) (word_one hn') hr hr' (by simpa [Mod.qual, dotted] using e)
    obtain ⟨x1, x2⟩ := sameMod_one x
    subst x1 x2
    exact ⟨by rw [hf, hf'], y⟩

theorem Mod.inj (P : Program) : ∀ (m m' : Mod) (ws ws' : List Name) (r r' : Name), m.Good P →
    m'.Good P → ws ≠ [] → ws' ≠ [] → (∀ w ∈ ws, Word w) → (∀ w ∈ ws', Word w) → Fol r → Fol r' →
    m.qual ++ '.' :: (dotted ws ++ r) = m'.qual ++ '.' :: (dotted ws' ++ r') →
    SameMod m m' ws ws' ∧ r = r'
  | .plain p x, m', ws, ws', r, r', h, h', hn, hn', hw, hw', hr, hr', e => by
    cases m' with
    | plain p' x' =>
      rw [qual_plain h, qual_plain h'] at e
      rw [Mod.Good] at h h'
      obtain ⟨rfl, hp, hpw⟩ := h
      obtain ⟨rfl, hp', hpw'⟩ := h'
      have e2 : dotted (p ++ ws) ++ r = dotted (p' ++ ws') ++ r' := by
        rw [dotted_append hp hn, dotted_append hp' hn']; simpa using e
      obtain ⟨a, b⟩ := dotted_split (by simp [hp]) (by simp [hp'])
        (fun w hm => (List.mem_append.1 hm).elim (hpw w) (hw w))
        (fun w hm => (List.mem_append.1 hm).elim (hpw' w) (hw' w))
        (noDot_of_fol hr) (noDot_of_fol hr') e2
      exact ⟨Or.inl ⟨p, p', rfl, rfl, a⟩, b⟩
    | inst p' x' a' =>
      obtain ⟨w, q, a1, a2, a3⟩ := mod_head h (dotted ws ++ r)
      obtain ⟨w', q', b1, b2, b3⟩ := mod_head h' (dotted ws' ++ r')
      rw [a1, b1] at e
      rcases a3 with ⟨⟨q1, e1⟩, _⟩ | ⟨_, _, _, _, _, e1⟩
      · rcases b3 with ⟨_, _, e2⟩ | ⟨⟨q2, e2⟩, _⟩
        · cases e2
        · subst e1 e2
          obtain ⟨_, y⟩ := word_split a2 b2 (noWord_dot _) (noWord_dollar _) e
          injection y with y _
          exact absurd y (by decide)
      · cases e1
  | .inst p x a, m', ws, ws', r, r', h, h', hn, hn', hw, hw', hr, hr', e => by
    cases m' with
    | plain p' x' =>
      obtain ⟨w, q, a1, a2, a3⟩ := mod_head h (dotted ws ++ r)
      obtain ⟨w', q', b1, b2, b3⟩ := mod_head h' (dotted ws' ++ r')
      rw [a1, b1] at e
      rcases b3 with ⟨⟨q1, e1⟩, _⟩ | ⟨_, _, _, _, _, e1⟩
      · rcases a3 with ⟨_, _, e2⟩ | ⟨⟨q2, e2⟩, _⟩
        · cases e2
        · subst e1 e2
          obtain ⟨_, y⟩ := word_split a2 b2 (noWord_dollar _) (noWord_dot _) e
          injection y with y _
          exact absurd y (by decide)
      · cases e1
    | inst p' x' a' =>
      rw [qual_inst h, qual_inst h'] at e
      rw [Mod.Good] at h h'
      obtain ⟨rfl, hp, hpw, _, hk, ha⟩ := h
      obtain ⟨rfl, hp', hpw', _, hk', ha'⟩ := h'
      simp only [List.append_assoc, List.cons_append] at e
      obtain ⟨x1, x2⟩ := word_split (joined_word hp (fun s hs => (hpw s hs).toWord)).word
        (joined_word hp' (fun s hs => (hpw' s hs).toWord)).word (noWord_dollar _)
        (noWord_dollar _) e
      have hpp := joined_inj hp hp' (fun s hs => (hpw s hs).plain)
        (fun s hs => (hpw' s hs).plain) x1
      subst hpp
      injection x2 with _ x2
      have hkk : a.kinds = a'.kinds := hk.trans hk'.symm
      have x3 : a = a' ∧ '.' :: (dotted ws ++ r) = '.' :: (dotted ws' ++ r') := by
        cases a with
        | nil =>
          cases a' with
          | nil => exact ⟨rfl, by simpa [Args.text] using x2⟩
          | cons b bs => simp [Args.kinds] at hkk
        | cons b bs =>
          cases a' with
          | nil => simp [Args.kinds] at hkk
          | cons b' bs' =>
            refine Args.inj P (.cons b bs) (.cons b' bs') _ _ ha ha' hkk ?_
            rw [← args_seq, ← args_seq]
            simpa using x2
      obtain ⟨x4, x5⟩ := x3
      injection x5 with _ x5
      obtain ⟨x6, x7⟩ := dotted_split hn hn' hw hw' (noDot_of_fol hr) (noDot_of_fol hr') x5
      exact ⟨Or.inr ⟨by rw [x4], x6, p, a, rfl⟩, x7⟩

theorem Args.inj (P : Program) : ∀ (as as' : Args) (r r' : Name), as.Good P → as'.Good P →
    as.kinds = as'.kinds → as.seq ++ r = as'.seq ++ r' → as = as' ∧ r = r'
  | .nil, as', r, r', h, h', hk, e => by
    cases as' with
    | nil => exact ⟨rfl, by simpa [Args.seq] using e⟩
    | cons b bs => simp [Args.kinds] at hk
  | .cons a as, as', r, r', h, h', hk, e => by
    cases as' with
    | nil => simp [Args.kinds] at hk
    | cons a' as' =>
      rw [Args.kinds, Args.kinds] at hk
      injection hk with hk1 hk2
      rw [Args.Good] at h h'
      rw [Args.seq, Args.seq, List.append_assoc, List.append_assoc] at e
      obtain ⟨x, y⟩ := Arg.inj P a a' _ _ h.1 h'.1 hk1 (fol_cons _) (fol_cons _) e
      injection y with _ y
      obtain ⟨z, y⟩ := Args.inj P as as' r r' h.2 h'.2 hk2 y
      exact ⟨by rw [x, z], y⟩

theorem Arg.inj (P : Program) : ∀ (a a' : Arg) (r r' : Name), a.Good P → a'.Good P →
    a.isType = a'.isType → Fol r → Fol r' → a.text ++ r = a'.text ++ r' → a = a' ∧ r = r'
  | .type t, a', r, r', h, h', hk, hr, hr', e => by
    cases a' with
    | type t' =>
      rw [Arg.Good] at h h'
      rw [Arg.text, Arg.text] at e
      obtain ⟨x, y⟩ := Ty.inj P t t' r r' h h' hr hr' e
      exact ⟨by rw [x], y⟩
    | _ => simp [Arg.isType] at hk
  | .bool b, a', r, r', h, h', hk, hr, hr', e => by
    have hs := arg_shape h h' rfl (hk ▸ rfl) hr hr' e
    cases a' with
    | bool b' =>
      rw [Arg.text, Arg.text] at e
      cases b <;> cases b' <;> simp at e <;> first | exact ⟨rfl, e⟩ | skip
    | type _ => simp [Arg.isType] at hk
    | _ => simp [vshape] at hs
  | .int b v, a', r, r', h, h', hk, hr, hr', e => by
    have hs := arg_shape h h' rfl (hk ▸ rfl) hr hr' e
    cases a' with
    | int b' v' =>
      rw [Arg.Good] at h h'
      rw [Arg.text, Arg.text] at e
      obtain ⟨x, y⟩ := word_split (intText_word v) (intText_word v') (noWord_of_fol hr)
        (noWord_of_fol hr') e
      have := intText_inj x
      subst this
      exact ⟨by rw [h, h'], y⟩
    | type _ => simp [Arg.isType] at hk
    | _ => simp [vshape] at hs
  | .fault _ _, _, _, _, h, _, _, _, _, _ => by rw [Arg.Good] at h; exact h.elim
  | .enum (.user f m name ext ex exp) v, a', r, r', h, h', hk, hr, hr', e => by
    have hs := arg_shape h h' rfl (hk ▸ rfl) hr hr' e
    cases a' with
    | enum t' v' =>
      cases t' with
      | user f' m' name' ext' ex' exp' =>
        rw [Arg.Good] at h h'
        obtain ⟨⟨rfl, rfl, rfl, hf, hn, hm⟩, hu, hv⟩ := h
        obtain ⟨⟨rfl, rfl, rfl, hf', hn', hm'⟩, hu', hv'⟩ := h'
        rw [Arg.text, Arg.text, Ty.mangle, Ty.mangle, declName_plain, declName_plain] at e
        obtain ⟨x, y⟩ := Mod.inj P m m' [name ++ '_' :: v] [name' ++ '_' :: v'] r r' hm hm'
          (by simp) (by simp) (word_one (word_enum hn hv)) (word_one (word_enum hn' hv'))
          hr hr' (by simpa [Mod.qual, dotted] using e)
        obtain ⟨x1, x2⟩ := sameMod_one x
        obtain ⟨x3, x4⟩ := split_at hu hu' x2
        subst x1 x3 x4
        exact ⟨by rw [hf, hf'], y⟩
      | _ => simp [Arg.Good] at h'
    | type _ => simp [Arg.isType] at hk
    | fault _ _ => rw [Arg.Good] at h'; exact h'.elim
    | _ => simp [vshape] at hs
  | .enum (.basic _) _, _, _, _, h, _, _, _, _, _ => by simp [Arg.Good] at h
  | .enum .any _, _, _, _, h, _, _, _, _, _ => by simp [Arg.Good] at h
  | .enum (.ptr _) _, _, _, _, h, _, _, _, _, _ => by simp [Arg.Good] at h
  | .enum (.slice _) _, _, _, _, h, _, _, _, _, _ => by simp [Arg.Good] at h
  | .enum (.flex _) _, _, _, _, h, _, _, _, _, _ => by simp [Arg.Good] at h
  | .enum (.opt _) _, _, _, _, h, _, _, _, _, _ => by simp [Arg.Good] at h
  | .enum (.vec _ _) _, _, _, _, h, _, _, _, _, _ => by simp [Arg.Good] at h
  | .enum (.arr _ _) _, _, _, _, h, _, _, _, _, _ => by simp [Arg.Good] at h
  | .enum (.func _ _ _) _, _, _, _, h, _, _, _, _, _ => by simp [Arg.Good] at h

end

end C3.Mangle
