import Verif.Pratt.Model
import Verif.Pratt.Spec

set_option autoImplicit false

namespace C3.Pratt

theorem stop {t : Expr} {p : Nat} {c : List Tok} (h : (rules (tok c)).precedence < p) :
    parseWithLeft t p c = some (t, c) := by
  rw [parseWithLeft]
  simp [h]

theorem go {t t' : Expr} {p : Nat} {c c' : List Tok} {fn : InfixFn} (h : p ≤ (rules (tok c)).precedence)
    (hf : (rules (tok c)).infixFn = some fn) (hi : parseInfix fn t c = some (t', c')) :
    parseWithLeft t p c = parseWithLeft t' p c' := by
  conv => lhs; rw [parseWithLeft]
  simp only [if_neg (show ¬ p > (rules (tok c)).precedence by omega), hf, Option.bind_eq_bind, Option.bind_some, hi]

theorem enter {p : Nat} {c c' : List Tok} {e : Expr} {fn : PrefixFn} (hf : (rules (tok c)).prefixFn = some fn)
    (hp : parsePrefix fn c = some (e, c')) : parsePrecedence p c = parseWithLeft e p c' := by
  rw [parsePrecedence]
  simp only [hf, Option.bind_eq_bind, Option.bind_some, hp]

/-- What the first tokens of an expression look like. -/
def Start (w : List Tok) : Prop :=
  ∃ a w', w = a :: w' ∧ (rules a).prefixFn.isSome = true ∧ (a = .bang ∨ a = .bangbang → isExpr w' = true) ∧
    (w' ≠ [] → tok w' ≠ .colon)

theorem tok_append {w rest : List Tok} (h : w ≠ []) : tok (w ++ rest) = tok w := by
  cases w with
  | nil => exact absurd rfl h
  | cons a w => rfl

theorem isExpr_ne {w : List Tok} (h : isExpr w = true) : w ≠ [] := by
  intro h0
  subst h0
  simp [isExpr, tok, rules] at h

theorem Start.append {w : List Tok} (v : List Tok) (h : Start w) (hv : w.length = 1 → v ≠ [] → tok v ≠ .colon) :
    Start (w ++ v) := by
  obtain ⟨a, w', rfl, h1, h3, h4⟩ := h
  refine ⟨a, w' ++ v, rfl, h1, ?_, ?_⟩
  · intro ha
    have h := h3 ha
    unfold isExpr
    rw [tok_append (isExpr_ne h)]
    exact h
  · intro hne
    by_cases h0 : w' = []
    · subst h0
      exact hv rfl (by simpa using hne)
    · rw [tok_append h0]
      exact h4 h0

theorem Start.isExpr {w : List Tok} (v : List Tok) (h : Start w) : isExpr (w ++ v) = true := by
  obtain ⟨a, w', rfl, h1, _⟩ := h
  exact h1

theorem Start.ne {w : List Tok} (h : Start w) : w ≠ [] := by
  obtain ⟨a, w', rfl, _⟩ := h
  simp

theorem prefixOp_facts {o : Tok} {op : UnaryOp} (h : prefixOp o = some op) :
    (rules o).prefixFn = some .unary ∧ unaryOp o = some op ∧ o ≠ .bangbang := by
  cases o <;> simp [prefixOp] at h <;> subst h <;> refine ⟨rfl, rfl, ?_⟩ <;> simp

theorem binLevel_facts {o : Tok} {op : BinaryOp} {k : Nat} (h : binLevel true o = some (op, k)) :
    (rules o).infixFn = some .binary ∧ (rules o).precedence = k + 3 ∧ binaryOp o = some op ∧ k ≤ 6 ∧ o ≠ .colon := by
  cases o <;> simp [binLevel] at h <;> obtain ⟨rfl, rfl⟩ := h <;> refine ⟨rfl, rfl, rfl, by omega, ?_⟩ <;> simp

theorem binLevel_ne_colon {cm : Bool} {o : Tok} {op : BinaryOp} {k : Nat} (h : binLevel cm o = some (op, k)) :
    o ≠ .colon ∧ k ≤ 6 := by
  cases o <;> simp [binLevel] at h <;> obtain ⟨rfl, rfl⟩ := h <;> refine ⟨by simp, ?_⟩ <;> (try omega)
  split <;> omega

theorem assignOp_facts {o : Tok} {op : BinaryOp} (h : assignOp o = some op) :
    (rules o).infixFn = some .binary ∧ (rules o).precedence = 1 ∧ binaryOp o = some op ∧ o ≠ .colon := by
  cases o <;> simp [assignOp] at h <;> subst h <;> refine ⟨rfl, rfl, rfl, ?_⟩ <;> simp

theorem gen_start {cm : Bool} {n : NT} {t : Expr} {w : List Tok} (h : Gen cm n t w) : Start w := by
  induction h using Gen.rec (motive_2 := fun _ _ _ _ => True) (motive_3 := fun _ _ _ => True) with
  | fromStart | fromEnd | one | oneComma | cons => trivial
  | atom k => exact ⟨.atom k, [], rfl, rfl, by simp, by simp⟩
  | typeAccess k j => exact ⟨.typ k, _, rfl, rfl, by simp, by simp [tok]⟩
  | @paren t w h ih =>
    obtain ⟨a, w', rfl, h1, _⟩ := ih
    refine ⟨.lparen, _, rfl, rfl, by simp, ?_⟩
    intro _ h
    have h : a = .colon := h
    subst h
    simp [rules] at h1
  | index _ _ ih => rw [List.append_assoc]; exact ih.append _ (by simp [tok])
  | sliceDots _ _ _ ih => rw [List.append_assoc, List.append_assoc]; exact ih.append _ (by simp [tok])
  | sliceFrom _ _ ih => rw [List.append_assoc]; exact ih.append _ (by simp [tok])
  | sliceTo _ _ ih => rw [List.append_assoc]; exact ih.append _ (by simp [tok])
  | sliceAll _ ih => exact ih.append _ (by simp [tok])
  | sliceLen _ _ _ ih => rw [List.append_assoc, List.append_assoc]; exact ih.append _ (by simp [tok])
  | sliceLenFirst _ _ ih => rw [List.append_assoc]; exact ih.append _ (by simp [tok])
  | callEmpty _ ih => exact ih.append _ (by simp [tok])
  | call _ _ ih => rw [List.append_assoc]; exact ih.append _ (by simp [tok])
  | access k _ ih => exact ih.append _ (by simp [tok])
  | postInc _ ih => exact ih.append _ (by simp [tok])
  | postDec _ ih => exact ih.append _ (by simp [tok])
  | rethrow _ ih => exact ih.append _ (by simp [tok])
  | forceUnwrap _ ih => exact ih.append _ (by simp [tok])
  | unaryUp _ ih => exact ih
  | @prefixed t w o op ho _ ih =>
    have hf := prefixOp_facts ho
    have he : isExpr w = true := by simpa using ih.isExpr []
    refine ⟨o, w, rfl, by rw [hf.1]; rfl, fun _ => he, ?_⟩
    intro _ h
    rw [isExpr, h] at he
    simp [rules] at he
  | @notNot t w _ ih =>
    have he : isExpr w = true := by simpa using ih.isExpr []
    refine ⟨.bangbang, w, rfl, rfl, fun _ => he, ?_⟩
    intro _ h
    rw [isExpr, h] at he
    simp [rules] at he
  | cast k _ ih => exact ⟨.lparen, _, rfl, rfl, by simp, by simp [tok]⟩
  | binUp _ _ ih => exact ih
  | binary ho _ _ ih => exact ih.append _ (fun _ _ => (binLevel_ne_colon ho).1)
  | suffixUp _ ih => exact ih
  | optional _ ih => exact ih.append _ (by simp [tok])
  | optionalRethrow _ ih => exact ih.append _ (by simp [tok])
  | ternaryUp _ ih => exact ih
  | ternary _ _ _ ih => rw [List.append_assoc]; exact ih.append _ (by simp [tok])
  | elvis _ _ ih => exact ih.append _ (by simp [tok])
  | orelse _ _ ih => exact ih.append _ (by simp [tok])
  | exprUp _ ih => exact ih
  | assign ho _ _ ih => exact ih.append _ (fun _ _ => (assignOp_facts ho).2.2.2)

theorem gen_not_typ {cm : Bool} {n : NT} {t : Expr} {w : List Tok} (h : Gen cm n t w) : ∀ k, t ≠ .typ k := by
  induction h using Gen.rec (motive_2 := fun _ _ _ _ => True) (motive_3 := fun _ _ _ => True) with
  | fromStart | fromEnd | one | oneComma | cons => trivial
  | @paren t w h ih =>
    intro k
    cases t <;> simp [Expr.group]
    exact fun h => ih k (by rw [h])
  | unaryUp _ ih => exact ih
  | binUp _ _ ih => exact ih
  | suffixUp _ ih => exact ih
  | ternaryUp _ ih => exact ih
  | exprUp _ ih => exact ih
  | _ => intro k; simp

/-- The parser's level for a nonterminal. -/
def NT.level : NT → Nat
  | .call => 11
  | .unary => 11
  | .bin k => k + 3
  | .suffix => 2
  | .ternary => 2
  | .expr => 1

/-- What may follow it. -/
def Follow : NT → List Tok → Prop
  | .call, _ => True
  | .unary, c => (rules (tok c)).precedence < 10
  | .bin k, c => (rules (tok c)).precedence ≤ k + 3
  | .suffix, c => (rules (tok c)).precedence ≤ 2 ∧ isExpr c = false
  | .ternary, c => (rules (tok c)).precedence ≤ 1 ∧ isExpr c = false
  | .expr, c => (rules (tok c)).precedence = 0 ∧ isExpr c = false

theorem tighter_level {k : Nat} (hk : k ≤ 6) : k + 4 ≤ (tighter k).level := by
  unfold tighter
  split <;> simp only [NT.level] <;> omega

theorem tighter_follow {k : Nat} {c : List Tok} (hk : k ≤ 6) (h : (rules (tok c)).precedence ≤ k + 3) :
    Follow (tighter k) c := by
  unfold tighter
  split <;> simp only [Follow] <;> omega

theorem rangeLoc_first {cm b : Bool} {t : Expr} {w : List Tok} (h : RangeLoc cm b t w) (c : List Tok) :
    tok (w ++ c) ≠ .dotdot ∧ tok (w ++ c) ≠ .colon ∧ (b = false → isExpr (w ++ c) = true) := by
  have key : ∀ {v : List Tok}, Start v → tok (v ++ c) ≠ .dotdot ∧ tok (v ++ c) ≠ .colon := by
    intro v hs
    have := hs.isExpr c
    unfold isExpr at this
    constructor <;> intro h0 <;> rw [h0] at this <;> simp [rules] at this
  cases h with
  | fromStart h => exact ⟨(key (gen_start h)).1, (key (gen_start h)).2, fun _ => (gen_start h).isExpr c⟩
  | fromEnd h => simp [tok]

/-- The part of `parse_range` that reads `'^'? expr`. -/
def ParsesLoc (b : Bool) (t : Expr) (w : List Tok) : Prop :=
  ∀ c : List Tok, Follow .expr c → ∃ c1, tryConsume .bitXor (w ++ c) = (b, c1) ∧ parsePrecedence 1 c1 = some (t, c)

def ParsesArgs (a : Args) (w : List Tok) : Prop :=
  ∀ c : List Tok, parseArgList (w ++ .rparen :: c) = some (a, .rparen :: c)

theorem expr_done {t : Expr} {c : List Tok} (h : Follow .expr c) : parseWithLeft t 1 c = some (t, c) :=
  stop (by have := h.1; omega)

theorem tryConsume_ne {x a : Tok} {c : List Tok} (h : a ≠ x) : tryConsume x (a :: c) = (false, a :: c) := by
  simp [tryConsume, h]

theorem tryConsume_eq {x : Tok} {c : List Tok} : tryConsume x (x :: c) = (true, c) := by
  simp [tryConsume]

/-- Subscripts: the steps of `parse_subscript_expr`. -/
theorem subscript_index {t i : Expr} {b : Bool} {v c : List Tok} (hv : ParsesLoc b i v)
    (h1 : tok (v ++ .rbracket :: c) ≠ .dotdot ∧ tok (v ++ .rbracket :: c) ≠ .colon) :
    parseInfix .subscript t (.lbracket :: (v ++ .rbracket :: c)) = some (.subscript t b i, c) := by
  obtain ⟨c1, e1, e2⟩ := hv (.rbracket :: c) ⟨rfl, rfl⟩
  rw [parseInfix]
  simp [h1, e1, e2, tryConsume_ne, consume]

theorem subscript_slice {t i j : Expr} {b g : Bool} {v u c : List Tok} (isLen : Bool) (hv : ParsesLoc b i v)
    (hu : ParsesLoc g j u)
    (h1 : ∀ c', tok (v ++ c') ≠ .dotdot ∧ tok (v ++ c') ≠ .colon)
    (h2 : g = false → isExpr (u ++ .rbracket :: c) = true) :
    parseInfix .subscript t (.lbracket :: (v ++ (if isLen then .colon else .dotdot) :: (u ++ .rbracket :: c)))
      = some (.slice t isLen b i g j, c) := by
  have hfo : Follow .expr ((if isLen then Tok.colon else .dotdot) :: (u ++ .rbracket :: c)) := by
    cases isLen <;> exact ⟨rfl, rfl⟩
  obtain ⟨c1, e1, e2⟩ := hv _ hfo
  obtain ⟨c2, e3, e4⟩ := hu (.rbracket :: c) ⟨rfl, rfl⟩
  have h3 : g = true ∨ isExpr c2 = true := by
    cases g with
    | true => exact .inl rfl
    | false =>
      right
      have := h2 rfl
      cases hh : u ++ Tok.rbracket :: c with
      | nil => simp at hh
      | cons a l =>
        rw [hh] at e3 this
        by_cases ha : a = .bitXor
        · subst ha
          simp [tryConsume] at e3
        · rw [tryConsume_ne ha] at e3
          simp only [Prod.mk.injEq, true_and] at e3
          rw [← e3]
          exact this
  rw [parseInfix]
  simp only [List.tail_cons]
  rw [if_neg (not_or.2 (h1 _))]
  simp only [e1, e2, Option.bind_eq_bind, Option.bind_some]
  cases isLen <;> simp [tryConsume_eq, tryConsume_ne, e3, e4, h3, consume]

theorem subscript_first {t j : Expr} {g : Bool} {u c : List Tok} (isLen : Bool) (hu : ParsesLoc g j u)
    (h2 : g = false → isExpr (u ++ .rbracket :: c) = true) :
    parseInfix .subscript t (.lbracket :: (if isLen then Tok.colon else .dotdot) :: (u ++ .rbracket :: c))
      = some (.slice t isLen false .zero g j, c) := by
  obtain ⟨c2, e3, e4⟩ := hu (.rbracket :: c) ⟨rfl, rfl⟩
  have h3 : g = true ∨ isExpr c2 = true := by
    cases g with
    | true => exact .inl rfl
    | false =>
      right
      have := h2 rfl
      cases hh : u ++ Tok.rbracket :: c with
      | nil => simp at hh
      | cons a l =>
        rw [hh] at e3 this
        by_cases ha : a = .bitXor
        · subst ha
          simp [tryConsume] at e3
        · rw [tryConsume_ne ha] at e3
          simp only [Prod.mk.injEq, true_and] at e3
          rw [← e3]
          exact this
  rw [parseInfix]
  cases isLen <;> simp [tryConsume_eq, tryConsume_ne, e3, e4, h3, consume, tok]

theorem subscript_from {t i : Expr} {b : Bool} {v c : List Tok} (hv : ParsesLoc b i v)
    (h1 : ∀ c', tok (v ++ c') ≠ .dotdot ∧ tok (v ++ c') ≠ .colon) :
    parseInfix .subscript t (.lbracket :: (v ++ .dotdot :: .rbracket :: c))
      = some (.slice t false b i false .absent, c) := by
  obtain ⟨c1, e1, e2⟩ := hv (.dotdot :: .rbracket :: c) ⟨rfl, rfl⟩
  rw [parseInfix]
  simp only [List.tail_cons]
  rw [if_neg (not_or.2 (h1 _))]
  simp only [e1, e2, Option.bind_eq_bind, Option.bind_some]
  simp [tryConsume_eq, tryConsume_ne, consume, isExpr, tok, rules]

theorem subscript_all {t : Expr} {c : List Tok} :
    parseInfix .subscript t (.lbracket :: .dotdot :: .rbracket :: c)
      = some (.slice t false false .zero false .absent, c) := by
  rw [parseInfix]
  simp [tryConsume_eq, tryConsume_ne, consume, isExpr, tok, rules]

theorem second_ne_colon {w c : List Tok} (h : Start w) (hc : tok c ≠ .colon) : ¬ tok (w ++ c).tail = .colon := by
  obtain ⟨a, w', rfl, _, _, h4⟩ := h
  show ¬ tok (w' ++ c) = .colon
  by_cases h0 : w' = []
  · subst h0
    exact hc
  · rw [tok_append h0]
    exact h4 h0

theorem start_ne_rparen {x y : List Tok} (hs : Start x) : tok (x ++ y) ≠ .rparen := by
  intro h0
  have := hs.isExpr y
  unfold isExpr at this
  rw [h0] at this
  simp [rules] at this

theorem argList_first {cm : Bool} {a : Args} {v : List Tok} (ha : ArgList cm a v) (c : List Tok) :
    tok (v ++ c) ≠ .rparen := by
  cases ha with
  | one h => exact start_ne_rparen (gen_start h)
  | oneComma h => rw [List.append_assoc]; exact start_ne_rparen (gen_start h)
  | cons h _ => rw [List.append_assoc]; exact start_ne_rparen (gen_start h)

theorem gen_parse {n : NT} {t : Expr} {w : List Tok} (h : Gen true n t w) :
    ∀ (p : Nat) (c : List Tok), p ≤ n.level → Follow n c → parsePrecedence p (w ++ c) = parseWithLeft t p c := by
  induction h using Gen.rec (motive_2 := fun b t w _ => ParsesLoc b t w) (motive_3 := fun a w _ => ParsesArgs a w) with
  | atom k =>
    intro p c hp hf
    exact enter (fn := .atom) rfl (by show parsePrefix .atom (.atom k :: c) = _; rw [parsePrefix])
  | typeAccess k j =>
    intro p c hp hf
    simp only [NT.level] at hp
    have h1 : parsePrefix .typ ([.typ k, .dot, .atom j] ++ c) = some (.typ k, .dot :: .atom j :: c) := by
      show parsePrefix .typ (.typ k :: .dot :: .atom j :: c) = _
      rw [parsePrefix]
    rw [enter (fn := .typ) rfl h1]
    have h2 : parsePrecedence PREC_PRIMARY (.atom j :: c) = some (.atom j, c) := by
      rw [enter (fn := .atom) (e := .atom j) (c' := c) rfl (by rw [parsePrefix])]
      refine stop ?_
      have : ∀ x, (rules x).precedence < 12 := by intro x; cases x <;> simp only [rules] <;> decide
      exact this _
    refine go (fn := .access) (by simpa [tok, rules] using hp) rfl ?_
    rw [parseInfix]
    simp [h2]
  | @paren t w h ih =>
    intro p c hp hf
    have h1 := ih 1 (.rparen :: c) (Nat.le_refl _) ⟨rfl, rfl⟩
    rw [expr_done ⟨rfl, rfl⟩] at h1
    have h2 : parsePrefix .grouping ((.lparen :: w ++ [.rparen]) ++ c) = some (t.group, c) := by
      rw [parsePrefix]
      simp only [List.cons_append, List.append_assoc, List.nil_append, List.tail_cons, h1, Option.bind_eq_bind,
        Option.bind_some, consume, if_true]
      have := gen_not_typ h
      cases t <;> first | rfl | exact absurd rfl (this _)
    exact enter (fn := .grouping) rfl h2
  | @index t i w v b hc hr ih ihr =>
    intro p c hp hf
    rw [List.append_assoc, List.append_assoc, ih p _ hp trivial]
    refine go (fn := .subscript) hp rfl ?_
    have := rangeLoc_first hr (.rbracket :: c)
    exact subscript_index ihr ⟨this.1, this.2.1⟩
  | @sliceDots t i j w v u f g hc hr hs ih ihr ihs =>
    intro p c hp hf
    simp only [List.append_assoc, List.cons_append, List.nil_append]
    rw [ih p _ hp trivial]
    refine go (fn := .subscript) hp rfl ?_
    exact subscript_slice false ihr ihs (fun c' => ⟨(rangeLoc_first hr c').1, (rangeLoc_first hr c').2.1⟩)
      (rangeLoc_first hs _).2.2
  | @sliceFrom t i w v f hc hr ih ihr =>
    intro p c hp hf
    simp only [List.append_assoc, List.cons_append, List.nil_append]
    rw [ih p _ hp trivial]
    refine go (fn := .subscript) hp rfl ?_
    exact subscript_from ihr (fun c' => ⟨(rangeLoc_first hr c').1, (rangeLoc_first hr c').2.1⟩)
  | @sliceTo t j w u g hc hs ih ihs =>
    intro p c hp hf
    simp only [List.append_assoc, List.cons_append, List.nil_append]
    rw [ih p _ hp trivial]
    refine go (fn := .subscript) hp rfl ?_
    exact subscript_first false ihs (rangeLoc_first hs _).2.2
  | @sliceAll t w hc ih =>
    intro p c hp hf
    simp only [List.append_assoc, List.cons_append, List.nil_append]
    rw [ih p _ hp trivial]
    exact go (fn := .subscript) hp rfl subscript_all
  | @sliceLen t i j w v u f g hc hr hs ih ihr ihs =>
    intro p c hp hf
    simp only [List.append_assoc, List.cons_append, List.nil_append]
    rw [ih p _ hp trivial]
    refine go (fn := .subscript) hp rfl ?_
    exact subscript_slice true ihr ihs (fun c' => ⟨(rangeLoc_first hr c').1, (rangeLoc_first hr c').2.1⟩)
      (rangeLoc_first hs _).2.2
  | @sliceLenFirst t j w u g hc hs ih ihs =>
    intro p c hp hf
    simp only [List.append_assoc, List.cons_append, List.nil_append]
    rw [ih p _ hp trivial]
    refine go (fn := .subscript) hp rfl ?_
    exact subscript_first true ihs (rangeLoc_first hs _).2.2
  | @callEmpty t w hc ih =>
    intro p c hp hf
    simp only [List.append_assoc, List.cons_append, List.nil_append]
    rw [ih p _ hp trivial]
    refine go (fn := .call) hp rfl ?_
    rw [parseInfix]
    simp [tok]
  | @call t w v args hc ha ih iha =>
    intro p c hp hf
    simp only [List.append_assoc, List.cons_append, List.nil_append]
    rw [ih p _ hp trivial]
    refine go (fn := .call) hp rfl ?_
    have h1 := argList_first ha (.rparen :: c)
    have h2 := iha c
    rw [parseInfix]
    simp [h1, h2, consume]
  | @access t w k hc ih =>
    intro p c hp hf
    simp only [List.append_assoc, List.cons_append, List.nil_append]
    rw [ih p _ hp trivial]
    have h2 : parsePrecedence PREC_PRIMARY (.atom k :: c) = some (.atom k, c) := by
      rw [enter (fn := .atom) (e := .atom k) (c' := c) rfl (by rw [parsePrefix])]
      refine stop ?_
      have : ∀ x, (rules x).precedence < 12 := by intro x; cases x <;> simp only [rules] <;> decide
      exact this _
    refine go (fn := .access) hp rfl ?_
    rw [parseInfix]
    simp [h2]
  | @postInc t w hc ih =>
    intro p c hp hf
    simp only [List.append_assoc, List.cons_append, List.nil_append]
    rw [ih p _ hp trivial]
    exact go (fn := .postUnary) hp rfl (by rw [parseInfix]; rfl)
  | @postDec t w hc ih =>
    intro p c hp hf
    simp only [List.append_assoc, List.cons_append, List.nil_append]
    rw [ih p _ hp trivial]
    exact go (fn := .postUnary) hp rfl (by rw [parseInfix]; rfl)
  | @rethrow t w hc ih =>
    intro p c hp hf
    simp only [List.append_assoc, List.cons_append, List.nil_append]
    rw [ih p _ hp trivial]
    exact go (fn := .rethrow) hp rfl (by rw [parseInfix]; rfl)
  | @forceUnwrap t w hc ih =>
    intro p c hp hf
    simp only [List.append_assoc, List.cons_append, List.nil_append]
    rw [ih p _ hp trivial]
    exact go (fn := .forceUnwrap) hp rfl (by rw [parseInfix]; rfl)
  | unaryUp _ ih =>
    intro p c hp hf
    exact ih p c hp trivial
  | @prefixed t w o op ho hu ih =>
    intro p c hp hf
    obtain ⟨f1, f2, f3⟩ := prefixOp_facts ho
    have h1 := ih 10 c (by simp [NT.level]) hf
    rw [stop hf] at h1
    refine enter (fn := .unary) f1 ?_
    rw [parsePrefix]
    simp only [List.cons_append, List.tail_cons, show tok (o :: (w ++ c)) = o from rfl, f2, h1, if_neg f3,
      Option.bind_eq_bind, Option.bind_some]
  | @notNot t w hu ih =>
    intro p c hp hf
    have h1 := ih 10 c (by simp [NT.level]) hf
    rw [stop hf] at h1
    refine enter (fn := .unary) rfl ?_
    rw [parsePrefix]
    simp only [List.cons_append, List.tail_cons, show tok (.bangbang :: (w ++ c)) = .bangbang from rfl,
      show unaryOp .bangbang = some .not from rfl, h1, if_true, Option.bind_eq_bind, Option.bind_some]
  | @cast t w k hu ih =>
    intro p c hp hf
    have hs : isExpr (w ++ c) = true := (gen_start hu).isExpr c
    have h1 := ih 11 c (by simp [NT.level]) hf
    rw [stop (Nat.lt_succ_of_lt hf)] at h1
    have h0 : parsePrecedence PREC_ASSIGNMENT (.typ k :: .rparen :: (w ++ c)) = some (.typ k, .rparen :: (w ++ c)) := by
      rw [enter (fn := .typ) (e := .typ k) (c' := .rparen :: (w ++ c)) rfl (by rw [parsePrefix])]
      exact stop (by simp [tok, rules])
    refine enter (fn := .grouping) rfl ?_
    rw [parsePrefix]
    simp only [List.cons_append, List.tail_cons, h0, consume, if_true, hs, h1, Option.bind_eq_bind, Option.bind_some]
  | @binUp t w k hk _ ih =>
    intro p c hp hf
    have := tighter_level hk
    exact ih p c (by simp only [NT.level] at hp; omega) (tighter_follow hk hf)
  | @binary l r w v o op k ho _ _ ih1 ih2 =>
    intro p c hp hf
    obtain ⟨f1, f2, f3, f4, _⟩ := binLevel_facts ho
    simp only [List.append_assoc, List.cons_append]
    rw [ih1 p _ hp (by simp only [Follow, tok, List.headD_cons, f2]; omega)]
    have h1 := ih2 (k + 4) c (tighter_level f4) (tighter_follow f4 hf)
    rw [stop (by simp only [Follow] at hf; omega)] at h1
    refine go (fn := .binary) (by simpa [tok, f2, NT.level] using hp) f1 ?_
    rw [parseInfix]
    simp only [show tok (o :: (v ++ c)) = o from rfl, f2, f3, List.tail_cons,
      if_neg (show ¬ k + 3 = PREC_ASSIGNMENT by show ¬ k + 3 = 1; omega), h1, Option.bind_eq_bind, Option.bind_some]
  | suffixUp _ ih =>
    intro p c hp hf
    exact ih p c (by simp only [NT.level] at *; omega) (by have := hf.1; simp only [Follow]; omega)
  | @optional t w _ ih =>
    intro p c hp hf
    simp only [List.append_assoc, List.cons_append, List.nil_append]
    rw [ih p _ (by simp only [NT.level] at *; omega) (by show (2 : Nat) ≤ 3; omega)]
    refine go (fn := .ternary) hp rfl ?_
    rw [parseInfix]
    simp [hf.2]
  | @optionalRethrow t w _ ih =>
    intro p c hp hf
    simp only [List.append_assoc, List.cons_append, List.nil_append]
    rw [ih p _ (by simp only [NT.level] at *; omega) (by show (2 : Nat) ≤ 3; omega)]
    rw [go (fn := .ternary) (t' := .optional t) (c' := .bang :: c) hp rfl ?_]
    · refine go (fn := .rethrow) ?_ rfl (by rw [parseInfix]; rfl)
      simp only [NT.level] at hp
      show p ≤ 11
      omega
    · rw [parseInfix]
      simp [hf.2, tok]
  | ternaryUp _ ih =>
    intro p c hp hf
    exact ih p c hp ⟨Nat.le_succ_of_le hf.1, hf.2⟩
  | @ternary cnd t e w v u _ h2 h3 ih1 ih2 ih3 =>
    intro p c hp hf
    simp only [List.append_assoc, List.cons_append]
    rw [ih1 p _ (by simp only [NT.level] at *; omega) (by show (2 : Nat) ≤ 3; omega)]
    refine go (fn := .ternary) hp rfl ?_
    have e2 := ih2 1 (.colon :: (u ++ c)) (Nat.le_refl _) ⟨rfl, rfl⟩
    rw [expr_done ⟨rfl, rfl⟩] at e2
    have e3 := ih3 2 c (Nat.le_refl _) hf
    rw [stop (by have := hf.1; omega)] at e3
    have hs := (gen_start h2).isExpr (.colon :: (u ++ c))
    have hb : ¬ ((tok (v ++ .colon :: (u ++ c)) = .bang ∨ tok (v ++ .colon :: (u ++ c)) = .bangbang) ∧
        ¬ isExpr (v ++ .colon :: (u ++ c)).tail = true) := by
      obtain ⟨a, v', rfl, g1, g3, g4⟩ := gen_start h2
      rintro ⟨hb, hn⟩
      apply hn
      have hb : a = .bang ∨ a = .bangbang := hb
      have h := g3 hb
      show isExpr (v' ++ _) = true
      unfold isExpr
      rw [tok_append (isExpr_ne h)]
      exact h
    rw [parseInfix]
    simp only [List.tail_cons]
    simp only [if_neg (show ¬ (¬ isExpr (v ++ .colon :: (u ++ c)) = true ∨
        (tok (v ++ .colon :: (u ++ c)) = .bang ∨ tok (v ++ .colon :: (u ++ c)) = .bangbang) ∧
        ¬ isExpr (v ++ .colon :: (u ++ c)).tail = true) from fun h => h.elim (fun h => h hs) hb), e2, consume, if_true, e3, Option.bind_eq_bind, Option.bind_some]
  | @elvis cnd e w u _ _ ih1 ih3 =>
    intro p c hp hf
    simp only [List.append_assoc, List.cons_append]
    rw [ih1 p _ hp (by simp [Follow, tok, rules, isExpr])]
    refine go (fn := .elvis) hp rfl ?_
    have e3 := ih3 2 c (Nat.le_refl _) hf
    rw [stop (by have := hf.1; omega)] at e3
    rw [parseInfix]
    simp [e3]
  | @orelse cnd e w u _ _ ih1 ih3 =>
    intro p c hp hf
    simp only [List.append_assoc, List.cons_append]
    rw [ih1 p _ hp (by simp [Follow, tok, rules, isExpr])]
    refine go (fn := .orelse) hp rfl ?_
    have e3 := ih3 2 c (Nat.le_refl _) hf
    rw [stop (by have := hf.1; omega)] at e3
    rw [parseInfix]
    simp [e3]
  | exprUp _ ih =>
    intro p c hp hf
    exact ih p c (by simp only [NT.level] at *; omega) ⟨by have := hf.1; omega, hf.2⟩
  | @assign l r w v o op ho _ _ ih1 ih2 =>
    intro p c hp hf
    obtain ⟨f1, f2, f3, _⟩ := assignOp_facts ho
    simp only [List.append_assoc, List.cons_append]
    rw [ih1 p _ (by simp only [NT.level] at *; omega) (by simp only [Follow, tok, List.headD_cons, f2]; omega)]
    have h1 := ih2 1 c (Nat.le_refl _) hf
    rw [expr_done hf] at h1
    refine go (fn := .binary) (by simpa [tok, f2, NT.level] using hp) f1 ?_
    rw [parseInfix]
    simp only [show tok (o :: (v ++ c)) = o from rfl, f2, f3, List.tail_cons, if_true, h1,
      Option.bind_eq_bind, Option.bind_some]
  | @fromStart t w h ih =>
    intro c hf
    refine ⟨w ++ c, ?_, ?_⟩
    · obtain ⟨a, w', rfl, g1, _⟩ := gen_start h
      refine tryConsume_ne ?_
      rintro rfl
      simp [rules] at g1
    · rw [ih 1 c (Nat.le_refl _) hf, expr_done hf]
  | @fromEnd t w h ih =>
    intro c hf
    exact ⟨w ++ c, tryConsume_eq, by rw [ih 1 c (Nat.le_refl _) hf, expr_done hf]⟩
  | @one t w h ih =>
    intro c
    have h1 := ih 1 (.rparen :: c) (Nat.le_refl _) ⟨rfl, rfl⟩
    rw [expr_done ⟨rfl, rfl⟩] at h1
    have h2 := second_ne_colon (gen_start h) (c := .rparen :: c) (by simp [tok])
    rw [parseArgList, if_neg h2]
    simp [h1]
  | @oneComma t w h ih =>
    intro c
    have h1 := ih 1 (.comma :: .rparen :: c) (Nat.le_refl _) ⟨rfl, rfl⟩
    rw [expr_done ⟨rfl, rfl⟩] at h1
    have h2 := second_ne_colon (gen_start h) (c := .comma :: .rparen :: c) (by simp [tok])
    simp only [List.append_assoc, List.cons_append, List.nil_append]
    rw [parseArgList, if_neg h2]
    simp [h1, tok]
  | @cons t w v args h ha ih iha =>
    intro c
    simp only [List.append_assoc, List.cons_append]
    have h1 := ih 1 (.comma :: (v ++ .rparen :: c)) (Nat.le_refl _) ⟨rfl, rfl⟩
    rw [expr_done ⟨rfl, rfl⟩] at h1
    have h2 := second_ne_colon (gen_start h) (c := .comma :: (v ++ .rparen :: c)) (by simp [tok])
    have h3 := argList_first ha (.rparen :: c)
    rw [parseArgList, if_neg h2]
    have h4 := iha c
    simp [h1, h3, h4]

/-! ## From the grammar to the table -/

theorem gen_table {n : NT} {t : Expr} {w : List Tok} (h : Gen false n t w) : Tok.ctConcat ∉ w → Gen true n t w := by
  induction h using Gen.rec (motive_2 := fun b t w _ => Tok.ctConcat ∉ w → RangeLoc true b t w)
    (motive_3 := fun a w _ => Tok.ctConcat ∉ w → ArgList true a w) with
  | atom k => exact fun _ => .atom k
  | typeAccess k j => exact fun _ => .typeAccess k j
  | paren _ ih => exact fun hn => .paren (ih (by simp at hn; exact hn))
  | index _ _ i1 i2 => exact fun hn => by simp at hn; exact .index (i1 hn.1) (i2 hn.2)
  | sliceDots _ _ _ i1 i2 i3 => exact fun hn => by simp at hn; exact .sliceDots (i1 hn.1) (i2 hn.2.1) (i3 hn.2.2)
  | sliceFrom _ _ i1 i2 => exact fun hn => by simp at hn; exact .sliceFrom (i1 hn.1) (i2 hn.2)
  | sliceTo _ _ i1 i2 => exact fun hn => by simp at hn; exact .sliceTo (i1 hn.1) (i2 hn.2)
  | sliceAll _ i1 => exact fun hn => by simp at hn; exact .sliceAll (i1 hn)
  | sliceLen _ _ _ i1 i2 i3 => exact fun hn => by simp at hn; exact .sliceLen (i1 hn.1) (i2 hn.2.1) (i3 hn.2.2)
  | sliceLenFirst _ _ i1 i2 => exact fun hn => by simp at hn; exact .sliceLenFirst (i1 hn.1) (i2 hn.2)
  | callEmpty _ i1 => exact fun hn => by simp at hn; exact .callEmpty (i1 hn)
  | call _ _ i1 i2 => exact fun hn => by simp at hn; exact .call (i1 hn.1) (i2 hn.2)
  | access k _ i1 => exact fun hn => by simp at hn; exact .access k (i1 hn)
  | postInc _ i1 => exact fun hn => by simp at hn; exact .postInc (i1 hn)
  | postDec _ i1 => exact fun hn => by simp at hn; exact .postDec (i1 hn)
  | rethrow _ i1 => exact fun hn => by simp at hn; exact .rethrow (i1 hn)
  | forceUnwrap _ i1 => exact fun hn => by simp at hn; exact .forceUnwrap (i1 hn)
  | unaryUp _ i1 => exact fun hn => .unaryUp (i1 hn)
  | prefixed ho _ i1 => exact fun hn => by simp at hn; exact .prefixed ho (i1 hn.2)
  | notNot _ i1 => exact fun hn => by simp at hn; exact .notNot (i1 hn)
  | cast k _ i1 => exact fun hn => by simp at hn; exact .cast k (i1 hn)
  | binUp hk _ i1 => exact fun hn => .binUp hk (i1 hn)
  | @binary l r w v o op k ho _ _ i1 i2 =>
    intro hn
    simp at hn
    refine .binary ?_ (i1 hn.1) (i2 hn.2.2)
    cases o <;> first | exact ho | exact absurd rfl hn.2.1
  | suffixUp _ i1 => exact fun hn => .suffixUp (i1 hn)
  | optional _ i1 => exact fun hn => by simp at hn; exact .optional (i1 hn)
  | optionalRethrow _ i1 => exact fun hn => by simp at hn; exact .optionalRethrow (i1 hn)
  | ternaryUp _ i1 => exact fun hn => .ternaryUp (i1 hn)
  | ternary _ _ _ i1 i2 i3 => exact fun hn => by simp at hn; exact .ternary (i1 hn.1) (i2 hn.2.1) (i3 hn.2.2)
  | elvis _ _ i1 i2 => exact fun hn => by simp at hn; exact .elvis (i1 hn.1) (i2 hn.2)
  | orelse _ _ i1 i2 => exact fun hn => by simp at hn; exact .orelse (i1 hn.1) (i2 hn.2)
  | exprUp _ i1 => exact fun hn => .exprUp (i1 hn)
  | assign ho _ _ i1 i2 => exact fun hn => by simp at hn; exact .assign ho (i1 hn.1) (i2 hn.2.2)
  | fromStart _ i1 => rename_i hn; exact .fromStart (i1 hn)
  | fromEnd _ i1 => rename_i hn; exact .fromEnd (i1 (by simp at hn; exact hn))
  | one _ i1 => rename_i hn; exact .one (i1 hn)
  | oneComma _ i1 => rename_i hn; exact .oneComma (i1 (by simp at hn; exact hn))
  | cons _ _ i1 i2 => rename_i hn; simp at hn; exact .cons (i1 hn.1) (i2 hn.2)

/-! ## Printing -/

theorem bin_down {cm : Bool} {t : Expr} {w : List Tok} {k : Nat} (hk : k ≤ 6) (h : Gen cm (.bin k) t w) :
    ∀ j, j ≤ k → Gen cm (.bin j) t w := by
  intro j hj
  induction k with
  | zero => rw [Nat.le_zero.1 hj]; exact h
  | succ k ih =>
    by_cases h0 : j = k + 1
    · rw [h0]; exact h
    · refine ih (by omega) (.binUp (by omega) ?_) (by omega)
      rw [tighter, if_pos (by omega)]
      exact h

/-- The nonterminals that occur. -/
def NT.ok : NT → Prop
  | .bin k => k ≤ 6
  | _ => True

theorem lift_ {cm : Bool} {t : Expr} {w : List Tok} {n m : NT} (hn : n.ok) (hm : m.ok) (h : Gen cm n t w)
    (hr : m.rank ≤ n.rank) : Gen cm m t w := by
  have toUnary : Gen cm .call t w → Gen cm .unary t w := .unaryUp
  have toBin : Gen cm .unary t w → ∀ j, j ≤ 6 → Gen cm (.bin j) t w :=
    fun h => bin_down (k := 6) (by omega) (.binUp (by omega) h)
  have toSuffix : Gen cm (.bin 0) t w → Gen cm .suffix t w := .suffixUp
  have toTernary : Gen cm .suffix t w → Gen cm .ternary t w := .ternaryUp
  have toExpr : Gen cm .ternary t w → Gen cm .expr t w := .exprUp
  cases n <;> cases m <;> simp only [NT.rank, NT.ok] at hr hn hm <;>
    first
    | exact h
    | exact toUnary h
    | exact toBin h _ (by omega)
    | exact toBin (toUnary h) _ (by omega)
    | exact bin_down (by omega) h _ (by omega)
    | exact toSuffix (toBin h 0 (by omega))
    | exact toSuffix (toBin (toUnary h) 0 (by omega))
    | exact toSuffix (bin_down (by omega) h 0 (by omega))
    | exact toTernary h
    | exact toTernary (toSuffix (toBin h 0 (by omega)))
    | exact toTernary (toSuffix (toBin (toUnary h) 0 (by omega)))
    | exact toTernary (toSuffix (bin_down (by omega) h 0 (by omega)))
    | exact toExpr h
    | exact toExpr (toTernary h)
    | exact toExpr (toTernary (toSuffix (toBin h 0 (by omega))))
    | exact toExpr (toTernary (toSuffix (toBin (toUnary h) 0 (by omega))))
    | exact toExpr (toTernary (toSuffix (bin_down (by omega) h 0 (by omega))))
    | (exfalso; omega)

theorem Shows.group {e : Expr} {t : Tree} (h : Shows e t) : Shows e.group t := by
  cases h with
  | bin ho h1 h2 => exact .bin ho h1 h2
  | assign ho h1 h2 => exact .assign ho h1 h2
  | ternary h1 h2 h3 => exact .ternary h1 h2 h3
  | elvis h1 h2 => exact .elvis h1 h2
  | orelse h1 h2 => exact .orelse h1 h2
  | atom k => exact .atom k
  | prefixed ho h => exact .prefixed ho h
  | cast k h => exact .cast k h
  | optional h => exact .optional h
  | index h1 h2 => exact .index h1 h2
  | access k h => exact .access k h
  | inc h => exact .inc h
  | dec h => exact .dec h
  | rethrow h => exact .rethrow h
  | forceUnwrap h => exact .forceUnwrap h

theorem wrap_gen {n m : NT} {e : Expr} {t : Tree} {w : List Tok} (hn : n.ok) (hm : m.ok) (h : Gen true n e w)
    (hs : Shows e t) : ∃ e', Gen true m e' (wrap m n w) ∧ Shows e' t := by
  unfold wrap
  split
  · next hr => exact ⟨e, lift_ hn hm h hr, hs⟩
  · refine ⟨e.group, lift_ (n := .call) trivial hm (.paren (lift_ hn trivial h ?_)) ?_, hs.group⟩
    · simp [NT.rank]
    · cases m <;> simp only [NT.rank, NT.ok] at * <;> omega

theorem nt_ok {t : Tree} (h : t.ok) : t.nt.ok := by
  cases t <;> simp only [Tree.nt, NT.ok]
  next o l r =>
  obtain ⟨⟨op, k⟩, ho⟩ := Option.isSome_iff_exists.1 h.1
  simp only [ho, Option.map_some, Option.getD_some]
  exact (binLevel_facts ho).2.2.2.1

theorem tighter_ok {k : Nat} : (tighter k).ok := by
  unfold tighter
  split <;> simp only [NT.ok]
  omega

theorem print_gen : ∀ (t : Tree), t.ok → ∃ e, Gen true t.nt e t.print ∧ Shows e t := by
  intro t
  induction t with
  | atom k => exact fun _ => ⟨.atom k, .atom k, .atom k⟩
  | prefixed o t ih =>
    rintro ⟨h1, h2⟩
    obtain ⟨op, ho⟩ := Option.isSome_iff_exists.1 h1
    obtain ⟨e, g, s⟩ := ih h2
    obtain ⟨e', g', s'⟩ := wrap_gen (m := .unary) (nt_ok h2) trivial g s
    exact ⟨_, .prefixed ho g', .prefixed ho s'⟩
  | cast k t ih =>
    intro h
    obtain ⟨e, g, s⟩ := ih h
    obtain ⟨e', g', s'⟩ := wrap_gen (m := .unary) (nt_ok (t := t) h) trivial g s
    exact ⟨_, .cast k g', .cast k s'⟩
  | bin o l r ih1 ih2 =>
    rintro ⟨h1, h2, h3⟩
    obtain ⟨⟨op, k⟩, ho⟩ := Option.isSome_iff_exists.1 h1
    obtain ⟨e1, g1, s1⟩ := ih1 h2
    obtain ⟨e2, g2, s2⟩ := ih2 h3
    obtain ⟨e1', g1', s1'⟩ := wrap_gen (m := .bin k) (nt_ok h2) (binLevel_facts ho).2.2.2.1 g1 s1
    obtain ⟨e2', g2', s2'⟩ := wrap_gen (m := tighter k) (nt_ok h3) tighter_ok g2 s2
    refine ⟨_, ?_, .bin (g := false) ho s1' s2'⟩
    simp only [Tree.nt, Tree.print, ho, Option.map_some, Option.getD_some]
    exact .binary ho g1' g2'
  | assign o l r ih1 ih2 =>
    rintro ⟨h1, h2, h3⟩
    obtain ⟨op, ho⟩ := Option.isSome_iff_exists.1 h1
    obtain ⟨e1, g1, s1⟩ := ih1 h2
    obtain ⟨e2, g2, s2⟩ := ih2 h3
    obtain ⟨e1', g1', s1'⟩ := wrap_gen (m := .unary) (nt_ok h2) trivial g1 s1
    obtain ⟨e2', g2', s2'⟩ := wrap_gen (m := .expr) (nt_ok h3) trivial g2 s2
    exact ⟨_, .assign ho g1' g2', .assign ho s1' s2'⟩
  | ternary c t e ih1 ih2 ih3 =>
    rintro ⟨h1, h2, h3⟩
    obtain ⟨e1, g1, s1⟩ := ih1 h1
    obtain ⟨e2, g2, s2⟩ := ih2 h2
    obtain ⟨e3, g3, s3⟩ := ih3 h3
    obtain ⟨e1', g1', s1'⟩ := wrap_gen (m := .bin 0) (nt_ok h1) (Nat.zero_le _) g1 s1
    obtain ⟨e2', g2', s2'⟩ := wrap_gen (m := .expr) (nt_ok h2) trivial g2 s2
    obtain ⟨e3', g3', s3'⟩ := wrap_gen (m := .ternary) (nt_ok h3) trivial g3 s3
    exact ⟨_, .ternary g1' g2' g3', .ternary s1' s2' s3'⟩
  | elvis c e ih1 ih3 =>
    rintro ⟨h1, h3⟩
    obtain ⟨e1, g1, s1⟩ := ih1 h1
    obtain ⟨e3, g3, s3⟩ := ih3 h3
    obtain ⟨e1', g1', s1'⟩ := wrap_gen (m := .suffix) (nt_ok h1) trivial g1 s1
    obtain ⟨e3', g3', s3'⟩ := wrap_gen (m := .ternary) (nt_ok h3) trivial g3 s3
    exact ⟨_, .elvis g1' g3', .elvis s1' s3'⟩
  | orelse c e ih1 ih3 =>
    rintro ⟨h1, h3⟩
    obtain ⟨e1, g1, s1⟩ := ih1 h1
    obtain ⟨e3, g3, s3⟩ := ih3 h3
    obtain ⟨e1', g1', s1'⟩ := wrap_gen (m := .suffix) (nt_ok h1) trivial g1 s1
    obtain ⟨e3', g3', s3'⟩ := wrap_gen (m := .ternary) (nt_ok h3) trivial g3 s3
    exact ⟨_, .orelse g1' g3', .orelse s1' s3'⟩
  | optional t ih =>
    intro h
    obtain ⟨e, g, s⟩ := ih h
    obtain ⟨e', g', s'⟩ := wrap_gen (m := .bin 0) (nt_ok (t := t) h) (Nat.zero_le _) g s
    exact ⟨_, .optional g', .optional s'⟩
  | index t i ih1 ih2 =>
    rintro ⟨h1, h2⟩
    obtain ⟨e1, g1, s1⟩ := ih1 h1
    obtain ⟨e2, g2, s2⟩ := ih2 h2
    obtain ⟨e1', g1', s1'⟩ := wrap_gen (m := .call) (nt_ok h1) trivial g1 s1
    obtain ⟨e2', g2', s2'⟩ := wrap_gen (m := .expr) (nt_ok h2) trivial g2 s2
    exact ⟨_, .index g1' (.fromStart g2'), .index s1' s2'⟩
  | access t k ih =>
    intro h
    obtain ⟨e, g, s⟩ := ih h
    obtain ⟨e', g', s'⟩ := wrap_gen (m := .call) (nt_ok (t := t) h) trivial g s
    exact ⟨_, .access k g', .access k s'⟩
  | «postfix» o t ih =>
    rintro ⟨ho, h⟩
    obtain ⟨e, g, s⟩ := ih h
    obtain ⟨e', g', s'⟩ := wrap_gen (m := .call) (nt_ok h) trivial g s
    rcases ho with rfl | rfl | rfl | rfl
    · exact ⟨_, .postInc g', .inc s'⟩
    · exact ⟨_, .postDec g', .dec s'⟩
    · exact ⟨_, .rethrow g', .rethrow s'⟩
    · exact ⟨_, .forceUnwrap g', .forceUnwrap s'⟩

theorem endsExpr_follow {c : List Tok} (h : endsExpr c) : Follow .expr c := by
  cases c with
  | nil => exact ⟨rfl, rfl⟩
  | cons a c => cases a <;> first | exact ⟨rfl, rfl⟩ | exact h.elim

theorem subscript_open {t i : Expr} {b : Bool} {v c : List Tok} (hv : ParsesLoc b i v)
    (h1 : ∀ c', tok (v ++ c') ≠ .dotdot ∧ tok (v ++ c') ≠ .colon) :
    parseInfix .subscript t (.lbracket :: (v ++ .colon :: .rbracket :: c)) = none := by
  obtain ⟨c1, e1, e2⟩ := hv (.colon :: .rbracket :: c) ⟨rfl, rfl⟩
  rw [parseInfix]
  simp only [List.tail_cons]
  rw [if_neg (not_or.2 (h1 _))]
  simp only [e1, e2, Option.bind_eq_bind, Option.bind_some]
  simp [tryConsume_eq, tryConsume_ne, isExpr, tok, rules]

theorem rangeLoc_parses {b : Bool} {t : Expr} {w : List Tok} (h : RangeLoc true b t w) : ParsesLoc b t w := by
  cases h with
  | fromStart h =>
    intro c hf
    refine ⟨w ++ c, ?_, ?_⟩
    · obtain ⟨a, w', rfl, g1, _⟩ := gen_start h
      refine tryConsume_ne ?_
      rintro rfl
      simp [rules] at g1
    · rw [gen_parse h 1 c (Nat.le_refl _) hf, expr_done hf]
  | fromEnd h =>
    intro c hf
    exact ⟨_, tryConsume_eq, (gen_parse h 1 c (Nat.le_refl _) hf).trans (expr_done hf)⟩

end C3.Pratt
