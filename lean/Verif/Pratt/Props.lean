import Verif.Pratt.Lemmas

/-!
# C26: the expression parser and the grammar
-/

set_option autoImplicit false

namespace C3.Pratt

/-- **C26**, for texts without `+++` (see `C26_concat`): every expression of the grammar in
`resources/grammar/grammar.y` is parsed, up to its end and not beyond, into the tree the grammar gives it.
Missing: named arguments, initialisers, lambdas and the other tokens not in `Tok`, and the ranges of
`C26_open_length`. -/
theorem C26_grammar_partial (t : Expr) (w rest : List Tok) (h : Gen false .expr t w) (hc : Tok.ctConcat ∉ w)
    (hr : endsExpr rest) : parseExpr (w ++ rest) = some (t, rest) := by
  rw [parseExpr, gen_parse (gen_table h hc) 1 rest (Nat.le_refl _) (endsExpr_follow hr),
    expr_done (endsExpr_follow hr)]

/-- The same with `+++` put where the rule table has it. -/
theorem C26_table (t : Expr) (w rest : List Tok) (h : Gen true .expr t w) (hr : endsExpr rest) :
    parseExpr (w ++ rest) = some (t, rest) := by
  rw [parseExpr, gen_parse h 1 rest (Nat.le_refl _) (endsExpr_follow hr), expr_done (endsExpr_follow hr)]

/-- Constant expressions (`constant_expr` of the grammar) stop before an assignment. -/
theorem C26_constant (t : Expr) (w rest : List Tok) (h : Gen true .ternary t w)
    (hr : endsExpr rest ∨ (assignOp (tok rest)).isSome) : parseConstantExpr (w ++ rest) = some (t, rest) := by
  have hf : Follow .ternary rest := by
    rcases hr with hr | hr
    · have := endsExpr_follow hr
      exact ⟨by have := this.1; omega, this.2⟩
    · obtain ⟨op, ho⟩ := Option.isSome_iff_exists.1 hr
      refine ⟨by rw [(assignOp_facts ho).2.1]; omega, ?_⟩
      unfold isExpr
      generalize tok rest = x at *
      cases x <;> first | rfl | simp [assignOp] at ho
  rw [parseConstantExpr, gen_parse h 2 rest (Nat.le_refl _) hf, stop (by have := hf.1; omega)]

/-- The grammar is unambiguous: a text has one tree at most. -/
theorem C26_unambiguous (t u : Expr) (w : List Tok) (h1 : Gen true .expr t w) (h2 : Gen true .expr u w) : t = u := by
  have e1 := C26_table t w [] h1 trivial
  have e2 := C26_table u w [] h2 trivial
  rw [e1] at e2
  simpa using e2

/-- Every tree over the operators, written with no more parentheses than precedence and associativity
require, is parsed into that tree, up to the end of its text. -/
theorem C26_roundtrip (t : Tree) (h : t.ok) (rest : List Tok) (hr : endsExpr rest) :
    ∃ e, parseExpr (t.print ++ rest) = some (e, rest) ∧ Shows e t := by
  obtain ⟨e, g, s⟩ := print_gen t h
  exact ⟨e, C26_table e _ rest (lift_ (nt_ok h) trivial g (Nat.zero_le _)) hr, s⟩

/-- `a - (b - c) * d ? e : -f[g] = h` needs just these parentheses (and some more for the assignment). -/
example : Tree.print (.assign .eq (.prefixed .minus (.index (.atom 5) (.atom 6)))
      (.ternary (.bin .minus (.atom 0) (.bin .star (.bin .minus (.atom 1) (.atom 2)) (.atom 3))) (.atom 4) (.atom 7)))
    = [.minus, .atom 5, .lbracket, .atom 6, .rbracket, .eq, .atom 0, .minus, .lparen, .atom 1, .minus, .atom 2, .rparen,
       .star, .atom 3, .question, .atom 4, .colon, .atom 7] := by
  simp [Tree.print, wrap, Tree.nt, binLevel, NT.rank, tighter]

example : ∃ e, parseExpr [.atom 0, .minus, .atom 1, .minus, .atom 2, .shl, .atom 3, .plus, .atom 4, .star, .atom 5] = some (e, []) ∧
    Shows e (.bin .plus (.bin .minus (.bin .minus (.atom 0) (.atom 1)) (.bin .shl (.atom 2) (.atom 3)))
      (.bin .star (.atom 4) (.atom 5))) :=
  C26_roundtrip (.bin .plus (.bin .minus (.bin .minus (.atom 0) (.atom 1)) (.bin .shl (.atom 2) (.atom 3)))
      (.bin .star (.atom 4) (.atom 5))) (by simp [Tree.ok, binLevel]) [] trivial

/-- `x ? (int)!y.z(1, 2,) : a?` followed by `;`. -/
example : parseExpr [.atom 0, .question, .lparen, .typ 0, .rparen, .bang, .atom 1, .dot, .atom 2, .lparen, .atom 3,
      .comma, .atom 4, .comma, .rparen, .colon, .atom 5, .question, .other 1]
    = some (.ternary (.atom 0) (.cast 0 (.unary .not (.call (.access (.atom 1) (.atom 2))
        (.cons (.atom 3) (.cons (.atom 4) .nil))))) (.optional (.atom 5)) false, [.other 1]) := by
  have a : ∀ k, Gen false .expr (.atom k) [.atom k] := fun k => lift_ (n := .call) trivial trivial (.atom k) (by decide)
  have b : ∀ k, Gen false (.bin 0) (.atom k) [.atom k] :=
    fun k => lift_ (n := .call) trivial (Nat.zero_le _) (.atom k) (by decide)
  have args : ArgList false (.cons (.atom 3) (.cons (.atom 4) .nil)) _ := .cons (a 3) (.oneComma (a 4))
  have mid := Gen.cast 0 (.prefixed (o := .bang) rfl (.unaryUp (.call (.access 2 (.atom 1)) args)))
  have whole := Gen.exprUp (.ternary (b 0) (lift_ (n := .unary) (m := .expr) trivial trivial mid (by decide)) (.ternaryUp (.optional (b 5))))
  exact C26_grammar_partial _ _ [.other 1] whole (by simp) trivial

/-- The full C26 fails for `+++`: the grammar puts it with `+`, so that `a +++ b * c` means
`a +++ (b * c)`; the parser reads `(a +++ b) * c`. -/
theorem C26_concat (a b c : Nat) (rest : List Tok) (hr : endsExpr rest) :
    Gen false .expr (.binary .ctConcat (.atom a) (.binary .mult (.atom b) (.atom c) false) false)
      [.atom a, .ctConcat, .atom b, .star, .atom c] ∧
    parseExpr ([.atom a, .ctConcat, .atom b, .star, .atom c] ++ rest)
      = some (.binary .mult (.binary .ctConcat (.atom a) (.atom b) false) (.atom c) false, rest) := by
  have at_ : ∀ (cm : Bool) (n : NT), n.ok → ∀ k, Gen cm n (.atom k) [.atom k] :=
    fun cm n hn k => lift_ (n := .call) trivial hn (.atom k) (by cases n <;> simp only [NT.rank, NT.ok] at * <;> omega)
  constructor
  · have h1 : Gen false (.bin 6) (.binary .mult (.atom b) (.atom c) false) ([.atom b] ++ .star :: [.atom c]) :=
      .binary rfl (at_ _ (.bin 6) (Nat.le_refl 6) b) (at_ _ .unary trivial c)
    have h2 : Gen false (.bin 3) _ ([.atom a] ++ .ctConcat :: ([.atom b] ++ .star :: [.atom c])) :=
      .binary (o := .ctConcat) rfl (at_ _ (.bin 3) (by simp [NT.ok]) a)
        (lift_ (n := .bin 6) (m := .bin 4) (Nat.le_refl 6) (by simp [NT.ok]) h1 (by decide))
    exact lift_ (n := .bin 3) (by simp [NT.ok]) trivial h2 (by decide)
  · refine C26_table _ _ _ (lift_ (n := .bin 6) (Nat.le_refl 6) trivial ?_ (by decide)) hr
    exact .binary (w := [.atom a, .ctConcat, .atom b]) (v := [.atom c]) rfl
      (.binary (w := [.atom a]) (v := [.atom b]) rfl (at_ _ (.bin 6) (Nat.le_refl 6) a) (at_ _ .unary trivial b)) (at_ _ .unary trivial c)

example : endsExpr [Tok.other 7] := trivial

/-- And it fails for ranges `e[i:]`, a `range_expr` of the grammar: the parser reports an error. -/
theorem C26_open_length (t i : Expr) (b : Bool) (w v rest : List Tok) (ht : Gen true .call t w)
    (hv : RangeLoc true b i v) : parseExpr (w ++ .lbracket :: v ++ [.colon, .rbracket] ++ rest) = none := by
  simp only [List.append_assoc, List.cons_append, List.nil_append]
  rw [parseExpr, gen_parse ht 1 _ (by decide) trivial, parseWithLeft]
  have := subscript_open (t := t) (c := rest) (rangeLoc_parses hv)
    (fun c' => ⟨(rangeLoc_first hv c').1, (rangeLoc_first hv c').2.1⟩)
  simp [tok, rules, this]

example : Gen true .call (.atom 0) [.atom 0] ∧ RangeLoc true true (.atom 1) [.bitXor, .atom 1] :=
  ⟨.atom 0, .fromEnd (lift_ (n := .call) trivial trivial (.atom 1) (by decide))⟩

end C3.Pratt
