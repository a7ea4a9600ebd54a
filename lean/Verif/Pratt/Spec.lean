import Verif.Pratt.Syntax

/-!
# The expression grammar, `resources/grammar/grammar.y`

A transcription of the productions for expressions, with the tree each of them denotes.  `Gen cm n t w`:
the nonterminal `n` derives the tokens `w`, with tree `t`.  The grammar puts `+++` with `+` and `-`
(`cm = false`); with `cm = true` it is put with `*`, which is what the parser does.
-/

set_option autoImplicit false

namespace C3.Pratt

/-- The nonterminals; those of the binary operators have numbers, see `binLevel`. -/
inductive NT where
  | call        -- call_expr (with primary_expr, base_expr)
  | unary       -- unary_expr
  | bin (k : Nat)
  | suffix      -- suffix_expr
  | ternary     -- ternary_expr, constant_expr
  | expr        -- assignment_expr, expr
deriving Repr, DecidableEq

/-- The binary operators: the operator meant by a token, and its nonterminal: 0 `or_expr`, 1 `and_expr`,
2 `relational_expr`, 3 `additive_expr`, 4 `bit_expr`, 5 `shift_expr`, 6 `mult_expr`. -/
def binLevel (cm : Bool) : Tok → Option (BinaryOp × Nat)
  | .star => some (.mult, 6)
  | .div => some (.div, 6)
  | .mod => some (.mod, 6)
  | .shl => some (.shl, 5)
  | .shr => some (.shr, 5)
  | .amp => some (.bitAnd, 4)
  | .bitXor => some (.bitXor, 4)
  | .bitOr => some (.bitOr, 4)
  | .plus => some (.add, 3)
  | .minus => some (.sub, 3)
  | .ctConcat => some (.ctConcat, if cm then 6 else 3)
  | .less => some (.lt, 2)
  | .greater => some (.gt, 2)
  | .lessEq => some (.le, 2)
  | .greaterEq => some (.ge, 2)
  | .eqeq => some (.eq, 2)
  | .notEqual => some (.ne, 2)
  | .andand => some (.and, 1)
  | .ctAnd => some (.ctAnd, 1)
  | .oror => some (.or, 0)
  | .ctOr => some (.ctOr, 0)
  | _ => none

/-- The nonterminal of the right operands of level `k`, and of a single left operand. -/
def tighter (k : Nat) : NT := if k < 6 then .bin (k + 1) else .unary

/-- `assignment_op`. -/
def assignOp : Tok → Option BinaryOp
  | .eq => some .assign
  | .plusAssign => some .addAssign
  | .minusAssign => some .subAssign
  | .multAssign => some .multAssign
  | .divAssign => some .divAssign
  | .modAssign => some .modAssign
  | .shlAssign => some .shlAssign
  | .shrAssign => some .shrAssign
  | .bitAndAssign => some .bitAndAssign
  | .bitXorAssign => some .bitXorAssign
  | .bitOrAssign => some .bitOrAssign
  | _ => none

/-- `unary_op` but for casts. -/
def prefixOp : Tok → Option UnaryOp
  | .amp => some .addr
  | .andand => some .taddr
  | .star => some .deref
  | .plus => some .plus
  | .minus => some .neg
  | .bitNot => some .bitneg
  | .bang => some .not
  | .plusplus => some .inc
  | .minusminus => some .dec
  | _ => none

mutual
inductive Gen (cm : Bool) : NT → Expr → List Tok → Prop
  -- base_expr
  | atom (k : Nat) : Gen cm .call (.atom k) [.atom k]
  | typeAccess (k j : Nat) : Gen cm .call (.access (.typ k) (.atom j)) [.typ k, .dot, .atom j]
  | paren {t : Expr} {w : List Tok} : Gen cm .expr t w → Gen cm .call t.group (.lparen :: w ++ [.rparen])
  -- call_expr
  | index {t i : Expr} {w v : List Tok} {fromEnd : Bool} : Gen cm .call t w → RangeLoc cm fromEnd i v →
      Gen cm .call (.subscript t fromEnd i) (w ++ .lbracket :: v ++ [.rbracket])
  -- range_expr: all forms but `range_loc ':'`, which the parser rejects, see `C26_open_length`
  | sliceDots {t i j : Expr} {w v u : List Tok} {f g : Bool} :
      Gen cm .call t w → RangeLoc cm f i v → RangeLoc cm g j u →
      Gen cm .call (.slice t false f i g j) (w ++ .lbracket :: v ++ .dotdot :: u ++ [.rbracket])
  | sliceFrom {t i : Expr} {w v : List Tok} {f : Bool} : Gen cm .call t w → RangeLoc cm f i v →
      Gen cm .call (.slice t false f i false .absent) (w ++ .lbracket :: v ++ [.dotdot, .rbracket])
  | sliceTo {t j : Expr} {w u : List Tok} {g : Bool} : Gen cm .call t w → RangeLoc cm g j u →
      Gen cm .call (.slice t false false .zero g j) (w ++ .lbracket :: .dotdot :: u ++ [.rbracket])
  | sliceAll {t : Expr} {w : List Tok} : Gen cm .call t w →
      Gen cm .call (.slice t false false .zero false .absent) (w ++ [.lbracket, .dotdot, .rbracket])
  | sliceLen {t i j : Expr} {w v u : List Tok} {f g : Bool} :
      Gen cm .call t w → RangeLoc cm f i v → RangeLoc cm g j u →
      Gen cm .call (.slice t true f i g j) (w ++ .lbracket :: v ++ .colon :: u ++ [.rbracket])
  | sliceLenFirst {t j : Expr} {w u : List Tok} {g : Bool} : Gen cm .call t w → RangeLoc cm g j u →
      Gen cm .call (.slice t true false .zero g j) (w ++ .lbracket :: .colon :: u ++ [.rbracket])
  | callEmpty {t : Expr} {w : List Tok} : Gen cm .call t w →
      Gen cm .call (.call t .nil) (w ++ [.lparen, .rparen])
  | call {t : Expr} {w v : List Tok} {args : Args} : Gen cm .call t w → ArgList cm args v →
      Gen cm .call (.call t args) (w ++ .lparen :: v ++ [.rparen])
  | access {t : Expr} {w : List Tok} (k : Nat) : Gen cm .call t w →
      Gen cm .call (.access t (.atom k)) (w ++ [.dot, .atom k])
  | postInc {t : Expr} {w : List Tok} : Gen cm .call t w → Gen cm .call (.postUnary .inc t) (w ++ [.plusplus])
  | postDec {t : Expr} {w : List Tok} : Gen cm .call t w → Gen cm .call (.postUnary .dec t) (w ++ [.minusminus])
  | rethrow {t : Expr} {w : List Tok} : Gen cm .call t w → Gen cm .call (.rethrow t) (w ++ [.bang])
  | forceUnwrap {t : Expr} {w : List Tok} : Gen cm .call t w → Gen cm .call (.forceUnwrap t) (w ++ [.bangbang])
  -- unary_expr
  | unaryUp {t : Expr} {w : List Tok} : Gen cm .call t w → Gen cm .unary t w
  | prefixed {t : Expr} {w : List Tok} {o : Tok} {op : UnaryOp} : prefixOp o = some op → Gen cm .unary t w →
      Gen cm .unary (.unary op t) (o :: w)
  -- `!!` is one token, also when it stands for two negations
  | notNot {t : Expr} {w : List Tok} : Gen cm .unary t w → Gen cm .unary (.unary .not (.unary .not t)) (.bangbang :: w)
  | cast {t : Expr} {w : List Tok} (k : Nat) : Gen cm .unary t w →
      Gen cm .unary (.cast k t) (.lparen :: .typ k :: .rparen :: w)
  -- mult_expr … or_expr
  | binUp {t : Expr} {w : List Tok} {k : Nat} : k ≤ 6 → Gen cm (tighter k) t w → Gen cm (.bin k) t w
  | binary {l r : Expr} {w v : List Tok} {o : Tok} {op : BinaryOp} {k : Nat} :
      binLevel cm o = some (op, k) → Gen cm (.bin k) l w → Gen cm (tighter k) r v →
      Gen cm (.bin k) (.binary op l r false) (w ++ o :: v)
  -- suffix_expr
  | suffixUp {t : Expr} {w : List Tok} : Gen cm (.bin 0) t w → Gen cm .suffix t w
  | optional {t : Expr} {w : List Tok} : Gen cm (.bin 0) t w → Gen cm .suffix (.optional t) (w ++ [.question])
  | optionalRethrow {t : Expr} {w : List Tok} : Gen cm (.bin 0) t w →
      Gen cm .suffix (.rethrow (.optional t)) (w ++ [.question, .bang])
  -- ternary_expr
  | ternaryUp {t : Expr} {w : List Tok} : Gen cm .suffix t w → Gen cm .ternary t w
  | ternary {c t e : Expr} {w v u : List Tok} : Gen cm (.bin 0) c w → Gen cm .expr t v → Gen cm .ternary e u →
      Gen cm .ternary (.ternary c t e false) (w ++ .question :: v ++ .colon :: u)
  | elvis {c e : Expr} {w u : List Tok} : Gen cm .suffix c w → Gen cm .ternary e u →
      Gen cm .ternary (.elvis c e false) (w ++ .elvis :: u)
  | orelse {c e : Expr} {w u : List Tok} : Gen cm .suffix c w → Gen cm .ternary e u →
      Gen cm .ternary (.binary .elseOp c e false) (w ++ .questquest :: u)
  -- assignment_expr
  | exprUp {t : Expr} {w : List Tok} : Gen cm .ternary t w → Gen cm .expr t w
  | assign {l r : Expr} {w v : List Tok} {o : Tok} {op : BinaryOp} : assignOp o = some op →
      Gen cm .unary l w → Gen cm .expr r v → Gen cm .expr (.binary op l r false) (w ++ o :: v)

/-- `range_loc`. -/
inductive RangeLoc (cm : Bool) : Bool → Expr → List Tok → Prop
  | fromStart {t : Expr} {w : List Tok} : Gen cm .expr t w → RangeLoc cm false t w
  | fromEnd {t : Expr} {w : List Tok} : Gen cm .expr t w → RangeLoc cm true t (.bitXor :: w)

/-- `arg_list` with positional arguments. -/
inductive ArgList (cm : Bool) : Args → List Tok → Prop
  | one {t : Expr} {w : List Tok} : Gen cm .expr t w → ArgList cm (.cons t .nil) w
  | oneComma {t : Expr} {w : List Tok} : Gen cm .expr t w → ArgList cm (.cons t .nil) (w ++ [.comma])
  | cons {t : Expr} {w v : List Tok} {args : Args} : Gen cm .expr t w → ArgList cm args v →
      ArgList cm (.cons t args) (w ++ .comma :: v)
end

/-- Can the token follow an expression: it neither starts an expression nor is an operator. -/
def endsExpr : List Tok → Prop
  | [] => True
  | .other _ :: _ | .rparen :: _ | .rbracket :: _ | .comma :: _ | .colon :: _ | .dotdot :: _ => True
  | _ => False

/-! ## Writing a tree with the parentheses it needs -/

/-- Trees over the operators, without any marks for parentheses. -/
inductive Tree where
  | atom (k : Nat)
  | prefixed (o : Tok) (t : Tree)
  | cast (type : Nat) (t : Tree)
  | bin (o : Tok) (l r : Tree)
  | assign (o : Tok) (l r : Tree)
  | ternary (c t e : Tree)
  | elvis (c e : Tree)
  | orelse (c e : Tree)
  | optional (t : Tree)
  | index (t i : Tree)
  | access (t : Tree) (k : Nat)
  | postfix (o : Tok) (t : Tree)
deriving Repr

/-- Only operators of the right kind. -/
def Tree.ok : Tree → Prop
  | .atom _ => True
  | .prefixed o t => (prefixOp o).isSome ∧ t.ok
  | .cast _ t => t.ok
  | .bin o l r => (binLevel true o).isSome ∧ l.ok ∧ r.ok
  | .assign o l r => (assignOp o).isSome ∧ l.ok ∧ r.ok
  | .ternary c t e => c.ok ∧ t.ok ∧ e.ok
  | .elvis c e => c.ok ∧ e.ok
  | .orelse c e => c.ok ∧ e.ok
  | .optional t => t.ok
  | .index t i => t.ok ∧ i.ok
  | .access t _ => t.ok
  | .postfix o t => (o = .plusplus ∨ o = .minusminus ∨ o = .bang ∨ o = .bangbang) ∧ t.ok

/-- How tightly a nonterminal binds. -/
def NT.rank : NT → Nat
  | .expr => 0
  | .ternary => 1
  | .suffix => 2
  | .bin k => 3 + k
  | .unary => 10
  | .call => 11

/-- The tightest nonterminal a tree belongs to without parentheses. -/
def Tree.nt : Tree → NT
  | .atom _ => .call
  | .prefixed _ _ => .unary
  | .cast _ _ => .unary
  | .bin o _ _ => .bin ((binLevel true o).map (·.2) |>.getD 0)
  | .assign _ _ _ => .expr
  | .ternary _ _ _ => .ternary
  | .elvis _ _ => .ternary
  | .orelse _ _ => .ternary
  | .optional _ => .suffix
  | .index _ _ => .call
  | .access _ _ => .call
  | .postfix _ _ => .call

/-- `w` itself, or in parentheses if a tree of nonterminal `n` stands where `ctx` is required. -/
def wrap (ctx n : NT) (w : List Tok) : List Tok :=
  if ctx.rank ≤ n.rank then w else .lparen :: w ++ [.rparen]

/-- The text of a tree, with parentheses only where the grammar requires them. -/
def Tree.print : Tree → List Tok
  | .atom k => [.atom k]
  | .prefixed o t => o :: wrap .unary t.nt t.print
  | .cast k t => .lparen :: .typ k :: .rparen :: wrap .unary t.nt t.print
  | .bin o l r =>
    let k := (binLevel true o).map (·.2) |>.getD 0
    wrap (.bin k) l.nt l.print ++ o :: wrap (tighter k) r.nt r.print
  | .assign o l r => wrap .unary l.nt l.print ++ o :: wrap .expr r.nt r.print
  | .ternary c t e => wrap (.bin 0) c.nt c.print ++ .question :: wrap .expr t.nt t.print ++
      .colon :: wrap .ternary e.nt e.print
  | .elvis c e => wrap .suffix c.nt c.print ++ .elvis :: wrap .ternary e.nt e.print
  | .orelse c e => wrap .suffix c.nt c.print ++ .questquest :: wrap .ternary e.nt e.print
  | .optional t => wrap (.bin 0) t.nt t.print ++ [.question]
  | .index t i => wrap .call t.nt t.print ++ .lbracket :: wrap .expr i.nt i.print ++ [.rbracket]
  | .access t k => wrap .call t.nt t.print ++ [.dot, .atom k]
  | .postfix o t => wrap .call t.nt t.print ++ [o]

/-- The parser built the tree `t`, whatever it remembers of parentheses. -/
inductive Shows : Expr → Tree → Prop
  | atom (k : Nat) : Shows (.atom k) (.atom k)
  | prefixed {e : Expr} {t : Tree} {o : Tok} {op : UnaryOp} : prefixOp o = some op → Shows e t →
      Shows (.unary op e) (.prefixed o t)
  | cast {e : Expr} {t : Tree} (k : Nat) : Shows e t → Shows (.cast k e) (.cast k t)
  | bin {l r : Expr} {s t : Tree} {o : Tok} {op : BinaryOp} {k : Nat} {g : Bool} : binLevel true o = some (op, k) →
      Shows l s → Shows r t → Shows (.binary op l r g) (.bin o s t)
  | assign {l r : Expr} {s t : Tree} {o : Tok} {op : BinaryOp} {g : Bool} : assignOp o = some op →
      Shows l s → Shows r t → Shows (.binary op l r g) (.assign o s t)
  | ternary {c a b : Expr} {s t u : Tree} {g : Bool} : Shows c s → Shows a t → Shows b u →
      Shows (.ternary c a b g) (.ternary s t u)
  | elvis {c a : Expr} {s t : Tree} {g : Bool} : Shows c s → Shows a t → Shows (.elvis c a g) (.elvis s t)
  | orelse {c a : Expr} {s t : Tree} {g : Bool} : Shows c s → Shows a t →
      Shows (.binary .elseOp c a g) (.orelse s t)
  | optional {e : Expr} {t : Tree} : Shows e t → Shows (.optional e) (.optional t)
  | index {e i : Expr} {s t : Tree} : Shows e s → Shows i t → Shows (.subscript e false i) (.index s t)
  | access {e : Expr} {t : Tree} (k : Nat) : Shows e t → Shows (.access e (.atom k)) (.access t k)
  | inc {e : Expr} {t : Tree} : Shows e t → Shows (.postUnary .inc e) (.postfix .plusplus t)
  | dec {e : Expr} {t : Tree} : Shows e t → Shows (.postUnary .dec e) (.postfix .minusminus t)
  | rethrow {e : Expr} {t : Tree} : Shows e t → Shows (.rethrow e) (.postfix .bang t)
  | forceUnwrap {e : Expr} {t : Tree} : Shows e t → Shows (.forceUnwrap e) (.postfix .bangbang t)

end C3.Pratt
