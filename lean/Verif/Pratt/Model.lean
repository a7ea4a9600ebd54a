import Verif.Pratt.Syntax

/-!
# Model of the expression parser, `src/compiler/parse_expr.c`

The parser state is the list of the tokens not yet consumed; at the end of the list the current token is
`TOKEN_EOF`, which has no rule.  A poisoned expression (an error message) is `none`.
-/

set_option autoImplicit false

namespace C3.Pratt

/-- The parse functions in the column `prefix` of the rule table.  `atom` stands for the functions that
consume one token, `typ` for `parse_type_identifier` on a complete type. -/
inductive PrefixFn where
  | atom | typ | unary | grouping
deriving Repr, DecidableEq

/-- The parse functions in the column `infix`. -/
inductive InfixFn where
  | binary | ternary | orelse | elvis | postUnary | call | forceUnwrap | subscript | access | rethrow
deriving Repr, DecidableEq

/-- `ParseRule`. -/
structure Rule where
  prefixFn : Option PrefixFn
  infixFn : Option InfixFn
  precedence : Nat
deriving Repr, DecidableEq

/-- `Precedence`, enums.h 986–1001. -/
abbrev PREC_NONE := 0
abbrev PREC_ASSIGNMENT := 1
abbrev PREC_TERNARY := 2
abbrev PREC_OR := 3
abbrev PREC_AND := 4
abbrev PREC_RELATIONAL := 5
abbrev PREC_ADDITIVE := 6
abbrev PREC_BIT := 7
abbrev PREC_SHIFT := 8
abbrev PREC_MULTIPLICATIVE := 9
abbrev PREC_UNARY := 10
abbrev PREC_CALL := 11
abbrev PREC_PRIMARY := 12

/-- `rules`, parse_expr.c 1935–2047. -/
def rules : Tok → Rule
  | .atom _ => ⟨some .atom, none, PREC_NONE⟩
  | .typ _ => ⟨some .typ, none, PREC_NONE⟩
  | .other _ => ⟨none, none, PREC_NONE⟩
  | .rparen | .rbracket | .comma | .colon | .dotdot => ⟨none, none, PREC_NONE⟩
  | .question => ⟨none, some .ternary, PREC_TERNARY⟩
  | .questquest => ⟨none, some .orelse, PREC_TERNARY⟩
  | .elvis => ⟨none, some .elvis, PREC_TERNARY⟩
  | .plusplus => ⟨some .unary, some .postUnary, PREC_CALL⟩
  | .minusminus => ⟨some .unary, some .postUnary, PREC_CALL⟩
  | .lparen => ⟨some .grouping, some .call, PREC_CALL⟩
  | .bangbang => ⟨some .unary, some .forceUnwrap, PREC_CALL⟩
  | .lbracket => ⟨none, some .subscript, PREC_CALL⟩
  | .minus => ⟨some .unary, some .binary, PREC_ADDITIVE⟩
  | .plus => ⟨some .unary, some .binary, PREC_ADDITIVE⟩
  | .div => ⟨none, some .binary, PREC_MULTIPLICATIVE⟩
  | .mod => ⟨none, some .binary, PREC_MULTIPLICATIVE⟩
  | .star => ⟨some .unary, some .binary, PREC_MULTIPLICATIVE⟩
  | .dot => ⟨none, some .access, PREC_CALL⟩
  | .bang => ⟨some .unary, some .rethrow, PREC_CALL⟩
  | .bitNot => ⟨some .unary, none, PREC_UNARY⟩
  | .bitXor => ⟨none, some .binary, PREC_BIT⟩
  | .bitOr => ⟨none, some .binary, PREC_BIT⟩
  | .amp => ⟨some .unary, some .binary, PREC_BIT⟩
  | .eqeq => ⟨none, some .binary, PREC_RELATIONAL⟩
  | .notEqual => ⟨none, some .binary, PREC_RELATIONAL⟩
  | .greater => ⟨none, some .binary, PREC_RELATIONAL⟩
  | .greaterEq => ⟨none, some .binary, PREC_RELATIONAL⟩
  | .less => ⟨none, some .binary, PREC_RELATIONAL⟩
  | .lessEq => ⟨none, some .binary, PREC_RELATIONAL⟩
  | .shl => ⟨none, some .binary, PREC_SHIFT⟩
  | .shr => ⟨none, some .binary, PREC_SHIFT⟩
  | .oror => ⟨none, some .binary, PREC_OR⟩
  | .ctOr => ⟨none, some .binary, PREC_OR⟩
  | .ctConcat => ⟨none, some .binary, PREC_MULTIPLICATIVE⟩
  | .andand => ⟨some .unary, some .binary, PREC_AND⟩
  | .ctAnd => ⟨some .unary, some .binary, PREC_AND⟩
  | .eq => ⟨none, some .binary, PREC_ASSIGNMENT⟩
  | .plusAssign => ⟨none, some .binary, PREC_ASSIGNMENT⟩
  | .minusAssign => ⟨none, some .binary, PREC_ASSIGNMENT⟩
  | .multAssign => ⟨none, some .binary, PREC_ASSIGNMENT⟩
  | .modAssign => ⟨none, some .binary, PREC_ASSIGNMENT⟩
  | .divAssign => ⟨none, some .binary, PREC_ASSIGNMENT⟩
  | .bitXorAssign => ⟨none, some .binary, PREC_ASSIGNMENT⟩
  | .bitAndAssign => ⟨none, some .binary, PREC_ASSIGNMENT⟩
  | .bitOrAssign => ⟨none, some .binary, PREC_ASSIGNMENT⟩
  | .shrAssign => ⟨none, some .binary, PREC_ASSIGNMENT⟩
  | .shlAssign => ⟨none, some .binary, PREC_ASSIGNMENT⟩

/-- `c->tok`; `other 0` at the end of the input, like `TOKEN_EOF` without rule. -/
def tok (c : List Tok) : Tok := c.headD (.other 0)

/-- `rules[c->tok].prefix != NULL`. -/
def isExpr (c : List Tok) : Bool := (rules (tok c)).prefixFn.isSome

/-- `binary_op`, ast.c 181–215; entries not listed there are 0, `BINARYOP_ERROR`, here `none`. -/
def binaryOp : Tok → Option BinaryOp
  | .star => some .mult
  | .div => some .div
  | .plus => some .add
  | .minus => some .sub
  | .mod => some .mod
  | .shl => some .shl
  | .shr => some .shr
  | .andand => some .and
  | .oror => some .or
  | .ctAnd => some .ctAnd
  | .ctOr => some .ctOr
  | .ctConcat => some .ctConcat
  | .questquest => some .elseOp
  | .amp => some .bitAnd
  | .bitOr => some .bitOr
  | .bitXor => some .bitXor
  | .eqeq => some .eq
  | .notEqual => some .ne
  | .less => some .lt
  | .lessEq => some .le
  | .greater => some .gt
  | .greaterEq => some .ge
  | .eq => some .assign
  | .multAssign => some .multAssign
  | .plusAssign => some .addAssign
  | .minusAssign => some .subAssign
  | .divAssign => some .divAssign
  | .modAssign => some .modAssign
  | .bitAndAssign => some .bitAndAssign
  | .bitOrAssign => some .bitOrAssign
  | .bitXorAssign => some .bitXorAssign
  | .shrAssign => some .shrAssign
  | .shlAssign => some .shlAssign
  | _ => none

/-- `unary_op`, ast.c 236–247. -/
def unaryOp : Tok → Option UnaryOp
  | .star => some .deref
  | .amp => some .addr
  | .andand => some .taddr
  | .bitNot => some .bitneg
  | .bang => some .not
  | .bangbang => some .not
  | .minus => some .neg
  | .plus => some .plus
  | .plusplus => some .inc
  | .minusminus => some .dec
  | _ => none

/-- `CONSUME_OR_RET`. -/
def consume (t : Tok) (c : List Tok) : Option (List Tok) :=
  match c with
  | [] => none
  | x :: c => if x = t then some c else none

/-- `try_consume`. -/
def tryConsume (t : Tok) (c : List Tok) : Bool × List Tok :=
  match c with
  | [] => (false, [])
  | x :: c' => if x = t then (true, c') else (false, c)

mutual

/-- `parse_precedence`, parse_expr.c 157–174. -/
def parsePrecedence (precedence : Nat) (c : List Tok) : Option (Expr × List Tok) := do
  let fn ← (rules (tok c)).prefixFn
  let (left, c) ← parsePrefix fn c
  parseWithLeft left precedence c
partial_fixpoint

/-- `parse_precedence_with_left_side`, parse_expr.c 125–152.  The special case for `.` after an
initializer list does not arise. -/
def parseWithLeft (left : Expr) (precedence : Nat) (c : List Tok) : Option (Expr × List Tok) :=
  let rule := rules (tok c)
  if precedence > rule.precedence then some (left, c)
  else do
    let fn ← rule.infixFn
    let (left, c) ← parseInfix fn left c
    parseWithLeft left precedence c
partial_fixpoint

/-- The prefix rules. -/
def parsePrefix (fn : PrefixFn) (c : List Tok) : Option (Expr × List Tok) :=
  match fn with
  -- `parse_identifier`, `parse_integer` and the like
  | .atom =>
    match c with
    | .atom k :: c => some (.atom k, c)
    | _ => none
  -- `parse_type_identifier`, parse_expr.c 1893–1933
  | .typ =>
    match c with
    | .typ k :: c => some (.typ k, c)
    | _ => none
  -- `parse_unary_expr`, parse_expr.c 700–720
  | .unary => do
    let op ← unaryOp (tok c)
    let (right, c') ← parsePrecedence PREC_UNARY c.tail
    if tok c = .bangbang then some (.unary .not (.unary op right), c')
    else some (.unary op right, c')
  -- `parse_grouping_expr`, parse_expr.c 795–844
  | .grouping => do
    let (e, c) ← parsePrecedence PREC_ASSIGNMENT c.tail
    let c ← consume .rparen c
    match e with
    | .typ k =>
      if isExpr c then do
        let (inner, c) ← parsePrecedence PREC_CALL c
        some (.cast k inner, c)
      else some (.typ k, c)
    | e => some (e.group, c)
partial_fixpoint

/-- The infix rules; the operator is the current token. -/
def parseInfix (fn : InfixFn) (left : Expr) (c : List Tok) : Option (Expr × List Tok) :=
  match fn with
  -- `parse_binary`, parse_expr.c 918–945
  | .binary => do
    let operator := tok c
    let (right, c) ←
      if (rules operator).precedence = PREC_ASSIGNMENT then parsePrecedence PREC_ASSIGNMENT c.tail
      else parsePrecedence ((rules operator).precedence + 1) c.tail
    let op ← binaryOp operator
    some (.binary op left right false, c)
  -- `parse_ternary_expr`, parse_expr.c 757–785
  | .ternary =>
    let c := c.tail
    if ¬ isExpr c ∨ ((tok c = .bang ∨ tok c = .bangbang) ∧ ¬ isExpr c.tail) then some (.optional left, c)
    else do
      let (t, c) ← parsePrecedence PREC_ASSIGNMENT c
      let c ← consume .colon c
      let (e, c) ← parsePrecedence PREC_TERNARY c
      some (.ternary left t e false, c)
  -- `parse_orelse`, parse_expr.c 899–916
  | .orelse => do
    let (right, c) ← parsePrecedence PREC_TERNARY c.tail
    some (.binary .elseOp left right false, c)
  -- `parse_elvis_expr`, parse_expr.c 739–750
  | .elvis => do
    let (e, c) ← parsePrecedence PREC_TERNARY c.tail
    some (.elvis left e false, c)
  -- `parse_post_unary`, parse_expr.c 725–734
  | .postUnary => do
    let op ← unaryOp (tok c)
    some (.postUnary op left, c.tail)
  -- `parse_call_expr`, parse_expr.c 947–1040, without trailing `;` parameters, attributes and body
  | .call =>
    let c := c.tail
    if tok c = .rparen then some (.call left .nil, c.tail)
    else do
      let (args, c) ← parseArgList c
      let c ← consume .rparen c
      some (.call left args, c)
  -- `parse_force_unwrap_expr`, parse_expr.c 1319–1326
  | .forceUnwrap => some (.forceUnwrap left, c.tail)
  -- `parse_subscript_expr`, parse_expr.c 1045–1070, with `parse_range`, 32–76
  | .subscript => do
    let c := c.tail
    let (startFromEnd, start, c) ←
      if tok c = .dotdot ∨ tok c = .colon then some (false, Expr.zero, c)
      else do
        let (fromEnd, c) := tryConsume .bitXor c
        let (start, c) ← parsePrecedence PREC_ASSIGNMENT c
        some (fromEnd, start, c)
    let (isLen, c) := tryConsume .colon c
    let (isDots, c) := if isLen then (false, c) else tryConsume .dotdot c
    if ¬ isLen ∧ ¬ isDots then do
      let c ← consume .rbracket c
      some (.subscript left startFromEnd start, c)
    else
      let (endFromEnd, c) := tryConsume .bitXor c
      if endFromEnd ∨ isExpr c then do
        let (stop, c) ← parsePrecedence PREC_ASSIGNMENT c
        let c ← consume .rbracket c
        some (.slice left isLen startFromEnd start endFromEnd stop, c)
      else if isLen then none
      else do
        let c ← consume .rbracket c
        some (.slice left isLen startFromEnd start false .absent, c)
  -- `parse_access_expr`, parse_expr.c 1087–1097
  | .access => do
    let (child, c) ← parsePrecedence PREC_PRIMARY c.tail
    some (.access left child, c)
  -- `parse_rethrow_expr`, parse_expr.c 111–119
  | .rethrow => some (.rethrow left, c.tail)
partial_fixpoint

/-- `parse_arg_list`, parse_expr.c 471–512.  Named arguments are not modelled: they are taken as an error
here (a name followed by `:`). -/
def parseArgList (c : List Tok) : Option (Args × List Tok) :=
  if tok c.tail = .colon then none
  else do
    let (e, c) ← parsePrecedence PREC_ASSIGNMENT c
    match c with
    | .comma :: c =>
      if tok c = .rparen then some (.cons e .nil, c)
      else do
        let (rest, c) ← parseArgList c
        some (.cons e rest, c)
    | _ => some (.cons e .nil, c)
partial_fixpoint

end

/-- `parse_expr`, parse_expr.c 356–359. -/
def parseExpr (c : List Tok) : Option (Expr × List Tok) := parsePrecedence PREC_ASSIGNMENT c

/-- `parse_constant_expr`, parse_expr.c 361–364. -/
def parseConstantExpr (c : List Tok) : Option (Expr × List Tok) := parsePrecedence (PREC_ASSIGNMENT + 1) c

end C3.Pratt
