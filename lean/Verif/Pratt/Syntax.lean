/-!
# Tokens and expression trees

Shared by the model of the parser and by the grammar it is compared with.
-/

set_option autoImplicit false

namespace C3.Pratt

/-- The token kinds of `enums.h` that take part in the expressions modelled.  `atom k` stands for a token
that is an expression by itself (`INTEGER`, `REAL`, `CHAR_LITERAL`, `TRUE`, `FALSE`, `NULL`, an identifier
without path, `CT_IDENT`, `HASH_IDENT`), `typ k` for the tokens of one complete type, `other k` for any
token without entry in the rule table.  Not covered: `{`, strings, bytes, lambdas, `$`-functions, `...`,
paths, attributes. -/
inductive Tok where
  | atom (k : Nat)
  | typ (k : Nat)
  | other (k : Nat)
  | lparen | rparen | lbracket | rbracket | dot | comma | colon | dotdot
  | question | questquest | elvis
  | plusplus | minusminus | bang | bangbang
  | minus | plus | div | mod | star | bitNot | bitXor | bitOr | amp
  | eqeq | notEqual | greater | greaterEq | less | lessEq | shl | shr
  | oror | ctOr | ctConcat | andand | ctAnd
  | eq | plusAssign | minusAssign | multAssign | modAssign | divAssign
  | bitXorAssign | bitAndAssign | bitOrAssign | shrAssign | shlAssign
deriving Repr, DecidableEq

/-- `BinaryOp`, enums.h. -/
inductive BinaryOp where
  | mult | sub | add | div | mod | shl | shr | or | and | elseOp | ctOr | ctAnd | ctConcat
  | bitOr | bitXor | bitAnd | gt | ge | lt | le | ne | eq
  | assign | addAssign | subAssign | multAssign | divAssign | modAssign
  | bitAndAssign | bitOrAssign | bitXorAssign | shrAssign | shlAssign
deriving Repr, DecidableEq

/-- `UnaryOp`, enums.h. -/
inductive UnaryOp where
  | deref | addr | taddr | bitneg | not | neg | plus | inc | dec
deriving Repr, DecidableEq

mutual
/-- `Expr` as built by the parser, without source positions.  An `EXPR_TERNARY` without middle operand is
`elvis`.  `absent` is expression id 0, `zero` the constant put in for a missing start of a range. -/
inductive Expr where
  | absent
  | zero
  | atom (k : Nat)
  | typ (k : Nat)
  | unary (op : UnaryOp) (e : Expr)
  | postUnary (op : UnaryOp) (e : Expr)
  | rethrow (e : Expr)
  | forceUnwrap (e : Expr)
  | binary (op : BinaryOp) (l r : Expr) (grouped : Bool)
  | ternary (c t e : Expr) (grouped : Bool)
  | elvis (c e : Expr) (grouped : Bool)
  | optional (e : Expr)
  | cast (type : Nat) (e : Expr)
  | call (f : Expr) (args : Args)
  | subscript (e : Expr) (fromEnd : Bool) (i : Expr)
  | slice (e : Expr) (isLen startFromEnd : Bool) (start : Expr) (endFromEnd : Bool) (stop : Expr)
  | access (e child : Expr)
deriving Repr

/-- An argument list. -/
inductive Args where
  | nil
  | cons (e : Expr) (rest : Args)
deriving Repr
end

/-- What parentheses do to a tree: nothing but setting the flag `grouped`. -/
def Expr.group : Expr → Expr
  | .binary op l r _ => .binary op l r true
  | .ternary c t e _ => .ternary c t e true
  | .elvis c e _ => .elvis c e true
  | e => e

end C3.Pratt
