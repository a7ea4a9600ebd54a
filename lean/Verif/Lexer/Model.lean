/-!
# Model of the lexer: `src/compiler/lexer.c`

A source is the list of its bytes before the terminating NUL.  Reading past the NUL is a fault (`none`), as is a failed
`ASSERT` or `UNREACHABLE`.  `char` is signed: bytes from 128 on are negative.  Messages are left out.
-/

set_option autoImplicit false

namespace C3.Lexer

abbrev Src := List Nat

/-- Reading the source: the NUL is readable, nothing behind it. -/
def rd (src : Src) (i : Nat) : Option Nat :=
  if i < src.length then src[i]? else if i = src.length then some 0 else none

/-- Kinds of names: the arguments `normal`, `const_token`, `type_token` of `scan_ident`. -/
inductive Kind where
  | normal | const | type
deriving Repr, DecidableEq

/-- Tokens.  Tokens with a fixed spelling are identified by it (`token_type_to_string` gives it back); `name` has the
prefix character or 0. -/
inductive Tok where
  | sym (s : String)
  | name (pre : Nat) (kind : Kind) (text : List Nat)
  | keyword (text : List Nat)
  | integer
  | real
  | char (value width : Nat)
  | string (bytes : List Nat)
  | bytes (base64 : Bool) (len : Nat)
  | docsStart (comment len : Nat)
  | docsEol
  | docsEnd
deriving Repr, DecidableEq

/-- The part of `Lexer` that changes; `contracts`: `mode == LEX_CONTRACTS`. -/
structure Lx where
  pos : Nat
  row : Nat
  lineStart : Nat
  start : Nat
  startRow : Nat
  startRowStart : Nat
  contracts : Bool
deriving Repr, DecidableEq

/-! ## Character classes, utils/lib.h 469–697 -/

def ch (c : Char) : Nat := c.toNat

def isDigit (c : Nat) : Bool := ch '0' ≤ c && c ≤ ch '9'
def isLower (c : Nat) : Bool := ch 'a' ≤ c && c ≤ ch 'z'
def isUpper (c : Nat) : Bool := ch 'A' ≤ c && c ≤ ch 'Z'
def isOct (c : Nat) : Bool := ch '0' ≤ c && c ≤ ch '7'
def isBinary (c : Nat) : Bool := c = ch '0' || c = ch '1'
def isHex (c : Nat) : Bool := isDigit c || (ch 'a' ≤ c && c ≤ ch 'f') || (ch 'A' ≤ c && c ≤ ch 'F')
def isLetter (c : Nat) : Bool := isLower c || isUpper c
def isLetter_ (c : Nat) : Bool := isLetter c || c = ch '_'
def isAlphanum_ (c : Nat) : Bool := isLetter c || isDigit c || c = ch '_'
def isBase64 (c : Nat) : Bool := isLetter c || isDigit c || c = ch '+' || c = ch '/'

/-- `char_is_whitespace`, 618–631: `'\r'` is `UNREACHABLE`. -/
def isWhitespace (c : Nat) : Option Bool :=
  if c = ch '\r' then none else some (c = ch ' ' || c = ch '\t' || c = ch '\n')

/-- `char_hex_to_nibble`, 512–540: the index is `(unsigned)c`, so negative characters read far outside the table.  The
result -1 is `some none`. -/
def hexNibble (c : Nat) : Option (Option Nat) :=
  if c ≥ 128 then none
  else if isDigit c then some (some (c - 48))
  else if ch 'A' ≤ c && c ≤ ch 'F' then some (some (c - 55))
  else if ch 'a' ≤ c && c ≤ ch 'f' then some (some (c - 87))
  else some none

/-- `char_is_valid_escape`, 555–592. -/
def validEscape (c : Nat) : Option Nat :=
  if c = ch 'a' then some 7
  else if c = ch 'b' then some 8
  else if c = ch 'e' then some 0x1b
  else if c = ch 'f' then some 12
  else if c = ch 'n' then some 10
  else if c = ch 'r' then some 13
  else if c = ch 't' then some 9
  else if c = ch 'v' then some 11
  else if c = ch 'x' then some (ch 'x')
  else if c = ch 'u' then some (ch 'u')
  else if c = ch 'U' then some (ch 'U')
  else if c = ch '\'' then some (ch '\'')
  else if c = ch '"' then some (ch '"')
  else if c = ch '\\' then some (ch '\\')
  else if c = ch '0' then some 0
  else none

/-! ## Moving, lexer.c 22–77 -/

/-- `begin_new_token`, 22–27. -/
def begin_ (l : Lx) : Lx := { l with start := l.pos, startRow := l.row, startRowStart := l.lineStart }

def peek (src : Src) (l : Lx) : Option Nat := rd src l.pos
def peekNext (src : Src) (l : Lx) : Option Nat := rd src (l.pos + 1)

/-- `next`, 42–49.  The character returned is read separately by the callers that use it. -/
def next (src : Src) (l : Lx) : Option Lx := do
  let c ← peek src l
  if c = ch '\n' then some { l with pos := l.pos + 1, lineStart := l.pos + 1, row := l.row + 1 }
  else some { l with pos := l.pos + 1 }

/-- `backtrack`, 52–59. -/
def backtrack (src : Src) (l : Lx) : Option Lx := do
  if l.pos = 0 then none
  let c ← rd src (l.pos - 1)
  some { l with pos := l.pos - 1, row := if c = ch '\n' then l.row - 1 else l.row }

/-- `skip`, 62–69. -/
def skip (src : Src) (l : Lx) : Nat → Option Lx
  | 0 => some l
  | n + 1 => do skip src (← next src l) n

/-- `match`, 72–77. -/
def accept (src : Src) (l : Lx) (c : Nat) : Option (Lx × Bool) := do
  if (← peek src l) ≠ c then some (l, false) else some (← next src l, true)

/-- `peek(lexer) == c && p(peek_next(lexer))`: the second character is read only if the first fits. -/
def peekPair (src : Src) (l : Lx) (c : Nat) (p : Nat → Bool) : Option Bool := do
  if (← peek src l) = c then do
    let d ← peekNext src l
    some (p d)
  else some false

/-- `while (p(peek(lexer))) next(lexer);` -/
def skipWhile (src : Src) (p : Nat → Bool) (l : Lx) : Option Lx := do
  if p (← peek src l) then skipWhile src p (← next src l) else some l
partial_fixpoint

/-! ## Comments and whitespace -/

/-- `parse_line_comment`, 196–204. -/
def lineComment (src : Src) (l : Lx) : Option Lx := do
  let l ← skipWhile src (fun c => c ≠ 0 && c ≠ ch '\n') l
  if (← peek src l) = ch '\n' then next src l else some l

/-- `parse_multiline_comment`, 209–241; `nesting` is at least 1. -/
def blockComment (src : Src) (nesting : Nat) (l : Lx) : Option Lx := do
  let c ← peek src l
  if c = 0 then some l
  else do
    let closes ← peekPair src l (ch '*') (fun d => d = ch '/')
    let opens ← peekPair src l (ch '/') (fun d => d = ch '*')
    if closes then do
      let l ← skip src l 2
      if nesting - 1 = 0 then some l else blockComment src (nesting - 1) l
    else if opens then do
      let l ← skip src l 2
      blockComment src (nesting + 1) l
    else do
      let l ← next src l
      blockComment src nesting l
partial_fixpoint

/-- `skip_whitespace`, 247–286. -/
def skipWhitespace (src : Src) (l : Lx) : Option Lx := do
  let c ← peek src l
  if c = ch '/' then
    if l.contracts then some l
    else do
      let d ← peekNext src l
      if d = ch '/' then do
        let l ← skip src l 2
        let l ← lineComment src l
        skipWhitespace src l
      else if d = ch '*' then do
        let l ← skip src l 2
        let l ← blockComment src 1 l
        skipWhitespace src l
      else some l
  else if c = ch '\n' && l.contracts then some l
  else if c = ch '\n' || c = ch ' ' || c = ch '\t' || c = 12 then do
    let l ← next src l
    skipWhitespace src l
  else if c = ch '\r' then none
  else some l
partial_fixpoint

/-! ## Names -/

/-- The text of the token so far. -/
def text (src : Src) (l : Lx) : List Nat := (src.drop l.start).take (l.pos - l.start)

/-- The change of `type` by a letter, 311–323. -/
def lowerKind : Option Kind → Kind
  | none => .normal
  | some .const => .type
  | some k => k

def upperKind : Option Kind → Kind
  | none => .const
  | some k => k

/-- The second loop of `scan_ident`, 306–333; `some none` is the rejected digit. -/
def identLoop (src : Src) (kind : Option Kind) (l : Lx) : Option (Lx × Option (Option Kind)) := do
  let c ← peek src l
  if isLower c then do
    let l ← next src l
    identLoop src (some (lowerKind kind)) l
  else if isUpper c then do
    let l ← next src l
    identLoop src (some (upperKind kind)) l
  else if isDigit c && kind.isNone then some (l, none)
  else if isDigit c || c = ch '_' then do
    let l ← next src l
    identLoop src kind l
  else some (l, some kind)
partial_fixpoint

/-- `scan_ident`, 292–355; `keyword` says which names `symtab_add` knows as keywords (their prefix included, see
`Symtab`), the hash is left out.  `some (_, none)` is an error token. -/
def scanIdent (src : Src) (keyword : List Nat → Bool) (pre : Nat) (l : Lx) : Option (Lx × Option Tok) := do
  let l ← skipWhile src (fun c => c = ch '_') l
  let (l, r) ← identLoop src none l
  match r with
  | none => some (l, none)
  | some none => if pre = 0 && l.pos - l.start = 1 then some (l, some (.sym "_")) else some (l, none)
  | some (some kind) =>
    if keyword (text src l) then
      if l.contracts && text src l = "return".toList.map ch then some (l, some (.name 0 .normal (text src l)))
      else some (l, some (.keyword (text src l)))
    else some (l, some (.name pre kind (text src l)))

/-! ## Numbers -/

/-- The end of `scan_number_suffix`, 412–417. -/
def suffixEnd (src : Src) (isFloat : Bool) (c : Nat) (l : Lx) : Option (Lx × Option Bool) :=
  if isAlphanum_ c then do
    let l ← next src l
    some (l, none)
  else some (l, some isFloat)

/-- `scan_number_suffix`, 365–418; the flag is `*is_float`, `none` an error. -/
def numberSuffix (src : Src) (isFloat : Bool) (l : Lx) : Option (Lx × Option Bool) := do
  if l.pos = 0 then none
  else do
    let b ← rd src (l.pos - 1)
    if b = ch '_' then do
      let l ← backtrack src l
      some (l, none)
    else do
      let c ← peek src l
      if !isAlphanum_ c then some (l, some isFloat)
      else if c ||| 32 = ch 'l' then do
        let l ← next src l
        let c ← peek src l
        if isFloat then some (l, none) else suffixEnd src isFloat c l
      else if c ||| 32 = ch 'u' then
        if isFloat then some (l, none)
        else do
          let l ← next src l
          let c ← peek src l
          if c ||| 32 = ch 'l' then do
            let l ← next src l
            let c ← peek src l
            suffixEnd src isFloat c l
          else do
            let l ← skipWhile src isDigit l
            let c ← peek src l
            suffixEnd src isFloat c l
      else if c ||| 32 = ch 'i' then
        if isFloat then some (l, none)
        else do
          let l ← next src l
          let l ← skipWhile src isDigit l
          let c ← peek src l
          suffixEnd src isFloat c l
      else if c ||| 32 = ch 'f' then do
        let l ← next src l
        let l ← skipWhile src isDigit l
        let c ← peek src l
        suffixEnd src true c l
      else suffixEnd src isFloat c l

/-- `while (p(peek(lexer))) NEXT_AND_CHECK_NO_MULTIPLE_(lexer);`, 420–423; `false` is the error. -/
def digitLoop (src : Src) (p : Nat → Bool) (l : Lx) : Option (Lx × Bool) := do
  let c ← peek src l
  if p c then do
    let l ← next src l
    let d ← peek src l
    if d = ch '_' && c = ch '_' then some (l, false) else digitLoop src p l
  else some (l, true)
partial_fixpoint

/-- `scan_oct` and `scan_binary`, 429–473, with the class of digits. -/
def scanBased (src : Src) (p : Nat → Bool) (l : Lx) : Option (Lx × Option Tok) := do
  let c ← peek src l
  if !p c then some (l, none)
  else do
    let l ← next src l
    let (l, ok) ← digitLoop src (fun c => p c || c = ch '_') l
    if !ok then some (l, none)
    else do
      let c ← peek src l
      if isDigit c then some (l, none)
      else do
        let (l, r) ← numberSuffix src false l
        match r with
        | none => some (l, none)
        | some isFloat => some (l, if isFloat then none else some .integer)

/-- `scan_exponent`, 480–507. -/
def scanExponent (src : Src) (l : Lx) : Option (Lx × Bool) := do
  let l ← next src l
  let c ← peek src l
  let l ← next src l
  let (c, l) ← if c = ch '+' || c = ch '-' then do
      let c ← peek src l
      let l ← next src l
      some (c, l)
    else some (c, l)
  if !isDigit c then
    if c = 0 then do
      let l ← backtrack src l
      some (l, false)
    else some (l, false)
  else do
    let l ← skipWhile src isDigit l
    some (l, true)

/-- The end of `scan_hex` and `scan_dec`, 531–538, 570–579: exponent (`e1` or `e2`) and suffix. -/
def numberEnd (src : Src) (e1 e2 : Nat) (isFloat : Bool) (l : Lx) : Option (Lx × Option Tok) := do
  let c ← peek src l
  let (l, isFloat, ok) ← if c = e1 || c = e2 then do
      let (l, ok) ← scanExponent src l
      some (l, true, ok)
    else some (l, isFloat, true)
  if !ok then some (l, none)
  else do
    let (l, r) ← numberSuffix src isFloat l
    match r with
    | none => some (l, none)
    | some isFloat => some (l, some (if isFloat then .real else .integer))

/-- `scan_hex`, 513–539. -/
def scanHex (src : Src) (l : Lx) : Option (Lx × Option Tok) := do
  let c ← peek src l
  if !isHex c then some (l, none)
  else do
    let l ← next src l
    let (l, ok) ← digitLoop src (fun c => isHex c || c = ch '_') l
    if !ok then some (l, none)
    else do
      let dot ← peekPair src l (ch '.') (fun d => d ≠ ch '.')
      if dot then do
        let l ← next src l
        let c ← peek src l
        if c = ch '_' then some (l, none)
        else do
          let l ← if isHex c then next src l else some l
          let (l, ok) ← digitLoop src (fun c => isHex c || c = ch '_') l
          if !ok then some (l, none) else numberEnd src (ch 'p') (ch 'P') true l
      else numberEnd src (ch 'p') (ch 'P') false l

/-- `scan_dec`, 544–580. -/
def scanDec (src : Src) (l : Lx) : Option (Lx × Option Tok) := do
  let c ← peek src l
  if !isDigit c then none
  else do
    let (l, ok) ← digitLoop src (fun c => isDigit c || c = ch '_') l
    if !ok then some (l, none)
    else do
      let dot ← peekPair src l (ch '.') (fun d => d ≠ ch '.')
      if dot then do
        let l ← next src l
        let c ← peek src l
        if c = ch '_' then some (l, none)
        else do
          let (l, ok) ← digitLoop src (fun c => isDigit c || c = ch '_') l
          if !ok then some (l, none) else numberEnd src (ch 'e') (ch 'E') true l
      else numberEnd src (ch 'e') (ch 'E') false l

/-- `scan_digit`, 593–616. -/
def scanDigit (src : Src) (l : Lx) : Option (Lx × Option Tok) := do
  if (← peek src l) = ch '0' then do
    let d ← peekNext src l
    if d = ch 'x' || d = ch 'X' then do scanHex src (← skip src l 2)
    else if d = ch 'o' || d = ch 'O' then do scanBased src isOct (← skip src l 2)
    else if d = ch 'b' || d = ch 'B' then do scanBased src isBinary (← skip src l 2)
    else scanDec src l
  else scanDec src l

/-! ## Characters and strings -/

/-- `scan_hex_literal`, 620–635; the inner `none` is -1. -/
def hexLiteral (src : Src) (hex : Nat) (l : Lx) : Nat → Option (Lx × Option Nat)
  | 0 => some (l, some hex)
  | n + 1 => do
    match ← hexNibble (← peek src l) with
    | none => some (l, none)
    | some i => do hexLiteral src (hex * 16 + i) (← next src l) n

/-- The loop of `scan_utf8`, 671–682, for `n` more bytes. -/
def utf8Rest (src : Src) (result : Nat) (l : Lx) : Nat → Option (Lx × Option Nat)
  | 0 => some (l, some result)
  | n + 1 => do
    let c ← peek src l
    if c = 0 then some (l, some 0xFFFD)
    else do
      let l ← next src l
      if c &&& 0xc0 ≠ 0x80 then some (l, none)
      else utf8Rest src (result * 64 + (c &&& 0x3f)) l n

/-- `scan_utf8`, 637–687. -/
def scanUtf8 (src : Src) (c : Nat) (l : Lx) : Option (Lx × Option Nat) :=
  if c < 0xc0 then some (l, none)
  else if c ≤ 0xdf then utf8Rest src (c &&& 0x1f) l 1
  else if c ≤ 0xef then utf8Rest src (c &&& 0xf) l 2
  else if c ≤ 0xf7 then utf8Rest src (c &&& 7) l 3
  else if c ≤ 0xfb then utf8Rest src (c &&& 3) l 4
  else if c ≤ 0xfd then utf8Rest src (c &&& 1) l 5
  else some (l, none)

/-- The loop of `scan_char`, 711–817.  The 128 bit value is a number here: it takes at most 16 bytes (C03 and C01 are
about the operations used). -/
def charLoop (src : Src) (width value : Nat) (l : Lx) : Option (Lx × Option Tok) := do
  let (l, done) ← accept src l (ch '\'')
  if done then
    if width > 0 && width ≤ 16 then some (l, some (.char value width)) else none
  else do
    let c ← peek src l
    let l ← next src l
    if c = 0 then some (l, none)
    else if width > 15 then some (l, none)
    else if c ≥ 0x80 then
      if width ≠ 0 then some (l, none)
      else do
        let (l, r) ← scanUtf8 src c l
        match r with
        | none => some (l, none)
        | some u => do
          let (l, done) ← accept src l (ch '\'')
          if done then some (l, some (.char u (if u > 0xffff then 4 else 2)))
          else do
            let d ← peek src l
            if d = 0 then charLoop src width value l
            else do
              let l ← backtrack src l
              some (l, none)
    else if c = ch '\n' then some (l, none)
    else if c = ch '\\' then do
      let c ← peek src l
      match validEscape c with
      | none =>
        if c > 32 && c ≤ 127 then do
          let l ← next src { l with start := l.start + 1 }
          some (l, none)
        else some ({ l with start := l.start + 1 }, none)
      | some escape => do
        let l ← next src l
        if escape = ch 'x' then do
          let (l, r) ← hexLiteral src 0 l 2
          match r with
          | none => some (l, none)
          | some hex => charLoop src (width + 1) (value * 256 + hex) l
        else if escape = ch 'u' || escape = ch 'U' then
          if width ≠ 0 then some (l, none)
          else do
            let (l, r) ← hexLiteral src 0 l (if escape = ch 'U' then 8 else 4)
            match r with
            | none => some (begin_ l, none)
            | some hex => do
              let (l, done) ← accept src l (ch '\'')
              if done then some (l, some (.char hex (if escape = ch 'U' then 4 else 2)))
              else do
                let d ← peek src l
                if d = 0 then charLoop src width value l else some (l, none)
        else charLoop src (width + 1) (value * 256 + escape) l
    else charLoop src (width + 1) (value * 256 + c) l
partial_fixpoint

/-- `scan_char`, 699–826. -/
def scanChar (src : Src) (l : Lx) : Option (Lx × Option Tok) := do
  let (l, done) ← accept src l (ch '\'')
  if done then some (l, none) else charLoop src 0 0 l

/-- The bytes written for a code point, 887–908: the first one is cut to 8 bits. -/
def putUtf8 (u : Nat) : List Nat :=
  if u < 0x80 then [u]
  else if u < 0x800 then [0xC0 ||| (u >>> 6), 0x80 ||| (u &&& 0x3F)]
  else if u < 0x10000 then [0xE0 ||| (u >>> 12), 0x80 ||| ((u >>> 6) &&& 0x3F), 0x80 ||| (u &&& 0x3F)]
  else [(0xF0 ||| (u >>> 18)) % 256, 0x80 ||| ((u >>> 12) &&& 0x3F), 0x80 ||| ((u >>> 6) &&& 0x3F), 0x80 ||| (u &&& 0x3F)]

/-- Reads `n` hex digits from `i` on, as the three cases of `append_esc_string_token` do; `some none` is -1.  (The shifts
of the first digit of `\U` are in `unsigned`, so nothing is lost.) -/
def hexAt (src : Src) (hex i : Nat) : Nat → Option (Option Nat)
  | 0 => some (some hex)
  | n + 1 => do
    match ← hexNibble (← rd src i) with
    | none => some none
    | some d => hexAt src (hex * 16 + d) (i + 1) n

/-- `append_esc_string_token`, 828–910: what is written and how much is scanned, `some none` is -1. -/
def appendEsc (src : Src) (i : Nat) : Option (Option (List Nat × Nat)) := do
  match validEscape (← rd src i) with
  | none => some none
  | some e =>
    let n := if e = ch 'x' then 2 else if e = ch 'u' then 4 else if e = ch 'U' then 8 else 0
    if n = 0 then some (some ([e], 1))
    else do
      match ← hexAt src 0 (i + 1) n with
      | none => some none
      | some u => some (some (putUtf8 u, n + 1))

/-- The first loop of `scan_string`, 924–939: `end`. -/
def stringEnd (src : Src) (i : Nat) : Option Nat := do
  let c ← rd src i
  if c = ch '"' then some i
  else if c = ch '\n' || c = 0 then some (i + 1)
  else if c = ch '\\' then do
    let d ← rd src (i + 1)
    if d ≠ ch '\n' && d ≠ 0 then stringEnd src (i + 2) else stringEnd src (i + 1)
  else stringEnd src (i + 1)
partial_fixpoint

/-- `consume_to_end_quote`, 913–920. -/
def toEndQuote (src : Src) (l : Lx) : Option Lx := skipWhile src (fun c => c ≠ 0 && c ≠ ch '"') l

/-- The second loop of `scan_string`, 942–978; `dest` is the text so far.  The inner `none` is an error. -/
def stringLoop (src : Src) (end_ : Nat) (dest : List Nat) (l : Lx) : Option (Lx × Option (List Nat)) := do
  if l.pos < end_ then do
    let c ← peek src l
    let l ← next src l
    if c = 0 then do
      let l ← backtrack src l
      let l ← toEndQuote src l
      some (l, none)
    else if c = ch '\n' then do
      let l ← backtrack src l
      let l ← toEndQuote src l
      some (l, none)
    else if c = ch '\\' then do
      let d ← peek src l
      if d = 0 then do
        let l ← toEndQuote src l
        some (l, none)
      else if d = ch '\n' then do
        let l ← backtrack src l
        let l ← toEndQuote src l
        some (l, none)
      else do
        match ← appendEsc src l.pos with
        | none => do
          let l ← toEndQuote src l
          some (l, none)
        | some (bytes, scanned) => do
          let l ← skip src l scanned
          stringLoop src end_ (dest ++ bytes) l
    else stringLoop src end_ (dest ++ [c]) l
  else some (l, some dest)
partial_fixpoint

/-- `scan_string`, 922–985. -/
def scanString (src : Src) (l : Lx) : Option (Lx × Option Tok) := do
  let end_ ← stringEnd src l.pos
  let (l, r) ← stringLoop src end_ [] l
  match r with
  | none => some (l, none)
  | some dest => some (← next src l, some (.string dest))

/-- The first loop of `scan_raw_string`, 990–1002; `false` is the end of the file. -/
def rawEnd (src : Src) (l : Lx) : Option (Lx × Bool) := do
  let c ← peek src l
  let l ← next src l
  if c = ch '`' then do
    if (← peek src l) ≠ ch '`' then some (l, true)
    else do rawEnd src (← next src l)
  else if c = 0 then some (l, false)
  else rawEnd src l
partial_fixpoint

/-- The second loop, 1008–1016. -/
def rawCopy (src : Src) (end_ : Nat) (dest : List Nat) (i : Nat) : Option (List Nat) := do
  if i < end_ then do
    let c ← rd src i
    if c = ch '`' then do
      let d ← rd src (i + 1)
      rawCopy src end_ (dest ++ [c]) (if d = ch '`' then i + 2 else i + 1)
    else rawCopy src end_ (dest ++ [c]) (i + 1)
  else some dest
partial_fixpoint

/-- `scan_raw_string`, 987–1021. -/
def scanRaw (src : Src) (l : Lx) : Option (Lx × Option Tok) := do
  let (l, ok) ← rawEnd src l
  if !ok then some (l, none)
  else do
    let dest ← rawCopy src (l.pos - 1) [] (l.start + 1)
    some (l, some (.string dest))

/-- The loop of `scan_hex_array`, 1028–1055: the number of digits, `none` an error. -/
def hexArrayLoop (src : Src) (quote len : Nat) (l : Lx) : Option (Lx × Option Nat) := do
  let c ← peek src l
  if c = 0 then some (l, none)
  else if c = quote then some (l, some len)
  else if isHex c then do
    let l ← next src l
    hexArrayLoop src quote (len + 1) l
  else do
    let space ← isWhitespace c
    if space then do
      let l ← next src l
      hexArrayLoop src quote len l
    else some (l, none)
partial_fixpoint

/-- `scan_hex_array`, 1023–1065. -/
def scanHexArray (src : Src) (l : Lx) : Option (Lx × Option Tok) := do
  let quote ← peek src l
  let l ← next src l
  let (l, r) ← hexArrayLoop src quote 0 l
  match r with
  | none => some (l, none)
  | some len => do
    let l ← next src l
    some (l, if len % 2 ≠ 0 then none else some (.bytes false (len / 2)))

/-- The loop of `scan_base64`, 1076–1111: the number of digits and of padding characters. -/
def base64Loop (src : Src) (quote len endLen : Nat) (l : Lx) : Option (Lx × Option (Nat × Nat)) := do
  let c ← peek src l
  if c = 0 then some (l, none)
  else do
    let l ← next src l
    if c = quote then some (l, some (len, endLen))
    else if isBase64 c then
      if endLen ≠ 0 then some (l, none) else base64Loop src quote (len + 1) endLen l
    else if c = ch '=' then
      if endLen > 1 then some (l, none) else base64Loop src quote len (endLen + 1) l
    else do
      let space ← isWhitespace c
      if space then base64Loop src quote len endLen l else some (l, none)
partial_fixpoint

/-- The missing padding, 1112–1133. -/
def base64Pad (len endLen : Nat) : Nat :=
  if endLen = 0 && len % 4 = 2 then 2 else if endLen = 0 && len % 4 = 3 then 1 else endLen

/-- `scan_base64`, 1068–1144. -/
def scanBase64 (src : Src) (l : Lx) : Option (Lx × Option Tok) := do
  let l ← next src l
  let l ← next src l
  let quote ← peek src l
  let l ← next src l
  let (l, r) ← base64Loop src quote 0 0 l
  match r with
  | none => some (l, none)
  | some (len, endLen) =>
    if (len + base64Pad len endLen) % 4 ≠ 0 then some (l, none)
    else some (l, some (.bytes true ((3 * len - base64Pad len endLen) / 4)))

/-! ## Documentation comments -/

/-- The loop of `parse_doc_start`, 1158–1193; `comment` is `comment_start`. -/
def docLoop (src : Src) (may : Bool) (comment : Option Nat) (l : Lx) : Option (Lx × Option Nat) := do
  let c ← peek src l
  if c = 0 then some (l, comment)
  else if c = ch '\n' then do
    let l ← next src l
    docLoop src true comment l
  else if c = ch ' ' || c = ch '\t' then do
    let l ← next src l
    docLoop src may comment l
  else if c = ch '*' then do
    let d ← peekNext src l
    if d = ch '>' then some (l, comment)
    else do
      let l ← next src l
      docLoop src false comment l
  else do
    let contract ← peekPair src l (ch '@') isLower
    if may && contract then some (l, comment)
    else do
      let here := l.pos
      let l ← next src l
      docLoop src false (some (comment.getD here)) l
partial_fixpoint

/-- `while (last > comment_start && char_is_whitespace(*last)) last--;`, 1206. -/
def docLast (src : Src) (comment : Nat) : Nat → Option Nat
  | 0 => some 0
  | last + 1 =>
    if last + 1 > comment then do
      let c ← rd src (last + 1)
      let space ← isWhitespace c
      if space then docLast src comment last else some (last + 1)
    else some (last + 1)

/-- `parse_doc_start`, 1153–1209. -/
def docStart (src : Src) (l : Lx) : Option (Lx × Option Tok) := do
  let (l, comment) ← docLoop src true none l
  let l := { l with contracts := true }
  match comment with
  | none => some (l, some (.docsStart l.start 0))
  | some comment => do
    let last ← docLast src comment (l.pos - 1)
    some (l, some (.docsStart comment (last - comment + 1)))

/-! ## Tokens -/

/-- Tries the continuations of an operator in turn (`match(lexer, c) ? … : …`). -/
def alternatives (src : Src) (l : Lx) (default : String) : List (Char × String) → Option (Lx × Option Tok)
  | [] => some (l, some (.sym default))
  | (c, s) :: alts => do
    let (l, ok) ← accept src l (ch c)
    if ok then some (l, some (.sym s)) else alternatives src l default alts

/-- Operators of up to three characters starting twice with `c`: `c`, `cc`, `cc` `third`, or one of `alts`. -/
def doubled (src : Src) (l : Lx) (c : Char) (one two : String) (third : Char) (three : String)
    (alts : List (Char × String)) : Option (Lx × Option Tok) := do
  let (l, ok) ← accept src l (ch c)
  if ok then alternatives src l two [(third, three)] else alternatives src l one alts

/-- The test for `b64` and a quote, 1354, after the `b`. -/
def base64Start (src : Src) (l : Lx) : Option Bool := do
  let b64 ← peekPair src l (ch '6') (fun d => d = ch '4')
  if b64 then do
    let d ← rd src (l.pos + 2)
    some (d = ch '"' || d = ch '\'' || d = ch '`')
  else some false

/-- `backtrack` and `scan_ident`, 1360–1362. -/
def scanName (src : Src) (keyword : List Nat → Bool) (l : Lx) : Option (Lx × Option Tok) := do
  let l ← backtrack src l
  scanIdent src keyword 0 l

/-- The `switch` of `lexer_scan_token_inner`, 1223–1377, after its first character `c`. -/
def scanTok (src : Src) (keyword : List Nat → Bool) (c : Nat) (l : Lx) : Option (Lx × Option Tok) := do
  if c = ch '\n' then if l.contracts then some (l, some .docsEol) else none
  else if c = ch '@' then do
    let d ← peek src l
    if isLetter_ d then scanIdent src keyword c l else some (l, some (.sym "@"))
  else if c = ch '\'' then scanChar src l
  else if c = ch '`' then scanRaw src l
  else if c = ch '"' then scanString src l
  else if c = ch '#' then scanIdent src keyword c l
  else if c = ch '$' then do
    let (l, ok) ← accept src l (ch '$')
    if ok then do
      let d ← peek src l
      if isLetter d then some (l, some (.sym "$$")) else some (l, none)
    else scanIdent src keyword c l
  else if c = ch ',' then some (l, some (.sym ","))
  else if c = ch ';' then some (l, some (.sym ";"))
  else if c = ch '{' then some (l, some (.sym "{"))
  else if c = ch '}' then some (l, some (.sym "}"))
  else if c = ch '(' then some (l, some (.sym "("))
  else if c = ch ')' then some (l, some (.sym ")"))
  else if c = ch '[' then alternatives src l "[" [('<', "[<")]
  else if c = ch ']' then some (l, some (.sym "]"))
  else if c = ch '.' then doubled src l '.' "." ".." '.' "..." []
  else if c = ch '~' then some (l, some (.sym "~"))
  else if c = ch ':' then alternatives src l ":" [(':', "::")]
  else if c = ch '!' then alternatives src l "!" [('!', "!!"), ('=', "!=")]
  else if c = ch '/' then alternatives src l "/" [('=', "/=")]
  else if c = ch '*' then do
    let (l, ok) ← if l.contracts then accept src l (ch '>') else some (l, false)
    if ok then some ({ l with contracts := false }, some .docsEnd)
    else alternatives src l "*" [('=', "*=")]
  else if c = ch '=' then alternatives src l "=" [('>', "=>"), ('=', "==")]
  else if c = ch '^' then alternatives src l "^" [('=', "^=")]
  else if c = ch '?' then alternatives src l "?" [('?', "??"), (':', "?:")]
  else if c = ch '<' then do
    let (l, ok) ← accept src l (ch '<')
    if ok then alternatives src l "<<" [('=', "<<=")]
    else do
      let (l, ok) ← if l.contracts then some (l, false) else accept src l (ch '*')
      if ok then docStart src l else alternatives src l "<" [('=', "<=")]
  else if c = ch '>' then doubled src l '>' ">" ">>" '=' ">>=" [(']', ">]"), ('=', ">=")]
  else if c = ch '%' then alternatives src l "%" [('=', "%=")]
  else if c = ch '&' then doubled src l '&' "&" "&&" '&' "&&&" [('=', "&=")]
  else if c = ch '|' then doubled src l '|' "|" "||" '|' "|||" [('=', "|=")]
  else if c = ch '+' then doubled src l '+' "+" "++" '+' "+++" [('=', "+=")]
  else if c = ch '-' then alternatives src l "-" [('>', "->"), ('-', "--"), ('=', "-=")]
  else if c = ch 'x' then do
    let d ← peek src l
    if d = ch '"' || d = ch '\'' || d = ch '`' then scanHexArray src l else scanName src keyword l
  else if c = ch 'b' then do
    let quoted ← base64Start src l
    if quoted then scanBase64 src l else scanName src keyword l
  else if isDigit c then do
    let l ← backtrack src l
    scanDigit src l
  else if isLetter_ c then scanName src keyword l
  else some (l, none)

/-- What `lexer_scan_token_inner` leaves: a token, the end of the file, or an error token. -/
inductive Out where
  | tok (t : Tok)
  | eof
  | bad
deriving Repr, DecidableEq

def Out.isTok : Out → Bool
  | .tok _ => true
  | _ => false

/-- `lexer_scan_token_inner`, 1211–1378. -/
def scanToken (src : Src) (keyword : List Nat → Bool) (l : Lx) : Option (Lx × Out) := do
  let l ← skipWhitespace src l
  let l := begin_ l
  let c ← peek src l
  if c = 0 then some (l, .eof)
  else do
    let l ← next src l
    let (l, r) ← scanTok src keyword c l
    match r with
    | none => some (l, .bad)
    | some t => some (l, .tok t)

/-- The location of a token, `set_generic_token`, 86–113. -/
structure Span where
  row : Nat
  col : Nat
  length : Nat
deriving Repr, DecidableEq

/-- `check_col` and `check_row`, lines 7–16. -/
def check255 (n : Nat) : Nat := if n > 255 then 0 else n

def span (l : Lx) : Span :=
  if l.startRow = l.row then
    ⟨l.startRow, check255 (l.start - l.lineStart + 1), check255 (l.pos - l.start)⟩
  else ⟨l.startRow, check255 (l.start - l.startRowStart + 1), 1⟩

/-- The loop that goes through the rest of the text after an error, 1458–1468. -/
def drain (src : Src) (keyword : List Nat → Bool) (ok : Bool) (l : Lx) : Option Lx := do
  let l ← if ok then some l else skipWhile src (fun c => c ≠ 0 && c ≠ ch '\n') l
  let (l, out) ← scanToken src keyword l
  let c ← peek src l
  if c = 0 then some l else drain src keyword out.isTok l
partial_fixpoint

/-- `lexer_next_token`, 1451–1471. -/
def nextToken (src : Src) (keyword : List Nat → Bool) (l : Lx) : Option (Lx × Out × Bool) := do
  let (l, out) ← scanToken src keyword l
  if out.isTok then some (l, out, true)
  else do
    let c ← peek src l
    if c = 0 then some (l, out, true)
    else do
      let l ← drain src keyword false l
      some (l, out, false)

/-- `lexer_init`, 1431–1449, without `check_bidirectional_markers`. -/
def init : Lx := { pos := 0, row := 1, lineStart := 0, start := 0, startRow := 1, startRowStart := 0, contracts := false }

/-- A token with the state it leaves. -/
structure Lexed where
  tok : Tok
  l : Lx
deriving Repr, DecidableEq

/-- All tokens of a file, as `compiler_lex` (compiler.c 98–118) or the parser's `advance` (parser.c 16–30) get them.
`false`: there was an error. -/
def lexAll (src : Src) (keyword : List Nat → Bool) (l : Lx) : Option (List Lexed × Bool) := do
  let (l, out, ok) ← nextToken src keyword l
  if !ok then some ([], false)
  else
    match out with
    | .tok t => do
      let (rest, ok) ← lexAll src keyword l
      some (⟨t, l⟩ :: rest, ok)
    | .bad => do
      let (rest, _) ← lexAll src keyword l
      some (rest, false)
    | .eof => some ([], true)
partial_fixpoint

/-! ## Bidirectional markers -/

/-- The loop of `check_bidirectional_markers`, 1385–1421; the result is `balance`. -/
def bidiLoop (src : Src) (balance : Int) (i : Nat) : Option Int := do
  let c ← rd src i
  if c = 0 then some balance
  else if c ≠ 0xE2 then bidiLoop src balance (i + 1)
  else do
    let d ← rd src (i + 1)
    if d = 0 then some balance
    else do
      let t ← rd src (i + 2)
      if d = 0x80 then
        let balance := if t = 0xAC then balance - 1 else balance
        if t = 0xAC && balance < 0 then some balance
        else
          let balance := if 0xAA ≤ t && t ≤ 0xAE then balance + 1 else balance
          bidiLoop src balance (i + 1)
      else if d = 0x81 then
        if 0xA6 ≤ t && t ≤ 0xA8 then bidiLoop src (balance + 1) (i + 1)
        else if t = 0xA9 then
          if balance - 1 < 0 then some (balance - 1) else bidiLoop src (balance - 1) (i + 1)
        else bidiLoop src balance (i + 1)
      else bidiLoop src balance (i + 1)
partial_fixpoint

/-- `check_bidirectional_markers`, 1380–1428: whether an error is reported. -/
def bidiError (src : Src) : Option Bool := do
  let balance ← bidiLoop src 0 0
  some (balance ≠ 0)

/-! ## Loading a source -/

/-- The loop of `file_clean_buffer`, utils/file_utils.c 242–255; the size is left out of the result. -/
def cleanLoop (size : Nat) (buf : List Nat) (offset i : Nat) : Option (List Nat × Nat) := do
  if i < size - offset then do
    let c ← buf[i + offset]?
    if c = ch '\r' then cleanLoop size buf (offset + 1) i
    else cleanLoop size (if offset ≠ 0 then buf.set i c else buf) offset (i + 1)
  else some (buf, offset)
partial_fixpoint

/-- `file_clean_buffer`, utils/file_utils.c 227–259: the buffer and the new size, or `some none` for `error_exit`. -/
def cleanBuffer (buf : List Nat) (size : Nat) : Option (Option (List Nat × Nat)) := do
  if size = 0 then some (some (buf, 0))
  else do
    let a ← buf[0]?
    let b ← buf[1]?
    if a = 0xFF || b = 0xFE then some none
    else do
      let bom ← if a = 0xEF && b = 0xBB then do
          let c ← buf[2]?
          some (decide (c = 0xBF))
        else some false
      let (buf, offset) ← cleanLoop size buf (if bom then 3 else 0) 0
      if size - offset < buf.length then some (some (buf.set (size - offset) 0, size - offset)) else none

/-- What `file_read_all`, 270–301, leaves for a file: the buffer has room for the NUL. -/
def readAll (file : List Nat) : Option (Option (List Nat × Nat)) := cleanBuffer (file ++ [0]) file.length

end C3.Lexer
