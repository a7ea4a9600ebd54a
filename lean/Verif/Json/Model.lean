/-!
# Model of the JSON reader and writer of project files: `src/utils/json.c`

The text is a list of bytes before its terminating NUL; `parser->current` is what is left of it.  Reading behind the NUL is
a fault (`none`).  Numbers are exact: the rounding of `double` is left out.  `parser->line` and the messages are left out.
-/

set_option autoImplicit false

namespace C3.Json

/-- `JSONObject *`: `null` is the null pointer, which stands for `null` in a file and for no value at all; `error` is
`&error`.  The strings of C end at their first zero byte. -/
inductive Obj where
  | null
  | error
  | bool (b : Bool)
  | str (s : List Nat)
  | num (q : Rat)
  | arr (elements : List Obj)
  | obj (members : List (List Nat × Obj))

/-- `JSONTokenType`, json.h 32–47; strings and numbers with `last_string` and `last_number`. -/
inductive Tok where
  | lbrace | lbracket | comma | colon | rbrace | rbracket
  | str (s : List Nat)
  | num (q : Rat)
  | error | true | false | null | eof
deriving DecidableEq

/-- `JsonParser`: `err`: `error_message` is set.  After an error nothing is read any more and `cur` has no meaning. -/
structure P where
  tok : Tok
  cur : List Nat
  err : Bool
deriving DecidableEq

def ch (c : Char) : Nat := c.toNat

/-- `json_error`, 68–72. -/
def fail : P := ⟨.error, [], true⟩

/-- The loop over a line comment, 26: up to the line break. -/
def skipLine : List Nat → List Nat
  | [] => []
  | c :: s => if c = ch '\n' then c :: s else skipLine s

/-- The loop over a block comment, 33–40: behind the `*/`, or at the end. -/
def skipBlock : List Nat → List Nat
  | [] => []
  | [_] => []
  | c :: d :: s => if c = ch '*' && d = ch '/' then s else skipBlock (d :: s)

theorem skipLine_length (s : List Nat) : (skipLine s).length ≤ s.length := by
  induction s with
  | nil => simp [skipLine]
  | cons c s ih => unfold skipLine; split <;> simp; omega

theorem skipBlock_length (s : List Nat) : (skipBlock s).length ≤ s.length := by
  fun_induction skipBlock s <;> simp_all <;> omega

/-- `json_skip_whitespace`, 13–55. -/
def skipSpace : List Nat → List Nat
  | [] => []
  | c :: s =>
    if c = ch '/' then
      match s with
      | d :: s' =>
        if d = ch '/' then skipSpace (skipLine s')
        else if d = ch '*' then skipSpace (skipBlock s')
        else c :: s
      | [] => c :: s
    else if c = ch '\n' || c = ch '\r' || c = ch ' ' || c = 11 || c = ch '\t' then skipSpace s
    else c :: s
termination_by s => s.length
decreasing_by
  · have := skipLine_length s'; simp; omega
  · have := skipBlock_length s'; simp; omega
  · simp

/-- `json_match`, 57–65. -/
def matchWord (s : List Nat) (word : String) : Bool := (word.toList.map ch).isPrefixOf s

def isDigit (c : Nat) : Bool := ch '0' ≤ c && c ≤ ch '9'
def isHex (c : Nat) : Bool := isDigit c || (ch 'a' ≤ c && c ≤ ch 'f') || (ch 'A' ≤ c && c ≤ ch 'F')

/-- `char_hex_to_nibble`, utils/lib.h 512–540, for hex digits. -/
def nibble (c : Nat) : Nat := if isDigit c then c - 48 else if c ≤ ch 'F' then c - 55 else c - 87

/-- The first loop of `json_parse_number`, 80–84. -/
def digits (value : Rat) : List Nat → Rat × List Nat
  | [] => (value, [])
  | c :: s => if isDigit c then digits (value * 10 + ((c - 48 : Nat) : Rat)) s else (value, c :: s)

/-- The second loop, 90–95. -/
def decimals (value divide : Rat) : List Nat → Rat × List Nat
  | [] => (value, [])
  | c :: s => if isDigit c then decimals (value + ((c - 48 : Nat) : Rat) / divide) (divide * 10) s else (value, c :: s)

/-- `json_parse_number`, 74–100: `negate` is not used. -/
def number (s : List Nat) : P :=
  let s := match s with
    | c :: s' => if c = ch '-' then s' else c :: s'
    | [] => []
  let (value, s) := digits 0 s
  match s with
  | c :: s' =>
    if c = ch '.' then
      let (d, s) := decimals 0 10 s'
      ⟨.num (value + d), s, false⟩
    else ⟨.num value, c :: s', false⟩
  | [] => ⟨.num value, [], false⟩

/-- A C string ends at its first zero byte. -/
def cstr (s : List Nat) : List Nat := s.takeWhile (· ≠ 0)

/-- The escapes of `json_parse_string` of one character, 136–155. -/
def escape (c : Nat) : Option Nat :=
  if c = ch '\\' || c = ch '"' || c = ch '/' then some c
  else if c = ch 'b' then some 8
  else if c = ch 'n' then some 10
  else if c = ch 'f' then some 12
  else if c = ch 'r' then some 13
  else if c = ch 't' then some 9
  else none

/-- The first loop, 106–109: `max_size`. -/
def measure : List Nat → Nat
  | [] => 1
  | c :: s =>
    if c = ch '"' then 1
    else if c = ch '\\' then
      match s with
      | [] => 2
      | _ :: s' => 2 + measure s'
    else 1 + measure s

/-- `str_current++[0] = c` into `room` bytes. -/
def push (room : Nat) (out : List Nat) (c : Nat) : Option (List Nat) :=
  if out.length < room then some (out ++ [c]) else none

/-- The second loop of `json_parse_string`, 114–174, behind the quote, with the string so far.  The sum of the four digits
is stored in a `char`.  The four digits are read before they are tested: `none` if this is behind the NUL, and also if the
string does not fit the memory allocated for it. -/
def string (room : Nat) (out : List Nat) : List Nat → Option P
  | [] => some fail
  | c :: s =>
    if c = ch '"' then do
      let out ← push room out 0
      some ⟨.str (cstr out), s, false⟩
    else if c ≠ ch '\\' then do
      let out ← push room out c
      string room out s
    else
      match s with
      | [] => some fail
      | e :: s =>
        if e = ch 'u' then
          match s with
          | u1 :: u2 :: u3 :: u4 :: s' =>
            if isHex u1 && isHex u2 && isHex u3 && isHex u4 then do
              let out ← push room out ((nibble u1 * 4096 + nibble u2 * 256 + nibble u3 * 16 + nibble u4) % 256)
              string room out s'
            else some fail
          | [_, _, _] => some fail
          | _ => none
        else
          match escape e with
          | some v => do
            let out ← push room out v
            string room out s
          | none => some fail

/-- `json_lexer_advance`, 180–260. -/
def lex (s : List Nat) : Option P :=
  match skipSpace s with
  | [] => some ⟨.eof, [], false⟩
  | c :: s =>
    if c = ch '{' then some ⟨.lbrace, s, false⟩
    else if c = ch '}' then some ⟨.rbrace, s, false⟩
    else if c = ch '[' then some ⟨.lbracket, s, false⟩
    else if c = ch ']' then some ⟨.rbracket, s, false⟩
    else if c = ch ':' then some ⟨.colon, s, false⟩
    else if c = ch ',' then some ⟨.comma, s, false⟩
    else if c = ch '"' then string (measure s + 1) [] s
    else if c = ch '-' || isDigit c then some (number (c :: s))
    else if c = ch 't' then if matchWord (c :: s) "true" then some ⟨.true, s.drop 3, false⟩ else some fail
    else if c = ch 'f' then if matchWord (c :: s) "false" then some ⟨.false, s.drop 4, false⟩ else some fail
    else if c = ch 'n' then if matchWord (c :: s) "null" then some ⟨.null, s.drop 3, false⟩ else some fail
    else some fail

/-- `consume`, 262–270. -/
def consume (p : P) (t : Tok) : Option (P × Bool) :=
  if p.tok = t then do
    let p ← lex p.cur
    some (p, true)
  else some (p, false)

mutual

/-- `json_parse`, 356–406; `UNREACHABLE` for an error token does not come up, since then `err` is set. -/
def parse (p : P) : Option (Obj × P) :=
  if p.err then some (.error, p)
  else
    match p.tok with
    | .eof => some (.null, p)
    | .error => none
    | .lbrace => parseObject p
    | .lbracket => parseArray p
    | .comma => some (.null, fail)
    | .rbrace => some (.null, fail)
    | .rbracket => some (.null, fail)
    | .colon => some (.null, fail)
    | .str s => do
      let p ← lex p.cur
      some (.str s, p)
    | .num q => do
      let p ← lex p.cur
      some (.num q, p)
    | .true => do
      let p ← lex p.cur
      some (.bool true, p)
    | .false => do
      let p ← lex p.cur
      some (.bool false, p)
    | .null => do
      let p ← lex p.cur
      some (.null, p)
partial_fixpoint

/-- `json_parse_array`, 272–295. -/
def parseArray (p : P) : Option (Obj × P) := do
  let (p, ok) ← consume p .lbracket
  if !ok then some (.error, fail)
  else do
    let (p, ok) ← consume p .rbracket
    if ok then some (.arr [], p) else arrayLoop [] p
partial_fixpoint

/-- The loop of `json_parse_array`, 283–293. -/
def arrayLoop (elements : List Obj) (p : P) : Option (Obj × P) := do
  let (v, p) ← parse p
  if p.err then some (.error, p)
  else do
    let (p, ok) ← consume p .rbracket
    if ok then some (.arr (elements ++ [v]), p)
    else do
      let (p, ok) ← consume p .comma
      if !ok then some (.error, fail)
      else do
        let (p, ok) ← consume p .rbracket
        if ok then some (.arr (elements ++ [v]), p) else arrayLoop (elements ++ [v]) p
partial_fixpoint

/-- `json_parse_object`, 297–331. -/
def parseObject (p : P) : Option (Obj × P) := do
  let (p, ok) ← consume p .lbrace
  if !ok then some (.error, fail)
  else do
    let (p, ok) ← consume p .rbrace
    if ok then some (.obj [], p) else objectLoop [] p
partial_fixpoint

/-- The loop of `json_parse_object`, 307–328.  Without a string token the key is not used. -/
def objectLoop (members : List (List Nat × Obj)) (p : P) : Option (Obj × P) := do
  match p.tok with
  | .str key => do
    let p ← lex p.cur
    let (p, ok) ← consume p .colon
    if !ok then some (.error, fail)
    else do
      let (v, p) ← parse p
      if p.err then some (.null, p)
      else do
        let (p, ok) ← consume p .rbrace
        if ok then some (.obj (members ++ [(key, v)]), p)
        else do
          let (p, ok) ← consume p .comma
          if !ok then some (.null, fail)
          else do
            let (p, ok) ← consume p .rbrace
            if ok then some (.obj (members ++ [(key, v)]), p) else objectLoop (members ++ [(key, v)]) p
  | _ => some (.error, fail)
partial_fixpoint

end

/-- `json_init_string` and `json_parse`, as `project_json_load` (build/project.c 567–574) and the manifest reader call
them: the value, or `some none` if `error_message` is set.  What follows the value is not looked at beyond one token. -/
def load (text : List Nat) : Option (Option Obj) := do
  let p ← lex text
  let (v, p) ← parse p
  some (if p.err then none else some v)

/-- `json_map_get`, 346–354; without the key the null pointer. -/
def mapGet (members : List (List Nat × Obj)) (key : List Nat) : Obj :=
  match members with
  | [] => .null
  | (k, v) :: rest => if k = key then v else mapGet rest key

/-- `json_map_set`, 333–344. -/
def mapSet (members : List (List Nat × Obj)) (key : List Nat) (value : Obj) : List (List Nat × Obj) :=
  members.map (fun m => if m.1 = key then (m.1, value) else m) ++ [(key, value)]

def bytes (s : String) : List Nat := s.toList.map ch

/-- `print_indent`, 425–431. -/
def indent (n : Nat) : List Nat := (List.replicate n (bytes "  ")).flatten

def Obj.isObj : Obj → Bool
  | .obj _ => true
  | _ => false

def Obj.isNull : Obj → Bool
  | .null => true
  | _ => false

/-- The search for an object among the elements, 459–467: a null pointer before it is dereferenced. -/
def anyObject : List Obj → Option Bool
  | [] => some false
  | v :: vs => if v.isNull then none else if v.isObj then some true else anyObject vs

mutual

/-- `print_json`, 433–508; `float` is what `fprintf` makes of `%f`. -/
def print (float : Rat → List Nat) (level : Nat) : Obj → Option (List Nat)
  | .null => some []
  | .error => some []
  | .bool b => some (bytes (if b then "true" else "false"))
  | .str s => some (bytes "\"" ++ s ++ bytes "\"")
  | .num q => some (float q)
  | .arr [] => some (bytes " [  ]")
  | .arr (v :: vs) => do
    let any ← anyObject (v :: vs)
    if !any && (v :: vs).length < 5 then do
      let s ← printElems float level (bytes ", ") [] true (v :: vs)
      some (bytes " [ " ++ s ++ bytes " ]")
    else do
      let s ← printElems float (level + 1) (bytes ",\n") (indent (level + 1)) true (v :: vs)
      some (bytes " [ \n" ++ s ++ bytes "\n ]")
  | .obj ms => do
    let s ← printMembers float (level + 1) (indent (level + 1)) true ms
    some (bytes "{\n" ++ s ++ bytes "\n" ++ indent level ++ bytes "}")

/-- The loops over elements, 470–474 and 481–486. -/
def printElems (float : Rat → List Nat) (level : Nat) (sep ind : List Nat) (first : Bool) : List Obj → Option (List Nat)
  | [] => some []
  | v :: vs => do
    let s ← print float level v
    let t ← printElems float level sep ind false vs
    some ((if first then [] else sep) ++ ind ++ s ++ t)

/-- The loop over members, 493–499. -/
def printMembers (float : Rat → List Nat) (level : Nat) (ind : List Nat) (first : Bool) :
    List (List Nat × Obj) → Option (List Nat)
  | [] => some []
  | (k, v) :: ms => do
    let s ← print float level v
    let t ← printMembers float level ind false ms
    some ((if first then [] else bytes ",\n") ++ ind ++ bytes "\"" ++ k ++ bytes "\": " ++ s ++ t)

end

/-- `print_json_to_file`, 510–513. -/
def printFile (float : Rat → List Nat) (v : Obj) : Option (List Nat) := print float 0 v

end C3.Json
