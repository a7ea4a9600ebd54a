import Verif.Utf.Model

/-!
# The JSON parser of the standard library

`lib/std/encoding/json.c3`.  A stream is the list of the bytes left.  A read at the end, or of a byte
0, sets `reached_end` and gives 0 from then on (`read_next`, 210–233): the list is then empty.  A byte
pushed back is put in front again.  Streams do not fail but at the end.  `skip_comments` is false: no
code sets it.  The allocations, the line number, and the depth of the stack are not modelled.
`String.to_double` is a parameter.
-/

set_option autoImplicit false

namespace C3.StdJson
open C3.Utf (Byte Char32)

/-- The faults of json.c3 9 and `io::EOF`; `fuel` is not of the code, see `go`. -/
inductive Err where
  | EOF | UNEXPECTED_CHARACTER | INVALID_ESCAPE_SEQUENCE | DUPLICATE_MEMBERS | INVALID_NUMBER | fuel
deriving DecidableEq, Repr

/-- `Object`, collections/object.c3, as far as the parser makes it.  `empty` is the object of
`new_obj` (79–82), whose type is `void` until something is pushed or set (154–173).  Members are in
the order in which they were set. -/
inductive Val (D : Type) where
  | null
  | bool (b : Bool)
  | num (d : D)
  | str (s : List Byte)
  | empty
  | arr (vs : List (Val D))
  | obj (ms : List (List Byte × Val D))

/-- `JsonTokenType` 40–55, with `last_string` and `last_number`. -/
inductive Tok (D : Type) where
  | lbrace | lbracket | comma | colon | rbrace | rbracket
  | string (s : List Byte)
  | number (d : D)
  | true | false | null

/-- `read_next` 210–233. -/
def read_next : List Byte → Byte × List Byte
  | [] => (0, [])
  | c :: r => if c = 0 then (0, []) else (c, r)

/-- `char.is_digit`. -/
def isDigit (c : Byte) : Bool := 48 ≤ c.toNat && c.toNat ≤ 57

/-- `char.is_xdigit`. -/
def isXDigit (c : Byte) : Bool :=
  (48 ≤ c.toNat && c.toNat ≤ 57) || (65 ≤ c.toNat && c.toNat ≤ 70) || (97 ≤ c.toNat && c.toNat ≤ 102)

/-- `val << 4 + (c > '9' ? (c | 32) - 'a' + 10 : c - '0')`, 376: shifts bind stronger than sums. -/
def addDigit (val : Char32) (c : Byte) : Char32 :=
  val <<< 4 + (if c.toNat > 57 then (c.setWidth 32 ||| 32) - 97 + 10 else c.setWidth 32 - 48)

/-- `DString.append_char32`, core/dstring.c3 222–232: the bytes appended. -/
def append_char32 (c : Char32) : List Byte :=
  match Utf.char32_to_utf8_unsafe c ⟨List.replicate 4 none, 0⟩ with
  | some (o, n) => (o.buf.take n).filterMap id
  | none => []

/-- The loop of the escapes with `u`, 371–377: `i` digits are left. -/
def lexHex : Nat → Char32 → List Byte → Except Err (Char32 × List Byte)
  | 0, val, l => .ok (val, l)
  | i + 1, val, l =>
    let (c, l) := read_next l
    if !isXDigit c then .error .INVALID_ESCAPE_SEQUENCE else lexHex i (addDigit val c) l

/-- The escapes with one character, 356–369. -/
def escaped (c : Byte) : Option Byte :=
  if c = 0x22 ∨ c = 0x5c ∨ c = 0x2f then some c
  else if c = 0x62 then some 8
  else if c = 0x66 then some 12
  else if c = 0x6e then some 10
  else if c = 0x72 then some 13
  else if c = 0x74 then some 9
  else none

/-- `lex_string` 329–386, `s` being `last_string`.  The recursion ends at the end of the stream; the
first argument bounds the rounds by its length (each takes at least one byte). -/
def lexStringLoop : Nat → List Byte → List Byte → Except Err (List Byte × List Byte)
  | 0, _, _ => .error .EOF
  | n + 1, l, s =>
    let (c, l) := read_next l
    if c = 0 then .error .EOF
    else if c.toNat ≤ 31 then .error .UNEXPECTED_CHARACTER
    else if c = 0x22 then .ok (s, l)
    else if c ≠ 0x5c then lexStringLoop n l (s ++ [c])
    else
      let (c, l) := read_next l
      if c = 0 then .error .EOF
      else if c.toNat ≤ 31 then .error .UNEXPECTED_CHARACTER
      else if c = 0x75 then
        match lexHex 4 0 l with
        | .error e => .error e
        | .ok (val, l) => lexStringLoop n l (s ++ append_char32 val)
      else
        match escaped c with
        | none => .error .INVALID_ESCAPE_SEQUENCE
        | some c => lexStringLoop n l (s ++ [c])

/-- `lex_string` 329–386. -/
def lex_string (l : List Byte) : Except Err (List Byte × List Byte) := lexStringLoop (l.length + 1) l []

/-- What is left after a byte was read and pushed back (200–208): nothing if it was 0. -/
def cut : List Byte → List Byte
  | [] => []
  | c :: r => if c = 0 then [] else c :: r

/-- 103–108: the text so far and the bytes left, of which the first is in `c`. -/
def numSign (l : List Byte) : List Byte × List Byte :=
  if l.head? = some 0x2d then ([0x2d], l.tail) else ([], l)

/-- 114–121. -/
def numFrac (l : List Byte) : List Byte × List Byte :=
  if l.head? = some 0x2e then (0x2e :: l.tail.takeWhile isDigit, l.tail.dropWhile isDigit) else ([], l)

/-- 122–139. -/
def numExp : List Byte → Except Err (List Byte × List Byte)
  | [] => .ok ([], [])
  | c :: l =>
    if c ||| 32 = 0x65 then
      let (sg, l) := if l.head? = some 0x2d ∨ l.head? = some 0x2b then (l.take 1, l.tail) else ([], l)
      if (l.takeWhile isDigit).isEmpty then .error .INVALID_NUMBER
      else .ok (c :: sg ++ l.takeWhile isDigit, l.dropWhile isDigit)
    else .ok ([], c :: l)

/-- `lex_number` 98–145; the list begins with the byte `c` it is given. -/
def lex_number {D : Type} (to_double : List Byte → Option D) (l : List Byte) : Except Err (D × List Byte) :=
  let (t1, l) := numSign l
  let t2 := l.takeWhile isDigit
  let l := l.dropWhile isDigit
  let (t3, l) := numFrac l
  match numExp l with
  | .error e => .error e
  | .ok (t4, l) =>
    match to_double (t1 ++ t2 ++ t3 ++ t4) with
    | none => .error .INVALID_NUMBER
    | some d => .ok (d, cut l)

/-- What the loop of `advance` skips, 241–278: the `break` of the case of '/' leaves the `switch` only,
so that the loop goes on. -/
def skipped (c : Byte) : Bool := c = 10 || c = 32 || c = 9 || c = 13 || c = 11 || c = 0x2f

/-- The loop of `advance` 239–279. -/
def skip : List Byte → List Byte
  | [] => []
  | c :: r => if skipped c then skip r else c :: r

/-- `match` 315–322. -/
def matchText : List Byte → List Byte → Except Err (List Byte)
  | [], l => .ok l
  | c :: str, l =>
    let (b, l) := read_next l
    if b ≠ c then .error .UNEXPECTED_CHARACTER else matchText str l

/-- `advance` 235–313. -/
def advance {D : Type} (to_double : List Byte → Option D) (l : List Byte) : Except Err (Tok D × List Byte) :=
  match skip l with
  | [] => .error .EOF
  | c :: r =>
    if c = 0 then .error .EOF
    else if c = 0x7b then .ok (.lbrace, r)
    else if c = 0x7d then .ok (.rbrace, r)
    else if c = 0x5b then .ok (.lbracket, r)
    else if c = 0x5d then .ok (.rbracket, r)
    else if c = 0x3a then .ok (.colon, r)
    else if c = 0x2c then .ok (.comma, r)
    else if c = 0x22 then
      match lex_string r with
      | .error e => .error e
      | .ok (s, r) => .ok (.string s, r)
    else if c = 0x2d ∨ isDigit c then
      match lex_number to_double (c :: r) with
      | .error e => .error e
      | .ok (d, r) => .ok (.number d, r)
    else if c = 0x74 then
      match matchText [0x72, 0x75, 0x65] r with
      | .error e => .error e
      | .ok r => .ok (.true, r)
    else if c = 0x66 then
      match matchText [0x61, 0x6c, 0x73, 0x65] r with
      | .error e => .error e
      | .ok r => .ok (.false, r)
    else if c = 0x6e then
      match matchText [0x75, 0x6c, 0x6c] r with
      | .error e => .error e
      | .ok r => .ok (.null, r)
    else .error .UNEXPECTED_CHARACTER

/-- What `list` is when `vs` have been pushed. -/
def mkArr {D : Type} (vs : List (Val D)) : Val D := if vs.isEmpty then .empty else .arr vs

/-- What `map` is when `ms` have been set. -/
def mkObj {D : Type} (ms : List (List Byte × Val D)) : Val D := if ms.isEmpty then .empty else .obj ms

/-- The functions that call each other. -/
inductive Job (D : Type) where
  /-- `parse_from_token(context, token)` -/
  | from_token (t : Tok D)
  /-- the loop of `parse_map` with the members set so far, at a call of `advance` -/
  | map (ms : List (List Byte × Val D))
  /-- the loop of `parse_array` with the elements pushed so far, at a call of `advance` -/
  | array (vs : List (Val D))

/-- `parse_from_token` 74–92, `parse_map` 147–178, and `parse_array` 180–198.  The first argument
bounds the depth of the recursion, for Lean; it is enough if it is above twice the number of bytes
(`C196_total`). -/
def go {D : Type} (to_double : List Byte → Option D) : Nat → Job D → List Byte → Except Err (Val D × List Byte)
  | 0, _, _ => .error .fuel
  | n + 1, .from_token t, l =>
    match t with
    | .lbrace => go to_double n (.map []) l
    | .lbracket => go to_double n (.array []) l
    | .comma | .rbrace | .rbracket | .colon => .error .UNEXPECTED_CHARACTER
    | .string s => .ok (.str s, l)
    | .number d => .ok (.num d, l)
    | .true => .ok (.bool true, l)
    | .false => .ok (.bool false, l)
    | .null => .ok (.null, l)
  | n + 1, .map ms, l =>
    match advance to_double l with
    | .error e => .error e
    | .ok (.rbrace, l) => .ok (mkObj ms, l)
    | .ok (.string k, l) =>
      if ms.any (fun m => m.1 == k) then .error .DUPLICATE_MEMBERS
      else
        match advance to_double l with
        | .error e => .error e
        | .ok (.colon, l) =>
          match advance to_double l with
          | .error e => .error e
          | .ok (t, l) =>
            match go to_double n (.from_token t) l with
            | .error e => .error e
            | .ok (v, l) =>
              match advance to_double l with
              | .error e => .error e
              | .ok (.comma, l) => go to_double n (.map (ms ++ [(k, v)])) l
              | .ok (.rbrace, l) => .ok (mkObj (ms ++ [(k, v)]), l)
              | .ok _ => .error .UNEXPECTED_CHARACTER
        | .ok _ => .error .UNEXPECTED_CHARACTER
    | .ok _ => .error .UNEXPECTED_CHARACTER
  | n + 1, .array vs, l =>
    match advance to_double l with
    | .error e => .error e
    | .ok (.rbracket, l) => .ok (mkArr vs, l)
    | .ok (t, l) =>
      match go to_double n (.from_token t) l with
      | .error e => .error e
      | .ok (v, l) =>
        match advance to_double l with
        | .error e => .error e
        | .ok (.comma, l) => go to_double n (.array (vs ++ [v])) l
        | .ok (.rbracket, l) => .ok (mkArr (vs ++ [v]), l)
        | .ok _ => .error .UNEXPECTED_CHARACTER

/-- `parse_any` 93–96. -/
def parse_any {D : Type} (to_double : List Byte → Option D) (n : Nat) (l : List Byte) : Except Err (Val D × List Byte) :=
  match advance to_double l with
  | .error e => .error e
  | .ok (t, l) => go to_double n (.from_token t) l

/-- `parse` 21–31, of a stream with these bytes; also `parse_string` 11–14. -/
def parse {D : Type} (to_double : List Byte → Option D) (s : List Byte) : Except Err (Val D) :=
  match parse_any to_double (2 * s.length + 2) s with
  | .error e => .error e
  | .ok (v, _) => .ok v

end C3.StdJson
