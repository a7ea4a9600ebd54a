import Verif.Codec.Model

/-!
# Model of the byte literals `x"…"` and `b64"…"`

`scan_hex_array` and `scan_base64` of `src/compiler/lexer.c`; `parse_hex`, `parse_base64` and
`parse_bytes_expr` of `src/compiler/parse_expr.c`.

Text is a list of bytes that ends where the buffer of the source file ends; reading past its end is
undefined behaviour, `none`.  Memory of `MALLOC` is a list of cells, `none` in a cell meaning that it
was never written.  `char` is signed, so the code's comparisons with ASCII constants are the same for
`BitVec 8` as an unsigned number except that bytes from 0x80 are never letters.  Lengths are `Nat`.
-/

set_option autoImplicit false

namespace C3.ByteLiteral
open C3.Codec (store)

abbrev Byte := BitVec 8

/-- A token `TOKEN_BYTES`: `data` is the text from the first character behind the opening quote to
the end of the file, `k` the number of characters before the closing quote (`lex_len` minus the
prefix and the two quotes). -/
structure Token where
  is_base64 : Bool
  bytes_len : Nat
  data : List Byte
  k : Nat
deriving DecidableEq, Repr

/-- `hex_conv`, `lib.h:512-535`. -/
def hex_conv (c : Byte) : Nat :=
  if 48 ≤ c.toNat ∧ c.toNat ≤ 57 then c.toNat - 48 + 1
  else if 65 ≤ c.toNat ∧ c.toNat ≤ 70 then c.toNat - 65 + 11
  else if 97 ≤ c.toNat ∧ c.toNat ≤ 102 then c.toNat - 97 + 11
  else 0

/-- `char_is_hex`, `lib.h:602-605`. -/
def char_is_hex (c : Byte) : Bool := hex_conv c ≠ 0

/-- `char_hex_to_nibble`, `lib.h:537-540`: a negative result is `some none`.  A negative `char`
becomes a huge index, outside of the table. -/
def char_hex_to_nibble (c : Byte) : Option (Option Nat) :=
  if c.toNat ≥ 128 then none
  else if hex_conv c = 0 then some none
  else some (some (hex_conv c - 1))

/-- `char_is_base64`, `lib.h:594-600`. -/
def char_is_base64 (c : Byte) : Bool :=
  (65 ≤ c.toNat ∧ c.toNat ≤ 90) ∨ (97 ≤ c.toNat ∧ c.toNat ≤ 122) ∨ (48 ≤ c.toNat ∧ c.toNat ≤ 57) ∨
    c = 43 ∨ c = 47

/-- `char_is_whitespace`, `lib.h:618-631`; a carriage return is `UNREACHABLE`. -/
def char_is_whitespace (c : Byte) : Option Bool :=
  if c = 32 ∨ c = 9 ∨ c = 10 then some true
  else if c = 13 then none
  else some false

/-- The loop of `scan_hex_array`, `lexer.c:1028-1052`: the number of digits, the number of characters
up to the closing quote and the text behind it; an error token is `some none`. -/
def scanHexLoop (start_char : Byte) : List Byte → Nat → Nat → Option (Option (Nat × Nat × List Byte))
  | [], _, _ => none
  | c :: text, len, k =>
    if c = 0 then some none
    else if c = start_char then some (some (len, k, text))
    else if char_is_hex c then scanHexLoop start_char text (len + 1) (k + 1)
    else do
      if ← char_is_whitespace c then scanHexLoop start_char text len (k + 1)
      else some none

/-- `scan_hex_array`, `lexer.c:1023-1065`, on the text that starts with the opening quote. -/
def scan_hex_array : List Byte → Option (Option Token)
  | [] => none
  | start_char :: text => do
    match ← scanHexLoop start_char text 0 0 with
    | none => some none
    | some (len, k, _) =>
      if len % 2 ≠ 0 then some none
      else some (some ⟨false, len / 2, text, k⟩)

/-- The loop of `scan_base64`, `lexer.c:1077-1113`: the number of symbols and of `=`. -/
def scan64Loop (start_char : Byte) : List Byte → Nat → Nat → Nat → Option (Option (Nat × Nat × Nat))
  | [], _, _, _ => none
  | c :: text, len, end_len, k =>
    if c = 0 then some none
    else if c = start_char then some (some (len, end_len, k))
    else if char_is_base64 c then
      if end_len ≠ 0 then some none
      else scan64Loop start_char text (len + 1) end_len (k + 1)
    else if c = 61 then
      if end_len > 1 then some none
      else scan64Loop start_char text len (end_len + 1) (k + 1)
    else do
      if ← char_is_whitespace c then scan64Loop start_char text len end_len (k + 1)
      else some none

/-- `scan_base64`, `lexer.c:1068-1146`, on the text that starts with the opening quote. -/
def scan_base64 : List Byte → Option (Option Token)
  | [] => none
  | start_char :: text => do
    match ← scan64Loop start_char text 0 0 0 with
    | none => some none
    | some (len, end_len, k) =>
      let end_len :=
        if end_len = 0 ∧ len % 4 ≠ 0 then
          if len % 4 = 2 then 2 else if len % 4 = 3 then 1 else end_len
        else end_len
      if (len + end_len) % 4 ≠ 0 then some none
      else some (some ⟨true, (3 * len - end_len) / 4, text, k⟩)

abbrev Cells := List (Option Byte)

/-- `parse_hex`, `parse_expr.c:1619-1630`.  `i` is the index of `data_current`, `k` the number of
characters until `end` (0 if `data` is at or behind it), `mode` the first nibble once it is found.
The two inner loops and the outer one read one character per step. -/
def parse_hex : List Byte → Nat → Option Nat → Cells → Nat → Option Cells
  | [], k, none, buf, _ => if k = 0 then some buf else none
  | c :: data, k, none, buf, i =>
    if k = 0 then some buf
    else do
      match ← char_hex_to_nibble c with
      | none => parse_hex data (k - 1) none buf i
      | some val => parse_hex data (k - 1) (some val) buf i
  | [], _, some _, _, _ => none
  | c :: data, k, some val, buf, i => do
    match ← char_hex_to_nibble c with
    | none => parse_hex data (k - 1) (some val) buf i
    | some val2 =>
      let buf ← store buf i (some (BitVec.ofNat 8 (val * 16 + val2)))
      parse_hex data (k - 1) none buf (i + 1)

/-- `base64_to_sextet`, `parse_expr.c:1635-1644`; -1 is `none`. -/
def base64_to_sextet (c : Byte) : Option Nat :=
  if 65 ≤ c.toNat ∧ c.toNat ≤ 90 then some (c.toNat - 65)
  else if 97 ≤ c.toNat ∧ c.toNat ≤ 122 then some (c.toNat - 97 + 26)
  else if 48 ≤ c.toNat ∧ c.toNat ≤ 57 then some (c.toNat - 48 + 52)
  else if c = 43 then some 62
  else if c = 47 then some 63
  else if c = 61 then some 0
  else none

/-- `if (data_current < result_pointer_end) *(data_current++) = b;` for each `b`. -/
def put (buf : Cells) (i e : Nat) : List Byte → Option (Cells × Nat)
  | [] => some (buf, i)
  | b :: bs =>
    if i < e then do
      let buf ← store buf i (some b)
      put buf (i + 1) e bs
    else put buf i e bs

/-- The three bytes of a group, `parse_expr.c:1663-1666`. -/
def triplet (v1 v2 v3 v4 : Nat) : List Byte :=
  let t := v1 * 2 ^ 18 + v2 * 2 ^ 12 + v3 * 2 ^ 6 + v4
  [BitVec.ofNat 8 (t / 2 ^ 16), BitVec.ofNat 8 (t / 2 ^ 8), BitVec.ofNat 8 t]

/-- `parse_base64`, `parse_expr.c:1652-1669`, like `parse_hex`; `vals` are the sextets of the current
group found so far and `e` the index of `result_pointer_end`. -/
def parse_base64 : List Byte → Nat → List Nat → Cells → Nat → Nat → Option Cells
  | [], k, vals, buf, _, _ => if vals = [] ∧ k = 0 then some buf else none
  | c :: data, k, vals, buf, i, e =>
    if vals = [] ∧ k = 0 then some buf
    else
      match base64_to_sextet c with
      | none => parse_base64 data (k - 1) vals buf i e
      | some v =>
        match vals with
        | [v1, v2, v3] => do
          let (buf, i) ← put buf i e (triplet v1 v2 v3 v)
          parse_base64 data (k - 1) [] buf i e
        | _ => parse_base64 data (k - 1) (vals ++ [v]) buf i e

/-- One round of the loop of `parse_bytes_expr`, `parse_expr.c:1676-1705`: `data` are the first `len`
cells of the memory. -/
def parsePiece (data : Cells) (t : Token) : Option Cells :=
  let len := data.length
  let next_len := t.bytes_len
  if next_len = 0 then some data
  else do
    let new_len := len + next_len
    let new_data := data ++ List.replicate (next_len + 1) none
    let new_data ←
      if t.is_base64 then parse_base64 t.data t.k [] new_data len next_len
      else parse_hex t.data t.k none new_data len
    let new_data ← store new_data new_len (some 0)
    some (new_data.take new_len)

/-- `parse_bytes_expr`, `parse_expr.c:1671-1719`: the cells of the constant; the error for an empty
literal is `some none`. -/
def parse_bytes_expr (tokens : List Token) : Option (Option Cells) := do
  let data ← tokens.foldlM parsePiece []
  if data.length = 0 then some none else some (some data)

end C3.ByteLiteral
