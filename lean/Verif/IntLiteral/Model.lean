import Verif.Bigint.Model

/-!
# Model of integer literals: `parse_integer` (`src/compiler/parse_expr.c`)

A token is the list of its characters (the interned token text is NUL-terminated, so reading one
character past its end yields NUL; the model's list functions return NUL there as well).
-/

namespace C3.IntLiteral
open C3.Bigint

/-- `c | 32` on a character code. -/
def low (c : Char) : Nat := c.toNat ||| 32

/-- `read_num_type`, `parse_expr.c:1356-1368`; the argument is the text after the suffix letter.
The C `int` never overflows: it returns as soon as it exceeds 1024. -/
def read_num_type (rest : List Char) : Int :=
  if rest.headD (Char.ofNat 0) = '0' then -1 else go 0 rest
where
  go (i : Int) : List Char → Int
    | [] => i
    | c :: cs =>
      let i := i * 10
      if i > 1024 then i else go (i + ((c.toNat : Int) - 48)) cs

/-- `read_int_suffix`, `parse_expr.c:1370-1385`: `c` is the suffix letter, `rest` what follows. -/
def read_int_suffix (c : Char) (rest : List Char) : Int :=
  if low c = 'i'.toNat then read_num_type rest
  else if low c = 'l'.toNat then (if rest = [] then 64 else -1)
  else if low c = 'u'.toNat then
    match rest with
    | [d] => if low d = 'l'.toNat then 64 else read_num_type rest
    | _ => read_num_type rest
  else -1

/-- The local variables of `parse_integer` while it scans the digits (`parse_expr.c:1394-1401`).
`count` stands for `hex_characters`, `oct_characters` or `binary_characters`, only one of which is
ever changed. -/
structure Scan where
  i : Int128 := ⟨0, 0⟩
  is_unsigned : Bool
  type_bits : Int := 0
  count : Nat := 0
  wrapped : Bool := false
deriving DecidableEq, Repr

/-- `char_hex_to_nibble`, `src/utils/lib.h:512-540`, for ASCII characters. -/
def char_hex_to_nibble (c : Char) : Int :=
  let n := c.toNat
  if 48 ≤ n ∧ n ≤ 57 then n - 48
  else if 65 ≤ n ∧ n ≤ 70 then n - 55
  else if 97 ≤ n ∧ n ≤ 102 then n - 87
  else -1

/-- `ch - '0'`. -/
def char_minus_zero (c : Char) : Int := (c.toNat : Int) - 48

/-- The `'x'`, `'o'` and `'b'` loops, `parse_expr.c:1404-1483`, which differ only in the shift
amount `sh`, in `max = UINT64_MAX >> sh` and in the digit conversion. -/
def scanPow (sh : Nat) (conv : Char → Int) (s : Scan) : List Char → Option Scan
  | [] => some s
  | ch :: rest =>
    if low ch = 'u'.toNat then
      some { s with type_bits := read_int_suffix ch rest, is_unsigned := true }
    else if low ch = 'l'.toNat ∨ low ch = 'i'.toNat then
      some { s with type_bits := read_int_suffix ch rest, is_unsigned := false }
    else if low ch = '_'.toNat ||| 32 then scanPow sh conv s rest
    else do
      let max := UINT64_MAX >>> sh
      let wrapped := if s.i.high > max then true else s.wrapped
      let i ← i128_shl64 s.i (BitVec.ofNat 64 sh)
      let i := i128_add64 i (BitVec.ofInt 64 (conv ch))
      scanPow sh conv { s with i, wrapped, count := s.count + 1 } rest

/-- The decimal loop, `parse_expr.c:1484-1510`. -/
def scanDec (s : Scan) : List Char → Scan
  | [] => s
  | ch :: rest =>
    if low ch = 'u'.toNat then
      { s with type_bits := read_int_suffix ch rest, is_unsigned := true }
    else if low ch = 'l'.toNat ∨ low ch = 'i'.toNat then
      { s with type_bits := read_int_suffix ch rest, is_unsigned := false }
    else if low ch = '_'.toNat ||| 32 then scanDec s rest
    else
      let old_top := s.i.high
      let i := i128_mult64 s.i 10
      let i := i128_add64 i (BitVec.ofInt 64 (char_minus_zero ch))
      let wrapped := if !s.wrapped && old_top > i.high then true else s.wrapped
      scanDec { s with i, wrapped } rest

/-- `is_power_of_two`, `src/utils/lib.h:436-439`. -/
def is_power_of_two (x : BitVec 64) : Bool := x != 0 && (x &&& (x - 1)) == 0

/-- `next_highest_power_of_2`, `src/utils/lib.h:457-467`. -/
def next_highest_power_of_2 (v : BitVec 32) : BitVec 32 :=
  let v := v - 1
  let v := v ||| (v >>> 1)
  let v := v ||| (v >>> 2)
  let v := v ||| (v >>> 4)
  let v := v ||| (v >>> 8)
  let v := v ||| (v >>> 16)
  v + 1

/-- `type_int_signed_by_bitsize`, `type_int_unsigned_by_bitsize`, `src/compiler/types.c:77-100`;
`none` is `FATAL_ERROR("Illegal bitsize")`. -/
def type_int_by_bitsize (is_unsigned : Bool) : Int → Option TypeKind
  | 8 => some (if is_unsigned then .U8 else .I8)
  | 16 => some (if is_unsigned then .U16 else .I16)
  | 32 => some (if is_unsigned then .U32 else .I32)
  | 64 => some (if is_unsigned then .U64 else .I64)
  | 128 => some (if is_unsigned then .U128 else .I128)
  | _ => none

/-- What the parser does with the token: a diagnostic, an internal compiler error, a constant. -/
inductive Result where
  | error
  | fatal
  | const (c : CInt)
deriving DecidableEq, Repr

/-- The search for the type of an unsuffixed decimal literal, `parse_expr.c:1569-1582`, over the
kinds that remain to be tried. -/
def searchType (i : Int128) (min_bits : Nat) : List TypeKind → Option TypeKind
  | [] => none
  | k :: ks =>
    if type_kind_bitsize k < min_bits then searchType i min_bits ks
    else if int_fits ⟨i, k⟩ k then some k
    else searchType i min_bits ks

/-- The part of `parse_integer` after the label `EXIT`, `parse_expr.c:1511-1605`.  `bits` is the
number of bits per digit of the base (4, 3, 1; 0 for decimal), `cint` the width of a C `int` on the
target. -/
def finish (cint : Nat) (bits : Nat) (s : Scan) : Result :=
  if s.wrapped then .error
  else if s.type_bits ≠ 0 ∧ (s.type_bits < 0 ∨
      is_power_of_two (BitVec.ofInt 64 s.type_bits) = false ∨ s.type_bits > 128) then .error
  else if s.type_bits = 0 ∧ bits * s.count > 128 then .error
  else
    let type_bits : Int :=
      if s.type_bits ≠ 0 then s.type_bits
      else
        let tb : Int := (bits * s.count : Nat)
        let tb := if tb ≠ 0 ∧ tb < 8 then 8 else tb
        if tb ≠ 0 ∧ is_power_of_two (BitVec.ofInt 64 tb) = false then
          (next_highest_power_of_2 (BitVec.ofInt 32 tb)).toNat
        else tb
    let type_base : Option TypeKind :=
      if type_bits ≠ 0 then type_int_by_bitsize s.is_unsigned type_bits
      else
        match searchType s.i cint (if s.is_unsigned then [.U8, .U16, .U32, .U64, .U128]
            else [.I8, .I16, .I32, .I64, .I128]) with
        | some k => some k
        | none => type_int_by_bitsize s.is_unsigned cint
    match type_base with
    | none => .fatal
    | some k => if int_fits ⟨s.i, k⟩ k then .const ⟨s.i, k⟩ else .error

/-- `parse_integer`, `parse_expr.c:1387-1605`. -/
def parse_integer (cint : Nat) (str : List Char) : Option Result :=
  let sel : Nat := if str.length > 2 then low (str.getD 1 (Char.ofNat 0)) else '0'.toNat
  if sel = 'x'.toNat then
    (scanPow 4 char_hex_to_nibble { is_unsigned := true } (str.drop 2)).map (finish cint 4)
  else if sel = 'o'.toNat then
    (scanPow 3 char_minus_zero { is_unsigned := true } (str.drop 2)).map (finish cint 3)
  else if sel = 'b'.toNat then
    (scanPow 1 char_minus_zero { is_unsigned := true } (str.drop 2)).map (finish cint 1)
  else some (finish cint 0 (scanDec { is_unsigned := false } str))

end C3.IntLiteral
