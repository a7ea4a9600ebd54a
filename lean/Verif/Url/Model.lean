import Verif.Hex.Model

/-!
# Model of `lib/std/net/url_encoding.c3`

Strings are lists of bytes.  `none` is an access outside of a string.  The builder (`DString`) is the list of what was
appended to it.  What memory obtained from an allocator holds is a parameter, `fresh n` for `n` bytes.
-/

set_option autoImplicit false

namespace C3.Url
open C3.Codec

/-- `UrlEncodingMode`, url_encoding.c3 8–16. -/
inductive Mode where
  | UNRESERVED | PATH | HOST | USERPASS | QUERY | FRAGMENT
deriving DecidableEq, Repr

/-- The associated value `allowed`, url_encoding.c3 10–15. -/
def Mode.allowed : Mode → List (BitVec 8)
  | .UNRESERVED => ascii ['-', '_', '.', '~']
  | .PATH => ascii ['$', '&', '+', ',', '/', ':', ';', '=', '@']
  | .HOST => ascii ['!', '$', '&', '\'', '(', ')', '*', '+', ',', ';', '=', ':', '[', ']']
  | .USERPASS => ascii [';', ':', '&', '=', '+', '$', ',']
  | .QUERY => []
  | .FRAGMENT => ascii ['$', '&', '+', ',', '/', ':', ';', '=', '?', '@', '!', '(', ')', '*']

/-- `INVALID_HEX`, url_encoding.c3 18, or what `hex::tdecode` returns. -/
inductive Fault where
  | INVALID_HEX
  | hex (f : C3.Codec.Fault)
deriving DecidableEq, Repr

/-- `in_range_m`, ascii.c3 3: the difference of a `char` and a literal is an `int`, so that it does not wrap at 256. -/
def in_range (c : BitVec 8) (start len : Nat) : Bool := decide ((c.setWidth 32 - BitVec.ofNat 32 start).toNat < len)

/-- `is_lower_m`, `is_digit_m`, `is_xdigit_m`, `is_alpha_m`, `is_alnum_m`, ascii.c3 4–14. -/
def is_lower (c : BitVec 8) : Bool := in_range c 0x61 26
def is_digit (c : BitVec 8) : Bool := in_range c 0x30 10
def is_xdigit (c : BitVec 8) : Bool := in_range (c ||| 32#8) 0x61 6 || is_digit c
def is_alpha (c : BitVec 8) : Bool := in_range (c ||| 32#8) 0x61 26
def is_alnum (c : BitVec 8) : Bool := is_alpha c || is_digit c

/-- `String.index_of_char`, string.c3 351–358. -/
def index_of_char : List (BitVec 8) → BitVec 8 → Option Nat
  | [], _ => none
  | c :: s, character => if c = character then some 0 else (index_of_char s character).map (· + 1)

/-- `String.convert_to_upper`, string.c3 620–623. -/
def convert_to_upper (s : List (BitVec 8)) : List (BitVec 8) := s.map fun c => if is_lower c then c - 32#8 else c

/-- `should_encode`, url_encoding.c3 26–39. -/
def should_encode (c : BitVec 8) (mode : Mode) : Bool :=
  if is_alnum c then false
  else if (index_of_char Mode.UNRESERVED.allowed c).isSome then false
  else if (index_of_char mode.allowed c).isSome then false
  else true

/-- The loop of `encode_len`, url_encoding.c3 47–54. -/
def encodeCount (mode : Mode) : List (BitVec 8) → Nat → Nat
  | [], n => n
  | c :: s, n =>
    if !should_encode c mode then encodeCount mode s n
    else if c ≠ 32#8 || mode ≠ .QUERY then encodeCount mode s (n + 1)
    else encodeCount mode s n

/-- `encode_len`, url_encoding.c3 44–56. -/
def encode_len (s : List (BitVec 8)) (mode : Mode) : Nat := s.length + 2 * encodeCount mode s 0

/-- The loop of `encode`, url_encoding.c3 72–90. -/
def encodeLoop (fresh : Nat → List (BitVec 8)) (mode : Mode) : List (BitVec 8) → List (BitVec 8) → Option (List (BitVec 8))
  | [], builder => some builder
  | c :: s, builder =>
    if c = 32#8 && mode = .QUERY then encodeLoop fresh mode s (builder ++ [43#8])
    else if should_encode c mode then
      match Hex.encode [c] (fresh (Hex.encode_len 1)) with
      | none => none
      | some hex => encodeLoop fresh mode s (builder ++ [37#8] ++ convert_to_upper hex)
    else encodeLoop fresh mode s (builder ++ [c])

/-- `encode`, url_encoding.c3 67–93. -/
def encode (fresh : Nat → List (BitVec 8)) (s : List (BitVec 8)) (mode : Mode) : Option (List (BitVec 8)) :=
  encodeLoop fresh mode s []

/-- The loop of `decode_len`, url_encoding.c3 113–121: `n`, the number of `%`. -/
def decodeCount (s : List (BitVec 8)) (i n : Nat) : Option (Except Fault Nat) :=
  if i < s.length then
    match s[i]? with
    | none => none
    | some c =>
      if c ≠ 37#8 then decodeCount s (i + 1) n
      else if i + 2 ≥ s.length then some (.error .INVALID_HEX)
      else
        match s[i + 1]?, s[i + 2]? with
        | some a, some b =>
          if !is_xdigit a || !is_xdigit b then some (.error .INVALID_HEX) else decodeCount s (i + 1) (n + 1)
        | _, _ => none
  else some (.ok n)
termination_by s.length - i

/-- `decode_len`, url_encoding.c3 110–123. -/
def decode_len (s : List (BitVec 8)) : Option (Except Fault Nat) :=
  (decodeCount s 0 0).map fun r => r.map fun n => s.length - 2 * n

/-- The loop of `decode`, url_encoding.c3 139–158. -/
def decodeLoop (fresh : Nat → List (BitVec 8)) (mode : Mode) (s : List (BitVec 8)) (i : Nat) (builder : List (BitVec 8)) :
    Option (Except Fault (List (BitVec 8))) :=
  if i < s.length then
    match s[i]? with
    | none => none
    | some c =>
      if c = 37#8 then
        if i + 3 > s.length then none
        else
          match Hex.decode ((s.drop (i + 1)).take 2) (fresh (Hex.decode_len 2)) with
          | none => none
          | some (.error f) => some (.error (.hex f))
          | some (.ok hex) => decodeLoop fresh mode s (i + 3) (builder ++ hex)
      else if c = 43#8 then decodeLoop fresh mode s (i + 1) (builder ++ [if mode = .QUERY then 32#8 else 43#8])
      else decodeLoop fresh mode s (i + 1) (builder ++ [c])
  else some (.ok builder)
termination_by s.length - i

/-- `decode`, url_encoding.c3 134–161. -/
def decode (fresh : Nat → List (BitVec 8)) (s : List (BitVec 8)) (mode : Mode) :
    Option (Except Fault (List (BitVec 8))) :=
  match decode_len s with
  | none => none
  | some (.error f) => some (.error f)
  | some (.ok _) => decodeLoop fresh mode s 0 []

end C3.Url
