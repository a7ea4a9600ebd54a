/-! # `printf`: `lib/std/io/formatter.c3` and `formatter_private.c3`

`Formatter.vprintf` over integers, strings and byte slices. Left out: floating point (`Stop.unmodelled`),
user types with `to_format`, other argument types, and output functions that fail: `out` takes every
character, so what is printed is a list. What was printed before a fault is dropped. -/

set_option autoImplicit false

namespace C3.Fmt

abbrev Byte := BitVec 8

/-- A character of the source. -/
def ch (c : Char) : Byte := BitVec.ofNat 8 c.toNat

def txt (s : List Char) : List Byte := s.map ch

inductive Fault where
  | invalidFormat
  | badFormat
  | internalBufferExceeded
  | invalidArgument
  | notEnoughArguments
  deriving DecidableEq, Repr

/-- How a call ends without a result. `rounds` says that the loop went on for longer than the format
has characters; it does not happen. -/
inductive Stop where
  | fault (f : Fault)
  | panic
  | unmodelled
  | rounds
  deriving DecidableEq, Repr

/-- An argument: a value of one of the integer types, a `String`, a `char[]`. -/
inductive Arg where
  | int (signed : Bool) (w : Nat) (x : BitVec w)
  | str (s : List Byte)
  | bytes (s : List Byte)
  deriving DecidableEq

/-- `PrintFlags`, formatter.c3 76–85. -/
structure Flags where
  zeropad : Bool := false
  left : Bool := false
  plus : Bool := false
  space : Bool := false
  hash : Bool := false
  uppercase : Bool := false
  precision : Bool := false
  deriving DecidableEq, Repr

/-- The members of `Formatter` a conversion depends on. `width` and `prec` are `uint`. -/
structure Fmt where
  flags : Flags
  width : Nat
  prec : Nat
  deriving DecidableEq, Repr

/-- What a conversion prints, the number it returns, and the fault it leaves in `first_fault`. -/
structure Res where
  out : List Byte
  len : Nat
  fault : Option Fault := none
  deriving DecidableEq, Repr

/-- `PRINTF_NTOA_BUFFER_SIZE`, formatter.c3 5. -/
def bufferSize : Nat := 256

/-- `int_from_any`, formatter_private.c3 38–89, on the modelled arguments. -/
def intFromAny : Arg → Except Fault (Bool × BitVec 128)
  | .int true _ x =>
    if x.toInt < 0 then .ok (true, ~~~ x.signExtend 128 + 1) else .ok (false, x.signExtend 128)
  | .int false _ x => .ok (false, x.zeroExtend 128)
  | _ => .error .badFormat

/-- `Formatter.pad`, formatter_private.c3 176–181. -/
def pad (c : Byte) (width len : Nat) : List Byte := List.replicate (width - len) c

/-- `Formatter.adjust`, formatter_private.c3 32–36. -/
def adjust (f : Fmt) (len : Nat) : List Byte := if f.flags.left then pad (ch ' ') f.width len else []

/-- `digit + (digit < 10 ? '0' : past_10)`. -/
def digitChar (upper : Bool) (d : Nat) : Byte :=
  BitVec.ofNat 8 (if d < 10 then d + 48 else d + (if upper then 55 else 87))

/-- The loop of `Formatter.ntoa`, formatter_private.c3 539–546. `room` is what is left of the buffer. -/
def digits (base : Nat) (upper : Bool) : Nat → Nat → List Byte → Except Fault (List Byte)
  | 0, _, _ => .error .internalBufferExceeded
  | room + 1, value, buf =>
    let buf := buf ++ [digitChar upper (value % base)]
    if value / base = 0 then .ok buf else digits base upper room (value / base) buf

/-- The loops of `Formatter.ntoa_format`, lines 557–566. `room` is what is left of the buffer. -/
def padZeros (target : Nat) : Nat → List Byte → Except Fault (List Byte)
  | 0, buf => if buf.length < target then .error .internalBufferExceeded else .ok buf
  | room + 1, buf => if buf.length < target then padZeros target room (buf ++ [ch '0']) else .ok buf

/-- Lines 554–567. The width may be less by one afterwards; it is not used any more then. -/
def leading (f : Fmt) (buf : List Byte) (negative : Bool) : Except Fault (List Byte) :=
  if f.flags.left then .ok buf
  else do
    let width := if f.width ≠ 0 ∧ f.flags.zeropad ∧ (negative ∨ f.flags.plus ∨ f.flags.space)
      then f.width - 1 else f.width
    let buf ← padZeros f.prec (bufferSize - buf.length) buf
    if f.flags.zeropad then padZeros width (bufferSize - buf.length) buf else .ok buf

/-- Lines 580–590. -/
def baseLetter (base : Nat) (upper : Bool) : Byte :=
  if base = 16 then ch (if upper then 'X' else 'x')
  else if base = 8 then ch (if upper then 'O' else 'o')
  else ch (if upper then 'B' else 'b')

/-- Lines 570–593. -/
def hashed (f : Fmt) (buf : List Byte) (base : Nat) : Except Fault (List Byte) :=
  if f.flags.hash ∧ base ≠ 10 then
    let buf := if ¬ f.flags.precision ∧ buf.length ≠ 0 ∧ buf.length = f.prec ∧ buf.length = f.width
      then buf.take (buf.length - 2) else buf
    if buf.length + 1 ≥ bufferSize then .error .internalBufferExceeded
    else .ok (buf ++ [baseLetter base f.flags.uppercase, ch '0'])
  else .ok buf

/-- Lines 595–606. -/
def signed (f : Fmt) (buf : List Byte) (negative : Bool) : Except Fault (List Byte) :=
  if negative then if buf.length ≥ bufferSize then .error .internalBufferExceeded else .ok (buf ++ [ch '-'])
  else if f.flags.plus then
    if buf.length ≥ bufferSize then .error .internalBufferExceeded else .ok (buf ++ [ch '+'])
  else if f.flags.space then
    if buf.length ≥ bufferSize then .error .internalBufferExceeded else .ok (buf ++ [ch ' '])
  else .ok buf

/-- `Formatter.out_reverse`, lines 652–668. -/
def outReverse (f : Fmt) (buf : List Byte) : List Byte :=
  let pre := if f.flags.zeropad = false ∧ f.flags.left = false then pad (ch ' ') f.width buf.length else []
  pre ++ buf.reverse ++ adjust f (pre.length + buf.length)

/-- `Formatter.ntoa_format`, lines 551–609. The length returned is the one before the padding. -/
def ntoaFormat (f : Fmt) (buf : List Byte) (negative : Bool) (base : Nat) : Except Fault Res := do
  let buf ← leading f buf negative
  let buf ← hashed f buf base
  let buf ← signed f buf negative
  .ok ⟨if buf.length ≠ 0 then outReverse f buf else [], buf.length, none⟩

/-- `Formatter.ntoa`, lines 527–549. -/
def ntoa (f : Fmt) (value : BitVec 128) (negative : Bool) (base : Nat) : Except Fault Res := do
  let f := if value = 0 then { f with flags := { f.flags with hash := false } } else f
  let buf ← if ¬ f.flags.precision ∨ value ≠ 0
    then digits base f.flags.uppercase bufferSize value.toNat [] else .ok []
  ntoaFormat f buf negative base

/-- The loop of `Formatter.out_substr`, lines 165–172; `prec` counts down. The number returned is
the number of bytes. -/
def outSubstr (precision : Bool) : Nat → List Byte → List Byte
  | _, [] => []
  | prec, c :: l =>
    if c &&& 0xC0 ≠ 0x80 ∧ precision then
      match prec with
      | 0 => []
      | prec + 1 => c :: outSubstr precision prec l
    else c :: outSubstr precision prec l

/-- `Formatter.out_substr`, lines 157–174. -/
def sub (f : Fmt) (s : List Byte) : Res :=
  ⟨outSubstr f.flags.precision f.prec s, (outSubstr f.flags.precision f.prec s).length, none⟩

/-- The value of an integer argument. -/
def value : Arg → Int
  | .int true _ x => x.toInt
  | .int false _ x => x.toNat
  | _ => 0

/-- Lines 630–646. -/
def charBytes (c : BitVec 32) : List Byte :=
  if c.toNat < 0x7f then [c.truncate 8]
  else if c.toNat < 0x7ff then [(0xC0#32 ||| c >>> 6).truncate 8, (0x80#32 ||| (c &&& 0x3F#32)).truncate 8]
  else if c.toNat < 0xffff then
    [(0xE0#32 ||| c >>> 12).truncate 8, (0x80#32 ||| (c >>> 6 &&& 0x3F#32)).truncate 8, (0x80#32 ||| (c &&& 0x3F#32)).truncate 8]
  else
    [(0xF0#32 ||| c >>> 18).truncate 8, (0x80#32 ||| (c >>> 12 &&& 0x3F#32)).truncate 8,
      (0x80#32 ||| (c >>> 6 &&& 0x3F#32)).truncate 8, (0x80#32 ||| (c &&& 0x3F#32)).truncate 8]

/-- `Formatter.out_char`, lines 618–649. `types::any_to_int(arg, uint)` is the value, if a `uint` has
it (core/types.c3 21–78). -/
def outChar (f : Fmt) (arg : Arg) : Res :=
  match arg with
  | .int s w x =>
    let v := value (.int s w x)
    let c : BitVec 32 := if 0 ≤ v ∧ v < 2 ^ 32 then BitVec.ofInt 32 v else 0xFFFD
    let a := adjust f 1
    ⟨a ++ charBytes c ++ a, 1 + a.length + a.length, none⟩
  | _ => sub f (txt ['<', 'N', 'O', 'T', ' ', 'C', 'H', 'A', 'R', '>'])

/-- `print_hex_chars`, lines 9–23. -/
def hexChars (upper : Bool) (s : List Byte) : List Byte :=
  s.flatMap fun (c : Byte) => [digitChar upper (c >>> 4).toNat, digitChar upper (c &&& 0xF).toNat]

/-- `Formatter.out_str` of an integer, formatter.c3 156–167: no flags, no width. `prec` stays. -/
def outInt (f : Fmt) (arg : Arg) : Res :=
  let g : Fmt := { f with flags := {}, width := 0 }
  match (do let (neg, v) ← intFromAny arg; ntoa g v neg 10) with
  | .ok r => r
  | .error _ => sub g (txt ['<', 'I', 'N', 'V', 'A', 'L', 'I', 'D', '>'])

/-- The elements of a slice, formatter.c3 300–305. -/
def outElements (f : Fmt) : List Byte → Res
  | [] => ⟨[], 0, none⟩
  | [c] => outInt f (.int false 8 c)
  | c :: l =>
    let r := outInt f (.int false 8 c)
    let q := outElements f l
    ⟨r.out ++ txt [',', ' '] ++ q.out, r.len + 2 + q.len, none⟩

/-- `Formatter.out_str`, formatter.c3 141–316, on the modelled arguments. -/
def outStr (f : Fmt) : Arg → Res
  | .int s w x => outInt f (.int s w x)
  | .str s => sub f s
  | .bytes s =>
    let r := outElements f s
    ⟨ch '[' :: r.out ++ [ch ']'], 1 + r.len + 1, none⟩

/-- The base and the case of a conversion with `ntoa`, formatter.c3 427–445. -/
def intConv (c : Byte) : Option (Nat × Bool) :=
  if c = ch 'd' then some (10, false) else if c = ch 'X' then some (16, true)
  else if c = ch 'x' then some (16, false) else if c = ch 'O' then some (8, true)
  else if c = ch 'o' then some (8, false) else if c = ch 'B' then some (2, true)
  else if c = ch 'b' then some (2, false) else none

/-- Formatter.c3 532–541; `@wrap_bad` is lines 331–348. -/
def convInt (f : Fmt) (base : Nat) (arg : Arg) : Except Fault Res :=
  let fl := f.flags
  let fl := if base ≠ 10 then { fl with plus := false, space := false } else fl
  let fl := if fl.precision then { fl with zeropad := false } else fl
  match intFromAny arg with
  | .error _ => .error .invalidArgument
  | .ok (neg, v) => ntoa { f with flags := fl } v neg base

/-- `case 'h'`, formatter.c3 476–506. -/
def convHex (f : Fmt) (upper : Bool) : Arg → Res
  | .bytes s =>
    let h := hexChars upper s
    if f.flags.left then
      let p := pad (ch ' ') f.width h.length
      ⟨h ++ p, h.length + p.length, none⟩
    else
      let p := if f.width ≠ 0 then pad (ch ' ') f.width (s.length * 2) else []
      ⟨p ++ h, p.length + h.length, none⟩
  | _ => sub f (txt ['<', 'I', 'N', 'V', 'A', 'L', 'I', 'D', '>'])

/-- `case 's'`, formatter.c3 507–524. -/
def convStr (f : Fmt) (arg : Arg) : Res :=
  let r := outStr f arg
  if f.flags.left then
    let p := pad (ch ' ') f.width r.len
    ⟨r.out ++ p, r.len + p.length, none⟩
  else
    let p := if f.width ≠ 0 then pad (ch ' ') f.width r.len else []
    ⟨p ++ r.out, p.length + r.len, none⟩

/-- The `switch` of formatter.c3 425–533. -/
def convert (f : Fmt) (c : Byte) (arg : Arg) : Except Stop Res :=
  match intConv c with
  | some (base, upper) =>
    let fl := { f.flags with uppercase := upper }
    let fl := if base = 10 then { fl with hash := false } else fl
    match convInt { f with flags := fl } base arg with
    | .ok r => .ok r
    | .error e => .error (.fault e)
  | none =>
    if c = ch 'p' then
      match convInt { f with flags := { f.flags with zeropad := true, hash := true } } 16 arg with
      | .ok r => .ok r
      | .error e => .error (.fault e)
    else if c = ch 'c' then .ok (outChar f arg)
    else if c = ch 'H' then .ok (convHex f true arg)
    else if c = ch 'h' then .ok (convHex f false arg)
    else if c = ch 's' then .ok (convStr f arg)
    else if c ∈ txt ['A', 'a', 'F', 'f', 'E', 'e', 'G', 'g'] then .error .unmodelled
    else .ok { sub f (txt ['<', 'B', 'A', 'D', ' ', 'F', 'O', 'R', 'M', 'A', 'T', '>']) with
      fault := some .invalidFormat }

/-- One flag character. -/
def flag (fl : Flags) (c : Byte) : Option Flags :=
  if c = ch '0' then some { fl with zeropad := true } else if c = ch '-' then some { fl with left := true }
  else if c = ch '+' then some { fl with plus := true } else if c = ch ' ' then some { fl with space := true }
  else if c = ch '#' then some { fl with hash := true } else none

/-- The loop over the flags, formatter.c3 381–394. The lists are the format from `i` on. -/
def parseFlags (fl : Flags) : List Byte → Except Stop (Flags × List Byte)
  | [] => .error (.fault .invalidFormat)
  | c :: l =>
    match flag fl c with
    | some fl => parseFlags fl l
    | none => .ok (fl, c :: l)

def isDigit (c : Byte) : Bool := 48 ≤ c.toNat && c.toNat ≤ 57

/-- `simple_atoi`, formatter_private.c3 142–155. -/
def simpleAtoi (i : BitVec 32) : List Byte → BitVec 32 × List Byte
  | [] => (i, [])
  | c :: l => if isDigit c then simpleAtoi (i * 10 + c.zeroExtend 32 - 48) l else (i, c :: l)

/-- `printf_parse_format_field`, formatter_private.c3 671–685. The format is not at its end. -/
def parseField (l : List Byte) (args : List Arg) : Except Stop (Int × List Byte × List Arg) :=
  match l with
  | [] => .error .panic
  | c :: tl =>
    if isDigit c then .ok ((simpleAtoi 0 l).1.toInt, (simpleAtoi 0 l).2, args)
    else if c ≠ ch '*' then .ok (0, l, args)
    else if tl = [] then .error (.fault .invalidFormat)
    else
      match args with
      | .int s w x :: args =>
        let v := value (.int s w x)
        if -2 ^ 31 ≤ v ∧ v < 2 ^ 31 then .ok (v, tl, args) else .error (.fault .invalidFormat)
      | _ => .error (.fault .invalidFormat)

/-- `if (c == '.')`, formatter.c3 407–415: the precision, the conversion, the rest. -/
def parsePrec (f : Fmt) (c : Byte) (tl : List Byte) (args : List Arg) :
    Except Stop (Fmt × Byte × List Byte × List Arg) :=
  if c = ch '.' then
    if tl = [] then .error (.fault .invalidFormat)
    else do
      let (p, l, args) ← parseField tl args
      match l with
      | [] => .error .panic
      | c :: tl =>
        .ok ({ f with flags := { f.flags with precision := true }, prec := p.toNat }, c, tl, args)
  else .ok (f, c, tl, args)

/-- Formatter.c3 380–415: what is between `%` and the conversion. -/
def parseSpec (l : List Byte) (args : List Arg) : Except Stop (Fmt × Byte × List Byte × List Arg) := do
  let (fl, l) ← parseFlags {} l
  let (w, l, args) ← parseField l args
  match l with
  | [] => .error .panic
  | c :: tl =>
    let fl := if w < 0 then { fl with left := true } else fl
    parsePrec ⟨fl, w.natAbs, 0⟩ c tl args

/-- `Formatter.first_err`. -/
def firstErr (first new : Option Fault) : Option Fault := match first with | some f => some f | none => new

/-- The text printed before `r`. -/
def after (out : List Byte) (len : Nat) (r : Except Stop (List Byte × Nat × Option Fault)) :
    Except Stop (List Byte × Nat × Option Fault) :=
  match r with
  | .ok (o, n, f) => .ok (out ++ o, len + n, f)
  | .error e => .error e

/-- The loop of `Formatter.vprintf`, formatter.c3 361–542. -/
def vloop : Nat → Option Fault → List Byte → List Arg → Except Stop (List Byte × Nat × Option Fault)
  | _, first, [], _ => .ok ([], 0, first)
  | 0, _, _ :: _, _ => .error .rounds
  | n + 1, first, c :: tl, args =>
    if c ≠ ch '%' then after [c] 1 (vloop n first tl args)
    else
      match tl with
      | [] => .error (.fault .invalidFormat)
      | c :: tl =>
        if c = ch '%' then after [c] 1 (vloop n first tl args)
        else
          match parseSpec (c :: tl) args with
          | .error e => .error e
          | .ok (f, c, tl, args) =>
            match args with
            | [] =>
              let r := sub f (txt ['<', 'M', 'I', 'S', 'S', 'I', 'N', 'G', '>'])
              after r.out r.len (vloop n (firstErr first (some .notEnoughArguments)) tl [])
            | a :: args =>
              match convert f c a with
              | .error (.fault e) => .error (.fault (first.getD e))
              | .error e => .error e
              | .ok r => after r.out r.len (vloop n (firstErr first r.fault) tl args)

/-- `Formatter.vprintf`, formatter.c3 350–549: what is printed and the length returned. -/
def vprintf (format : List Byte) (args : List Arg) : Except Stop (List Byte × Nat) :=
  match vloop format.length none format args with
  | .ok (_, _, some f) => .error (.fault f)
  | .ok (out, len, none) => .ok (out, len)
  | .error e => .error e

end C3.Fmt
