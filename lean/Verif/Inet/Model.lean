import Verif.Fmt.Model
/-
Model of internet addresses of the standard library (/repo/lib/std/net/inetaddr.c3).
-/
set_option autoImplicit false

namespace C3.Inet
open C3.Fmt (Byte ch)

/-- `INVALID_IP_STRING`, or an abort of a safe build. -/
inductive Err where
  | invalid
  | panic
deriving DecidableEq, Repr

/-- `InetAddress` (inetaddr.c3 12-45). The union is its sixteen bytes: every member is big endian, so
`ipv6.a` is bytes 0 and 1, `ipv4.a` is byte 12, `ipv6arr[i]` bytes `2i` and `2i + 1`, `ip6.val` all
bytes and `ip4.val` the last four, the high byte first. -/
structure InetAddress where
  is_ipv6 : Bool
  bytes : List Byte
deriving DecidableEq, Repr

/-- A zero initialised address. -/
def zero (v6 : Bool) : InetAddress := ⟨v6, List.replicate 16 0⟩

/-- The field of 16 bits at bytes `2i` and `2i + 1`. -/
def word (b : List Byte) (i : Nat) : BitVec 16 := b.getD (2 * i) 0 ++ b.getD (2 * i + 1) 0

/-- Writing it. -/
def setWord (b : List Byte) (i : Nat) (v : BitVec 16) : List Byte :=
  (b.set (2 * i) (v.extractLsb' 8 8)).set (2 * i + 1) (v.extractLsb' 0 8)

/-- A big endian number. -/
def beNat (b : List Byte) : Nat := b.foldl (fun n x => n * 256 + x.toNat) 0

/-- The field `ip6.val`. -/
def ip6 (a : InetAddress) : Nat := beNat a.bytes

/-- The field `ip4.val`. -/
def ip4 (a : InetAddress) : Nat := beNat (a.bytes.drop 12)

/-- The fields `ipv4.a` to `ipv4.d`. -/
def oct (a : InetAddress) (i : Nat) : Byte := a.bytes.getD (12 + i) 0

/-- Arithmetic of the type `int` wraps around. -/
def wrap (x : Int) : Int := x.bmod (2 ^ 32)

/-! ### Reading -/

/-- The loop of `ipv4_from_str` (inetaddr.c3 128-152) and what follows it (153-155). `element` counts
the dots. -/
def v4Loop : List Byte → Nat → Int → InetAddress → Except Err InetAddress
  | [], element, current, addr =>
    if element ≠ 3 ∨ current < 0 ∨ current > 255 then .error .invalid
    else .ok { addr with bytes := addr.bytes.set 15 (BitVec.ofInt 8 current) }
  | c :: rest, element, current, addr =>
    if c = ch '.' then
      if current < 0 then .error .invalid
      else if current > 255 then .error .invalid
      else if element = 0 then
        v4Loop rest (element + 1) (-1) { addr with bytes := addr.bytes.set 12 (BitVec.ofInt 8 current) }
      else if element = 1 then
        v4Loop rest (element + 1) (-1) { addr with bytes := addr.bytes.set 13 (BitVec.ofInt 8 current) }
      else if element = 2 then
        v4Loop rest (element + 1) (-1) { addr with bytes := addr.bytes.set 14 (BitVec.ofInt 8 current) }
      else .error .invalid
    else if element > 3 ∨ c.toNat < 48 ∨ c.toNat > 57 then .error .invalid
    else if current < 0 then v4Loop rest element (c.toNat - 48) addr
    else v4Loop rest element (wrap (wrap (wrap (current * 10) + c.toNat) - 48)) addr

/-- `ipv4_from_str` (inetaddr.c3 123-156). -/
def ipv4_from_str (s : List Byte) : Except Err InetAddress := v4Loop s 0 (-1) (zero false)

/-- `char.is_xdigit`: `0-9`, `a-f`, `A-F`. -/
def isXdigit (c : Byte) : Bool :=
  (48 ≤ c.toNat && c.toNat ≤ 57) || (97 ≤ c.toNat && c.toNat ≤ 102) || (65 ≤ c.toNat && c.toNat ≤ 70)

/-- `c <= '9' ? c - '0' : (c | 32) - 'a' + 10` (inetaddr.c3 112). -/
def xdigit (c : Byte) : Int :=
  if c.toNat ≤ 57 then c.toNat - 48 else (c ||| 32#8).toNat - 97 + 10

/-- The loop of `ipv6_from_str` (inetaddr.c3 81-113) and what follows it (114-120). `z` is
`zero_segment_len`, `lw` is `last_was_colon`, `fz` is `found_zero`. -/
def v6Loop (z : Int) : List Byte → Nat → Bool → Bool → Int → InetAddress → Except Err InetAddress
  | [], index, _, _, current, addr =>
    if index = 8 ∧ current = -1 then .ok addr
    else if index ≠ 7 ∨ current < 0 ∨ current > 65535 then .error .invalid
    else .ok { addr with bytes := setWord addr.bytes 7 (BitVec.ofInt 16 current) }
  | c :: rest, index, lw, fz, current, addr =>
    if c = ch ':' then
      if !lw then
        if current = -1 then v6Loop z rest index true fz current addr
        else if current < 0 ∨ current > 65535 then .error .invalid
        else if index ≥ 8 then .error .panic
        else v6Loop z rest (index + 1) true fz (-1)
          { addr with bytes := setWord addr.bytes index (BitVec.ofInt 16 current) }
      else if current ≠ -1 then .error .panic
      else if fz then .error .invalid
      else if z < 2 then .error .invalid
      else v6Loop z rest (index + z.toNat) false true current addr
    else if index > 7 ∨ ¬ isXdigit c then .error .invalid
    else
      let current := if current < 0 then 0 else current
      v6Loop z rest index false fz (wrap (wrap (current * 16) + xdigit c)) addr

/-- The number of colons (inetaddr.c3 73), a `uint`. -/
def sections (s : List Byte) : Nat := s.count (ch ':') % 2 ^ 32

/-- `ipv6_from_str` (inetaddr.c3 69-121). The subtraction on line 74 is one of `uint` that is converted
to `int`. -/
def ipv6_from_str (s : List Byte) : Except Err InetAddress :=
  if s.length < 2 then .error .invalid
  else
    let z := if s.head? = some (ch ':') ∨ s.getLast? = some (ch ':') then wrap (9 - sections s)
      else wrap (8 - sections s)
    if z = 7 ∧ s.length = 2 then .ok (zero true)
    else if z > 7 then .error .invalid
    else v6Loop z s 0 false false (-1) (zero true)

/-! ### Printing -/

/-- `"%d.%d.%d.%d"`. -/
def format4 : List Byte :=
  [ch '%', ch 'd', ch '.', ch '%', ch 'd', ch '.', ch '%', ch 'd', ch '.', ch '%', ch 'd']

/-- `"%04x:%04x:%04x:%04x:%04x:%04x:%04x:%04x"`. -/
def format6 : List Byte :=
  let one := [ch '%', ch '0', ch '4', ch 'x']
  let sep := ch ':'
  one ++ sep :: (one ++ sep :: (one ++ sep :: (one ++ sep :: (one ++ sep :: (one ++ sep :: (one ++ sep :: one))))))

/-- `InetAddress.to_format` (inetaddr.c3 48-57), by the model of `printf`. -/
def to_format (a : InetAddress) : Except C3.Fmt.Stop (List Byte × Nat) :=
  if a.is_ipv6 then
    C3.Fmt.vprintf format6 ((List.range 8).map fun i => .int false 16 (word a.bytes i))
  else
    C3.Fmt.vprintf format4 ((List.range 4).map fun i => .int false 8 (oct a i))

/-! ### Classes of addresses -/

/-- inetaddr.c3 158-165. -/
def is_loopback (a : InetAddress) : Bool :=
  if a.is_ipv6 then ip6 a == 1 else oct a 0 == 127#8

/-- inetaddr.c3 167-174. -/
def is_any_local (a : InetAddress) : Bool :=
  if a.is_ipv6 then ip6 a == 0 else ip4 a == 0

/-- inetaddr.c3 176-183. -/
def is_link_local (a : InetAddress) : Bool :=
  if a.is_ipv6 then word a.bytes 0 == 0xfa#16 && (word a.bytes 1 &&& 0xc0#16) == 0x80#16
  else oct a 0 == 169#8 && oct a 1 == 254#8

/-- inetaddr.c3 185-201. -/
def is_site_local (a : InetAddress) : Bool :=
  if a.is_ipv6 then word a.bytes 0 == 0xfe#16 && (word a.bytes 1 &&& 0xc0#16) == 0xc0#16
  else if oct a 0 == 10#8 then true
  else if oct a 0 == 172#8 && (oct a 1 &&& 0xF0#8) == 16#8 then true
  else if oct a 0 == 192#8 && oct a 1 == 168#8 then true
  else false

/-- inetaddr.c3 203-210. -/
def is_multicast (a : InetAddress) : Bool :=
  if a.is_ipv6 then word a.bytes 0 == 0xff#16
  else (BitVec.ofNat 32 (ip4 a) &&& 0xf0000000#32) == 0xe0000000#32

/-- inetaddr.c3 212-220. -/
def is_multicast_global (a : InetAddress) : Bool :=
  if a.is_ipv6 then word a.bytes 0 == 0xff#16 && (word a.bytes 1 &&& 0x0f#16) == 0x0e#16
  else 224 ≤ (oct a 0).toNat && (oct a 0).toNat ≤ 238 && !(oct a 0 == 224#8 && oct a 1 == 0#8 && oct a 2 == 0#8)

/-- inetaddr.c3 222-226. -/
def is_multicast_node_local (a : InetAddress) : Bool :=
  if !a.is_ipv6 then false
  else word a.bytes 0 == 0xff#16 && (word a.bytes 1 &&& 0x0f#16) == 0x01#16

/-- inetaddr.c3 228-235. -/
def is_multicast_site_local (a : InetAddress) : Bool :=
  if a.is_ipv6 then word a.bytes 0 == 0xff#16 && (word a.bytes 1 &&& 0x0f#16) == 0x05#16
  else oct a 0 == 239#8 && oct a 1 == 255#8

/-- inetaddr.c3 237-244. -/
def is_multicast_org_local (a : InetAddress) : Bool :=
  if a.is_ipv6 then word a.bytes 0 == 0xff#16 && (word a.bytes 1 &&& 0x0f#16) == 0x08#16
  else oct a 0 == 239#8 && 192 ≤ (oct a 1).toNat && (oct a 1).toNat ≤ 195

/-- inetaddr.c3 246-253. -/
def is_multicast_link_local (a : InetAddress) : Bool :=
  if a.is_ipv6 then word a.bytes 0 == 0xff#16 && (word a.bytes 1 &&& 0x0f#16) == 0x02#16
  else oct a 0 == 224#8 && oct a 1 == 0#8 && oct a 2 == 0#8

end C3.Inet
