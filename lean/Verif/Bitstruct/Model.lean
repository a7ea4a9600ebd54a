/-!
# Model of bitstructs: members read and written by the generated code, `src/compiler/llvm_codegen_expr.c`

The functions that emit instructions are modelled by what the instructions compute.  An object is the list of its bytes in the order of
their addresses; an LLVM integer of `8 * n` bits is a `BitVec (8 * n)`.  `none`: a violated `ASSERT` in the compiler, an access outside
of the object, or an instruction without a defined result.
-/

set_option autoImplicit false

namespace C3.Bitstruct

abbrev Byte := BitVec 8

abbrev Mem := List Byte

/-- A member: `var.start_bit`, `var.end_bit`, and its type after `type_lowering`: the size in bytes, `type_is_signed`, and whether it is
`bool`, which is one byte and not signed. -/
structure Member where
  start : Nat
  stop : Nat
  bytes : Nat
  signed : Bool
  bool : Bool
deriving DecidableEq, Repr

/-- A value of the member. -/
abbrev Member.Value (m : Member) := BitVec (8 * m.bytes)

/-- The attributes `@bigendian` (`some true`) and `@littleendian` (`some false`); both together are an error, sema_decls.c 3323–3338. -/
abbrev Order := Option Bool

/-- `bitstruct_requires_bitswap`, 1831–1838, with `compiler.platform.big_endian`. -/
def bitstruct_requires_bitswap (platform : Bool) : Order → Bool
  | some true => !platform
  | some false => platform
  | none => false

/-! ## Instructions -/

/-- Byte `i` of an integer, from the least significant one. -/
def byte {w : Nat} (x : BitVec w) (i : Nat) : Byte := x.extractLsb' (8 * i) 8

/-- The integer with the bytes `f 0`, `f 1`, …, from the least significant one. -/
def ofBytes (f : Nat → Byte) : (n : Nat) → BitVec (8 * n)
  | 0 => 0#0
  | n + 1 => (f n ++ ofBytes f n).cast (by omega)

/-- A load of an integer of `n` bytes. -/
def load (platform : Bool) (n : Nat) (mem : Mem) : Option (BitVec (8 * n)) :=
  if mem.length = n then some (ofBytes (fun i => mem.getD (if platform then n - 1 - i else i) 0) n) else none

/-- A store of an integer of `n` bytes. -/
def store (platform : Bool) (n : Nat) (x : BitVec (8 * n)) : Mem :=
  (List.range n).map fun i => byte x (if platform then n - 1 - i else i)

/-- `llvm_emit_bswap`, 867–876, and `LLVMConstBswap`: not for bytes. -/
def llvm_emit_bswap {n : Nat} (x : BitVec (8 * n)) : Option (BitVec (8 * n)) :=
  if n < 2 then none else some (ofBytes (fun i => byte x (n - 1 - i)) n)

/-- `if (bswap) x = llvm_emit_bswap(c, x);` -/
def swapIf (swap : Bool) {n : Nat} (x : BitVec (8 * n)) : Option (BitVec (8 * n)) := if swap then llvm_emit_bswap x else some x

/-- `llvm_emit_shl_fixed`, `llvm_emit_lshr_fixed`, llvm_codegen_instr.c 22–30 and 42–50: zero if all bits are shifted out, as `<<<` and
`>>>` are. -/
def llvm_emit_shl_fixed {w : Nat} (x : BitVec w) (s : Nat) : BitVec w := x <<< s
def llvm_emit_lshr_fixed {w : Nat} (x : BitVec w) (s : Nat) : BitVec w := x >>> s

/-- `ashr` by a constant: no defined result if all bits are shifted out, also in `llvm_emit_ashr_fixed`, llvm_codegen_instr.c 32–40. -/
def llvm_emit_ashr {w : Nat} (x : BitVec w) (s : Nat) : Option (BitVec w) := if s = 0 then some x else if s ≥ w then none else some (x.sshiftRight s)

/-- `llvm_const_low_bitmask`, 295–300, for a byte. -/
def llvm_const_low_bitmask (low : Int) : Byte :=
  if low < 1 then 0 else if 8 ≤ low then BitVec.allOnes 8 else llvm_emit_lshr_fixed (BitVec.allOnes 8) (8 - low).toNat

/-- `llvm_const_high_bitmask`, 302–307, for a byte. -/
def llvm_const_high_bitmask (high : Int) : Byte :=
  if high < 1 then 0 else if 8 ≤ high then BitVec.allOnes 8 else ~~~ llvm_emit_lshr_fixed (BitVec.allOnes 8) high.toNat

/-- `llvm_mask_low_bits`, 318–326. -/
def llvm_mask_low_bits {w : Nat} (x : BitVec w) (low : Nat) : BitVec w :=
  if low < 1 then 0#w else if w ≤ low then x else llvm_emit_lshr_fixed (BitVec.allOnes w) (w - low) &&& x

/-! ## Integers -/

/-- `llvm_extract_bitvalue`, 978–1021, of the integer loaded. -/
def extractInt (swap : Bool) {n : Nat} (value : BitVec (8 * n)) (m : Member) : Option m.Value := do
  let value ← swapIf swap value
  -- shifts by negative distances are asserted against
  if m.stop ≥ 8 * n then none
  else if m.signed then
    let left := 8 * n - m.stop - 1
    let value := llvm_emit_shl_fixed value left
    let value ← llvm_emit_ashr value (left + m.start)
    some (value.signExtend (8 * m.bytes))
  else
    let value := llvm_emit_lshr_fixed value m.start
    let value := llvm_mask_low_bits value (m.stop - m.start + 1)
    some (value.setWidth (8 * m.bytes))

/-- `llvm_emit_bitstruct_value_update`, 1128–1153. -/
def llvm_emit_bitstruct_value_update {n : Nat} (current : BitVec (8 * n)) (m : Member) (val : m.Value) : Option (BitVec (8 * n)) :=
  if m.stop ≥ 8 * n then none
  else
    let mask := BitVec.allOnes (8 * n)
    let left := 8 * n - m.stop - 1
    let mask := llvm_emit_shl_fixed mask left
    let mask := llvm_emit_lshr_fixed mask (left + m.start)
    let mask := llvm_emit_shl_fixed mask m.start
    let val := val.setWidth (8 * n)
    let val := llvm_emit_shl_fixed val m.start
    let val := val &&& mask
    let current := current &&& ~~~ mask
    some (current ||| val)

/-- An assignment to a member, from 1186 on of `llvm_emit_bitassign_expr`. -/
def assignInt (platform swap : Bool) (n : Nat) (mem : Mem) (m : Member) (val : m.Value) : Option Mem := do
  let current ← load platform n mem
  let current ← swapIf swap current
  let current ← llvm_emit_bitstruct_value_update current m val
  let current ← swapIf swap current
  some (store platform n current)

/-- A member is read: `llvm_emit_bitaccess`, 1196–1206. -/
def readInt (platform swap : Bool) (n : Nat) (mem : Mem) (m : Member) : Option m.Value := do
  let value ← load platform n mem
  extractInt swap value m

/-- Members with their values. -/
abbrev Entry := (m : Member) × m.Value

/-- The walks of `llvm_emit_initialize_reference_bitstruct`, 1560–1567, and `llvm_emit_initialize_reference_designated_bitstruct`,
1786–1795: from a list of values, and from designators. -/
def updateAll {n : Nat} : List Entry → BitVec (8 * n) → Option (BitVec (8 * n))
  | [], data => some data
  | e :: es, data => (llvm_emit_bitstruct_value_update data e.1 e.2).bind (updateAll es)

/-- The rest of them, 1548–1573 and 1773–1801. -/
def initInt (platform swap : Bool) (n : Nat) (es : List Entry) : Option Mem := do
  let data ← updateAll es (0#(8 * n))
  let data ← swapIf swap data
  some (store platform n data)

/-- A member of a bitstruct that is itself a member: 1711–1729 of `llvm_emit_initialize_designated_element`. -/
def initNested (platform : Bool) (n : Nat) (mem : Mem) (m : Member) (val : m.Value) : Option Mem := do
  let current ← load platform n mem
  let current ← llvm_emit_bitstruct_value_update current m val
  some (store platform n current)

/-- One step of the loop in `llvm_emit_const_bitstruct`, 1935–1962.  A member without a value is zero. -/
def constStep {n : Nat} (result : BitVec (8 * n)) (m : Member) (val : m.Value) : Option (BitVec (8 * n)) :=
  let bit_size := m.stop - m.start + 1
  if ¬ bit_size ≤ 128 then none
  else
    let value := val.setWidth (8 * n)
    let value := if bit_size < 8 * n then llvm_emit_lshr_fixed (BitVec.allOnes (8 * n)) (8 * n - bit_size) &&& value else value
    let value := if m.start > 0 then llvm_emit_shl_fixed value m.start else value
    some (value ||| result)

def constAll {n : Nat} : List Entry → BitVec (8 * n) → Option (BitVec (8 * n))
  | [], result => some result
  | e :: es, result => (constStep result e.1 e.2).bind (constAll es)

/-- `llvm_emit_const_bitstruct`, 1916–1968, and the bytes of the constant. -/
def constInt (platform swap : Bool) (n : Nat) (es : List Entry) : Option Mem := do
  let result ← constAll es (0#(8 * n))
  let result ← swapIf swap result
  some (store platform n result)

/-- `++` before a member (`pre`) and after it, `llvm_emit_pre_post_inc_dec_bitstruct`, 2177–2207; `llvm_emit_add_int` wraps (it may also
check for overflow of the type).  The value of the expression and the object. -/
def incInt (platform swap : Bool) (n : Nat) (mem : Mem) (m : Member) (diff : m.Value) (pre : Bool) : Option (m.Value × Mem) := do
  let start ← readInt platform swap n mem m
  let result := start + diff
  let mem ← assignInt platform swap n mem m result
  some (if pre then result else start, mem)

/-! ## Arrays

`size` is the size of the elements.  The bytes are addressed as elements of the array: `llvm_emit_array_gep_raw` with the type of the
array, 4850–4869. -/

def loadByte (size : Nat) (mem : Mem) (i : Nat) : Option Byte := mem[i * size]?

def storeByte (size : Nat) (mem : Mem) (i : Nat) (b : Byte) : Option Mem := if i * size < mem.length then some (mem.set (i * size) b) else none

/-- `is_power_of_two` -/
def is_power_of_two (x : Nat) : Bool := x ≠ 0 && x &&& (x - 1) == 0

/-- `llvm_bswap_non_integral`, 906–912. -/
def llvm_bswap_non_integral {n : Nat} (value : BitVec (8 * n)) (bitsize : Nat) : Option (BitVec (8 * n)) :=
  if bitsize ≤ 8 then some value
  else if ¬ is_power_of_two bitsize then none
  else llvm_emit_bswap (llvm_emit_shl_fixed value (8 * n - bitsize))

/-- `if (swap) value = llvm_bswap_non_integral(c, value, bitsize);` -/
def swapMember (swap : Bool) {n : Nat} (value : BitVec (8 * n)) (bitsize : Nat) : Option (BitVec (8 * n)) :=
  if swap then llvm_bswap_non_integral value bitsize else some value

/-- The loop of `llvm_extract_bitvalue_from_array`, 934–958: `k` bytes from `i` on; `res` starts as zero. -/
def extractLoop (size : Nat) (mem : Mem) (m : Member) : Nat → Nat → m.Value → Option m.Value
  | 0, _, res => some res
  | k + 1, i, res => do
    let element ← loadByte size mem i
    let element := element.setWidth (8 * m.bytes)
    let offset : Int := 8 * ((i : Int) - (m.start / 8 : Nat)) - (m.start % 8 : Nat)
    let element := if offset < 0 then llvm_emit_lshr_fixed element (-offset).toNat
      else if offset > 0 then llvm_emit_shl_fixed element offset.toNat
      else element
    extractLoop size mem m k (i + 1) (element ||| res)

/-- `llvm_extract_bitvalue_from_array`, 914–975, and `llvm_extract_bool_bit_from_array`, 887–904 (with the extension to a byte). -/
def readArray (swap : Bool) (size : Nat) (mem : Mem) (m : Member) : Option m.Value :=
  if m.bool then do
    let element ← loadByte size mem (m.start / 8)
    let element := llvm_emit_lshr_fixed element (m.start % 8)
    some ((element.setWidth 1).setWidth (8 * m.bytes))
  else do
    let res ← extractLoop size mem m (m.stop / 8 + 1 - m.start / 8) (m.start / 8) (0#(8 * m.bytes))
    let res ← swapMember swap res (m.stop - m.start + 1)
    if m.signed then
      let top := 8 * m.bytes + m.start - m.stop - 1
      if top = 0 then some res
      -- `llvm_emit_shl` and `llvm_emit_ashr`
      else if top ≥ 8 * m.bytes then none
      else llvm_emit_ashr (llvm_emit_shl_fixed res top) top
    else some (llvm_mask_low_bits res (m.stop - m.start + 1))

/-- One byte in the loop of `llvm_emit_update_bitstruct_array`, 1059–1119: what is stored instead of `current`, and the value that goes on. -/
def arrayStep (m : Member) (i : Nat) (value : m.Value) (current : Byte) : Byte × m.Value :=
  let start_mod := m.start % 8
  let end_mod := m.stop % 8
  if i = m.start / 8 ∧ start_mod ≠ 0 then
    let res := (llvm_emit_shl_fixed value start_mod).setWidth 8
    let mask := llvm_const_low_bitmask start_mod
    let last : Bool := i = m.stop / 8 ∧ end_mod ≠ 7
    let res := if last then res &&& llvm_const_low_bitmask (end_mod + 1) else res
    -- 1080: `end_bit`
    let mask := if last then mask ||| llvm_const_high_bitmask (7 - (m.stop : Int)) else mask
    ((current &&& mask) ||| res, llvm_emit_lshr_fixed value (8 - start_mod))
  else if i = m.stop / 8 ∧ end_mod ≠ 7 then
    let mask := llvm_const_low_bitmask (end_mod + 1)
    -- 1109: the result of the `or` is dropped
    (current &&& ~~~ mask, value)
  else (value.setWidth 8, llvm_emit_lshr_fixed value 8)

/-- The loop: `k` bytes from `i` on. -/
def arrayLoop (size : Nat) (m : Member) : Nat → Nat → m.Value → Mem → Option Mem
  | 0, _, _, mem => some mem
  | k + 1, i, value, mem => do
    let current ← loadByte size mem i
    let r := arrayStep m i value current
    let mem ← storeByte size mem i r.1
    arrayLoop size m k (i + 1) r.2 mem

/-- `llvm_emit_update_bitstruct_array`, 1023–1119. -/
def llvm_emit_update_bitstruct_array (swap : Bool) (size : Nat) (mem : Mem) (m : Member) (value : m.Value) : Option Mem :=
  if m.bool then
    if m.start ≠ m.stop then none
    else do
      let value := llvm_emit_shl_fixed (value.setWidth 8) (m.start % 8)
      let current ← loadByte size mem (m.start / 8)
      let bit := llvm_emit_shl_fixed (1#8) (m.start % 8)
      let current := current &&& ~~~ bit
      storeByte size mem (m.start / 8) (current ||| value)
  else do
    let value ← swapMember swap value (m.stop - m.start + 1)
    if ¬ m.stop - m.start + 1 ≤ 128 then none
    else arrayLoop size m (m.stop / 8 + 1 - m.start / 8) (m.start / 8) value mem

/-- `llvm_emit_initialize_reference_bitstruct_array`, 1529–1546, and `llvm_emit_initialize_reference_designated_bitstruct_array`,
1752–1771, on an object that is zero. -/
def initArrayAll (swap : Bool) (size : Nat) : List Entry → Mem → Option Mem
  | [], mem => some mem
  | e :: es, mem => (llvm_emit_update_bitstruct_array swap size mem e.1 e.2).bind (initArrayAll swap size es)

def initArray (swap : Bool) (size len : Nat) (es : List Entry) : Option Mem := initArrayAll swap size es (List.replicate (size * len) 0)

/-- The loop in `llvm_emit_const_bitstruct_array`, 1893–1911: `k` bytes from `j` on. -/
def constArrayLoop (m : Member) (value : m.Value) : Nat → Nat → Mem → Option Mem
  | 0, _, slots => some slots
  | k + 1, j, slots => do
    let to_or := if j = m.start / 8 then llvm_emit_shl_fixed value (m.start % 8) else llvm_emit_lshr_fixed value (j * 8 - m.start)
    let to_or := if j = m.stop / 8 then llvm_mask_low_bits to_or (m.stop % 8 + 1) else to_or
    let current ← slots[j]?
    constArrayLoop m value k (j + 1) (slots.set j (to_or.setWidth 8 ||| current))

/-- A member in `llvm_emit_const_bitstruct_array`, 1852–1912. -/
def constArrayStep (swap : Bool) (slots : Mem) (m : Member) (value : m.Value) : Option Mem :=
  if m.bool then
    if m.start ≠ m.stop then none
    else if value = 0 then some slots
    else do
      let bit := llvm_emit_shl_fixed (1#8) (m.start % 8)
      let current ← slots[m.start / 8]?
      some (slots.set (m.start / 8) (current ||| bit))
  else if ¬ m.stop - m.start + 1 ≤ 128 then none
  else do
    let bit_size := m.stop - m.start + 1
    let value := llvm_mask_low_bits value bit_size
    let value ← swapMember (swap && bit_size > 8) value bit_size
    constArrayLoop m value (m.stop / 8 + 1 - m.start / 8) (m.start / 8) slots

def constArrayAll (swap : Bool) : List Entry → Mem → Option Mem
  | [], slots => some slots
  | e :: es, slots => (constArrayStep swap slots e.1 e.2).bind (constArrayAll swap es)

/-- `llvm_emit_const_bitstruct_array`, 1840–1914: `len` bytes, whatever the elements are. -/
def constArray (swap : Bool) (len : Nat) (es : List Entry) : Option Mem := constArrayAll swap es (List.replicate len 0)

end C3.Bitstruct
