import Verif.Str.Model

/-!
# Lines and rows of separated values

`io::readline`, `lib/std/io/io.c3` 56–89, and `lib/std/encoding/csv.c3`.  A stream is the list of the
bytes left, and does not fail but at the end.  `String.split` is that of `Verif/Str`.
-/

set_option autoImplicit false

namespace C3.Csv

abbrev Byte := BitVec 8

/-- A `String` and whether its memory is from the allocator. -/
structure Line where
  bytes : List Byte
  allocated : Bool
deriving DecidableEq, Repr

/-- The loop of `readline`, io.c3 71–86: the string and what is left of the stream. -/
def lineLoop : List Byte → List Byte → List Byte × List Byte
  | [], str => (str, [])
  | c :: r, str => if c = 13 then lineLoop r str else if c = 10 then (str, r) else lineLoop r (str ++ [c])

/-- `readline`, io.c3 56–89; `none` is `io::EOF`.  For a line that begins with a line feed the literal
`""` is returned (66), else a copy (87). -/
def readline : List Byte → Option (Line × List Byte)
  | [] => none
  | val :: r =>
    if val = 10 then some (⟨[], false⟩, r)
    else
      let p := lineLoop r (if val ≠ 13 then [val] else [])
      some (⟨p.1, true⟩, p.2)

/-- `CsvRow`, csv.c3 11–16. -/
structure CsvRow where
  list : List (List Byte)
  row : Line
deriving DecidableEq, Repr

/-- What ends a call: a value, `io::EOF`, or undefined behaviour. -/
inductive Res (α : Type) where
  | ok (a : α)
  | eof
  | undefined
deriving DecidableEq, Repr

/-- `CsvReader.read_row`, csv.c3 44–50; `split` without a result (see `Verif/Str`) is undefined. -/
def read_row (separator : List Byte) (stream : List Byte) : Res (CsvRow × List Byte) :=
  match readline stream with
  | none => .eof
  | some (row, stream) =>
    match Str.split row.bytes separator 0 false with
    | none => .undefined
    | some list => .ok (⟨list, row⟩, stream)

/-- `CsvRow.free`, csv.c3 60–65: memory that is not the allocator's must not be released.  The list always is. -/
def CsvRow.free (self : CsvRow) : Res Unit := if self.row.allocated then .ok () else .undefined

/-- `CsvReader.skip_row`, csv.c3 67–70: the fault is dropped. -/
def skip_row (stream : List Byte) : List Byte :=
  match readline stream with
  | none => stream
  | some (_, stream) => stream

/-- The loop of `@each_row`, csv.c3 74–86, with the rows the body is called with. -/
def eachLoop (separator : List Byte) : Nat → List Byte → Res (List (List (List Byte)))
  | 0, _ => .ok []
  | n + 1, stream =>
    match readline stream with
    | none => .ok []
    | some (s, stream) =>
      match Str.split s.bytes separator 0 false with
      | none => .undefined
      | some row =>
        match eachLoop separator n stream with
        | .ok rows => .ok (row :: rows)
        | .eof => .eof
        | .undefined => .undefined

/-- `@each_row`, csv.c3 72–87: `while (max_rows--)` runs as often as the bits of `max_rows` say as a number. -/
def each_row (stream separator : List Byte) (max_rows : BitVec 32) : Res (List (List (List Byte))) :=
  eachLoop separator max_rows.toNat stream

end C3.Csv
