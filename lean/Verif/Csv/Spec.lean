import Verif.Csv.Model
import Verif.Str.Spec

/-! # Texts of rows -/

set_option autoImplicit false

namespace C3.Csv

/-- The text of a row: the fields with the separator between them, and the end of the line. -/
def rowText (d : Byte) (eol : List Byte) (row : List (List Byte)) : List Byte := Str.Spec.interleave [d] row ++ eol

/-- Rows that can be written without quotes: a field at least, and no separators or ends of lines in fields. -/
def Plain (d : Byte) (row : List (List Byte)) : Prop :=
  row ≠ [] ∧ ∀ f ∈ row, d ∉ f ∧ 10 ∉ f ∧ 13 ∉ f

end C3.Csv
