import Verif.Lexer.Model

/-!
# What the lexer should do

The texts are lists of bytes.  Nothing here refers to the functions of the model, only to its data types.
-/

set_option autoImplicit false

namespace C3.Lexer.Spec

/-- The bytes of an ASCII string. -/
def str (s : String) : List Nat := s.toList.map Char.toNat

/-! ## Lines and columns -/

/-- The line of position `p`: one more than the line breaks before it. -/
def row (src : List Nat) (p : Nat) : Nat := 1 + (src.take p).count 10

/-- The number of bytes between the last line break before `p` and `p`. -/
def inLine (src : List Nat) (p : Nat) : Nat := ((src.take p).reverse.takeWhile (· ≠ 10)).length

/-- A state that knows its line and where it starts. -/
def Located (src : List Nat) (l : Lx) : Prop :=
  l.pos ≤ src.length ∧ l.row = row src l.pos ∧ l.lineStart + inLine src l.pos = l.pos

/-! ## Comments and gaps -/

/-- `Inside b f`: `b`, followed by `f`, is text inside a block comment: characters that start neither `/*` nor `*/`, and
complete comments. -/
inductive Inside : List Nat → List Nat → Prop where
  | nil (f : List Nat) : Inside [] f
  | char (c : Nat) (s f : List Nat) : ¬ str "/*" <+: c :: s ++ f → ¬ str "*/" <+: c :: s ++ f → Inside s f →
      Inside (c :: s) f
  | nested (b s f : List Nat) : Inside b (str "*/" ++ (s ++ f)) → Inside s f →
      Inside (str "/*" ++ (b ++ (str "*/" ++ s))) f

/-- `Comment b s`: `b`, followed by `s`, is the rest of a block comment whose `/*` has been read. -/
def Comment (b s : List Nat) : Prop := ∃ t, b = t ++ str "*/" ∧ Inside t (str "*/" ++ s)

/-- `Gap contracts s r`: the text `s` consists of what is skipped between tokens, and then `r`.  In a contract line breaks
are tokens and there are no comments. -/
inductive Gap (contracts : Bool) : List Nat → List Nat → Prop where
  | done (s : List Nat) : Gap contracts s s
  | space (c : Nat) (s r : List Nat) : c ∈ [32, 9, 12] → Gap contracts s r → Gap contracts (c :: s) r
  | newline (s r : List Nat) : contracts = false → Gap contracts s r → Gap contracts (10 :: s) r
  | line (b s r : List Nat) : contracts = false → (∀ c ∈ b, c ≠ 10) → Gap contracts s r →
      Gap contracts (str "//" ++ (b ++ 10 :: s)) r
  | lineEnd (b : List Nat) : contracts = false → (∀ c ∈ b, c ≠ 10) → Gap contracts (str "//" ++ b) []
  | block (b s r : List Nat) : contracts = false → Comment b s → Gap contracts s r →
      Gap contracts (str "/*" ++ (b ++ s)) r
  | blockEnd (s : List Nat) : contracts = false → (¬ ∃ b r, s = b ++ r ∧ Comment b r) → Gap contracts (str "/*" ++ s) []

/-- Nothing can be skipped at the head of the text. -/
def NoGap (contracts : Bool) (s : List Nat) : Prop :=
  (∀ c ∈ [32, 9, 12], s.head? ≠ some c) ∧
  (contracts = false → s.head? ≠ some 10 ∧ ¬ str "//" <+: s ∧ ¬ str "/*" <+: s)

/-! ## Texts the lexer does not survive -/

def IsHex (c : Nat) : Prop := (48 ≤ c ∧ c ≤ 57) ∨ (65 ≤ c ∧ c ≤ 70) ∨ (97 ≤ c ∧ c ≤ 102)

instance (c : Nat) : Decidable (IsHex c) := inferInstanceAs (Decidable (_ ∨ _))

/-- Somewhere the hex digits after `\x`, `\u` or `\U` are followed too early by a byte outside ASCII. -/
def HexOverrun (src : List Nat) : Prop :=
  ∃ i j c : Nat, src[i]? = some 92 ∧ (src[i + 1]? = some 120 ∨ src[i + 1]? = some 117 ∨ src[i + 1]? = some 85) ∧
    i + 2 ≤ j ∧ j < i + 10 ∧ (∀ k d, i + 2 ≤ k → k < j → src[k]? = some d → IsHex d) ∧ src[j]? = some c ∧ 128 ≤ c

/-- From `p` on there is neither a line break nor a quote without a backslash before it. -/
def NoQuote (src : List Nat) (p : Nat) : Prop :=
  ∀ j, p ≤ j → src[j]? ≠ some 10 ∧ (src[j]? = some 39 → p < j ∧ src[j - 1]? = some 92)

/-- A character literal may run into the end of the text. -/
def OpenChar (src : List Nat) : Prop := ∃ i, src[i]? = some 39 ∧ NoQuote src (i + 1)

/-- Text without a single back quote. -/
inductive RawText : List Nat → Prop where
  | nil : RawText []
  | char (c : Nat) (s : List Nat) : c ≠ 96 → RawText s → RawText (c :: s)
  | pair (s : List Nat) : RawText s → RawText (96 :: 96 :: s)

/-- A raw string may run into the end of the text. -/
def OpenRaw (src : List Nat) : Prop := ∃ i, src[i]? = some 96 ∧ RawText (src.drop (i + 1))

/-! ## Escapes -/

/-- The value of a hex digit. -/
def hexDigit (c : Nat) : Nat := if c ≤ 57 then c - 48 else if c ≤ 70 then c - 55 else c - 87

/-- The number written by hex digits. -/
def hexValue (ds : List Nat) : Nat := ds.foldl (fun v c => v * 16 + hexDigit c) 0

/-- The escapes of one character: `\a \b \e \f \n \r \t \v \' \" \\ \0` and their bytes. -/
def escapes : List (Nat × Nat) :=
  [(97, 7), (98, 8), (101, 27), (102, 12), (110, 10), (114, 13), (116, 9), (118, 11), (39, 39), (34, 34), (92, 92), (48, 0)]

/-- `Text byte char s t`: the text `s` between the quotes of a string literal stands for the bytes `t`, if `\xhh` stands
for `byte` of its value and `\uhhhh` and `\Uhhhhhhhh` for `char` of theirs; `none`: it is not allowed. -/
inductive Text (byte char : Nat → Option (List Nat)) : List Nat → List Nat → Prop where
  | nil : Text byte char [] []
  | plain (c : Nat) (s t : List Nat) : c ∉ [34, 92, 10] → Text byte char s t → Text byte char (c :: s) (c :: t)
  | escape (e v : Nat) (s t : List Nat) : (e, v) ∈ escapes → Text byte char s t → Text byte char (92 :: e :: s) (v :: t)
  | x (d b s t : List Nat) : d.length = 2 → (∀ c ∈ d, IsHex c) → byte (hexValue d) = some b → Text byte char s t →
      Text byte char (92 :: 120 :: (d ++ s)) (b ++ t)
  | u (d b s t : List Nat) : d.length = 4 → (∀ c ∈ d, IsHex c) → char (hexValue d) = some b → Text byte char s t →
      Text byte char (92 :: 117 :: (d ++ s)) (b ++ t)
  | U (d b s t : List Nat) : d.length = 8 → (∀ c ∈ d, IsHex c) → char (hexValue d) = some b → Text byte char s t →
      Text byte char (92 :: 85 :: (d ++ s)) (b ++ t)

/-! ## Character literals -/

/-- `Units s bs`: the text `s` between the quotes of a character literal stands for the bytes `bs`: ASCII characters and
escapes of one byte. -/
inductive Units : List Nat → List Nat → Prop where
  | nil : Units [] []
  | plain (c : Nat) (s bs : List Nat) : c ∉ [39, 92, 10, 0] → c < 128 → Units s bs → Units (c :: s) (c :: bs)
  | escape (e v : Nat) (s bs : List Nat) : (e, v) ∈ escapes → Units s bs → Units (92 :: e :: s) (v :: bs)
  | x (d s bs : List Nat) : d.length = 2 → (∀ c ∈ d, IsHex c) → Units s bs →
      Units (92 :: 120 :: (d ++ s)) (hexValue d :: bs)

/-- The number with these bytes, the most significant first. -/
def bigEndian (bs : List Nat) : Nat := bs.foldl (fun v b => v * 256 + b) 0

/-! ## Raw strings -/

/-- `Raw s t`: the text `s` between the back quotes of a raw string stands for the bytes `t`: two back quotes stand for
one, everything else for itself. -/
inductive Raw : List Nat → List Nat → Prop where
  | nil : Raw [] []
  | char (c : Nat) (s t : List Nat) : c ≠ 96 → Raw s t → Raw (c :: s) (c :: t)
  | pair (s t : List Nat) : Raw s t → Raw (96 :: 96 :: s) (96 :: t)

/-! ## Names -/

def lower (c : Nat) : Bool := 97 ≤ c && c ≤ 122
def upper (c : Nat) : Bool := 65 ≤ c && c ≤ 90
def digit (c : Nat) : Bool := 48 ≤ c && c ≤ 57
def letter (c : Nat) : Bool := lower c || upper c
def nameChar (c : Nat) : Bool := letter c || digit c || c = 95

/-- Underscores, a letter, and any letters, digits and underscores. -/
def Word (w : List Nat) : Prop :=
  ∃ u c r, w = u ++ c :: r ∧ (∀ x ∈ u, x = 95) ∧ letter c = true ∧ ∀ x ∈ r, nameChar x = true

/-- The kind of a name: by its first letter, and if that is a capital, by whether all letters are. -/
def nameKind (w : List Nat) : Kind :=
  if (w.filter letter).head?.any lower then .normal
  else if w.any lower then .type else .const

/-- Digits and underscores with a digit before any letter, or only underscores. -/
def NoWord (w : List Nat) : Prop :=
  ∃ u v, w = u ++ v ∧ (∀ x ∈ u, x = 95) ∧ (∀ c ∈ v.head?, digit c = true)

/-- A name ends where the text goes on with another character. -/
def NameEnd (r : List Nat) : Prop := ∀ c ∈ r.head?, nameChar c = false

/-! ## Operators -/

/-- Operators and punctuation. -/
def ops : List String :=
  [",", ";", "{", "}", "(", ")", "[", "[<", "]", ".", "..", "...", "~", ":", "::", "!", "!!", "!=", "/", "/=",
   "*", "*=", "=", "=>", "==", "^", "^=", "?", "??", "?:", "<", "<<", "<<=", "<=", ">", ">>", ">>=", ">]", ">=",
   "%", "%=", "&", "&&", "&&&", "&=", "|", "||", "|||", "|=", "+", "++", "+++", "+=", "-", "->", "--", "-="]

/-- `op` is the longest operator the text starts with. -/
def Longest (op : String) (s : List Nat) : Prop :=
  op ∈ ops ∧ str op <+: s ∧ ∀ o ∈ ops, str o <+: s → (str o).length ≤ (str op).length

/-! ## Bidirectional control characters -/

/-- Embeddings and overrides (U+202A, U+202B, U+202D, U+202E), closed by U+202C; isolates (U+2066 to U+2068), closed by
U+2069. -/
inductive Mark where
  | embed | endEmbed | isolate | endIsolate
deriving DecidableEq

/-- The control character whose UTF-8 the text starts with. -/
def markAt : List Nat → List Mark
  | 0xE2 :: 0x80 :: t :: _ =>
    if t ∈ [0xAA, 0xAB, 0xAD, 0xAE] then [.embed] else if t = 0xAC then [.endEmbed] else []
  | 0xE2 :: 0x81 :: t :: _ =>
    if t ∈ [0xA6, 0xA7, 0xA8] then [.isolate] else if t = 0xA9 then [.endIsolate] else []
  | _ => []

/-- The control characters of a text. -/
def marks : List Nat → List Mark
  | [] => []
  | c :: s => markAt (c :: s) ++ marks s

/-- Every opening character is closed by its own kind. -/
inductive Balanced : List Mark → Prop where
  | nil : Balanced []
  | embed (a b : List Mark) : Balanced a → Balanced b → Balanced (.embed :: a ++ .endEmbed :: b)
  | isolate (a b : List Mark) : Balanced a → Balanced b → Balanced (.isolate :: a ++ .endIsolate :: b)

/-! ## Loading a file -/

/-- What is left of the file: no byte order mark at the beginning, no carriage returns. -/
def cleaned (file : List Nat) : List Nat :=
  (if [0xEF, 0xBB, 0xBF] <+: file then file.drop 3 else file).filter (· ≠ 13)

/-! ## Tokens of a file -/

/-- `Tiled src contracts p toks`: from `p` on, the text consists of the tokens, each at least one byte long, of gaps
between them, and a last gap.  A token is `src[start, pos)`; `contracts` says whether a contract is open. -/
inductive Tiled (src : List Nat) : Bool → Nat → List Lexed → Prop where
  | last (contracts : Bool) (p : Nat) : Gap contracts (src.drop p) [] → Tiled src contracts p []
  | tok (contracts : Bool) (p : Nat) (x : Lexed) (rest : List Lexed) : p ≤ x.l.start → x.l.start < x.l.pos →
      x.l.pos ≤ src.length → Gap contracts (src.drop p) (src.drop x.l.start) →
      Tiled src x.l.contracts x.l.pos rest → Tiled src contracts p (x :: rest)

/-- The location of the text `[a, b)`: the line and the column, counted from 1, and the length.  Columns and lengths that
do not fit into a byte are 0; the length of a text with line breaks is 1. -/
def located (src : List Nat) (a b : Nat) : Span where
  row := row src a
  col := if inLine src a + 1 > 255 then 0 else inLine src a + 1
  length := if 10 ∈ (src.drop a).take (b - a) then 1 else if b - a > 255 then 0 else b - a

end C3.Lexer.Spec
