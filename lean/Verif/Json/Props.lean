import Verif.Json.LemmasSafe
import Verif.Json.LemmasPrint

/-! # Reading and writing project files -/

set_option autoImplicit false

namespace C3.Json

open Spec (Blank Text Renders Digits decimal hexValue IsHex ascii escapes Item Plain Writable str)

theorem load_follow {v : Obj} {w s r : List Nat} (hw : Blank w) (h : Renders ascii (.val v) s) (hr : Follow r) {q : P}
    (hq : lex r = some q) : load (w ++ (s ++ r)) = some (if q.err then none else some v) := by
  obtain ⟨p, h1, h2, _, _, h3⟩ := reads h r hr
  rw [load, lex_blank hw, h1]
  simp [h3, hq]

/-- **C21.**  A file with a rendering of a value, between white space and comments, is read as this value.

Missing from the property: numbers with a sign or an exponent and `\u` for anything but ASCII, which are read wrongly or not at
all (`C21_negative`, `C21_exponent`, `C21_unicode`), and the lookup of the last member for a key (`C21_lookup`).  The
rounding of numbers to `double` is not modelled. -/
theorem C21_parse_partial {v : Obj} {w s w' : List Nat} (hw : Blank w) (h : Renders ascii (.val v) s) (hw' : Blank w') :
    load (w ++ s ++ w') = some (some v) := by
  have hq : lex w' = some ⟨.eof, [], false⟩ := by
    rw [← List.append_nil w', lex_blank hw']
    simp [lex, skipSpace]
  rw [List.append_assoc, load_follow hw h _ hq]
  · rfl
  · rw [← List.append_nil w']; exact follow_blank hw' follow_nil

/-- `// c` and `{ "a" : [ 1.5 , true , ] , "b\n" : { } }`. -/
example : load (str "// c\n" ++ str "{ \"a\" : [ 1.5 , true , ] , \"b\\n\" : { } }" ++ str "\n") =
    some (some (.obj [(str "a", .arr [.num (15 / 10), .bool true]), (str "b\n", .obj [])])) := by
  have b1 : Blank [32] := blank_all (by simp)
  have hn : Renders ascii (.val (.num (15 / 10))) (str "1.5") := by
    have := Renders.frac (char := ascii) [49] [53] ⟨by simp, by simp⟩ ⟨by simp, by simp⟩
    have e : ((decimal [49] : Nat) : Rat) + (decimal [53] : Nat) / 10 ^ [53].length = 15 / 10 := by
      simp [decimal]; norm_num
    rw [e] at this
    exact this
  have ha := Renders.arr _ _ (Renders.elems [32] [32] _ _ _ _ b1 hn b1 (Renders.elemComma [32] [32] [32] _ _ b1 (Renders.true (char := ascii)) b1 b1))
  have ho := Renders.obj0 (char := ascii) [32] b1
  have ka : Text ascii (str "a") (str "a") := .plain 97 [] [] (by simp) (by simp) .nil
  have kb : Text ascii (str "b\\n") (str "b\n") := .plain 98 _ _ (by simp) (by simp) (.escape 110 10 [] [] (by simp [escapes]) .nil)
  have h := Renders.obj _ _ (Renders.members [32] [32] [32] [32] _ _ _ _ _ _ b1 ka b1 b1 ha b1
    (Renders.member [32] [32] [32] [32] _ _ _ _ b1 kb b1 b1 ho b1))
  have hw : Blank (str "// c\n") := Blank.line (str " c") [] (by decide) .nil
  exact C21_parse_partial hw h (w' := str "\n") (blank_all (by simp [str]))

/-- **C21, safety.**  Reading a file ends, and reads and writes inside the text and the memory allocated for strings, if
no `\u` is within the last two bytes.  (The depth of the stack is not modelled.) -/
theorem C21_total {s : List Nat} (h : ∀ a t, s = a ++ (str "\\u" ++ t) → 3 ≤ t.length) : load s ≠ none := by
  obtain ⟨r, hr⟩ := load_total (s := s) (by
    rintro ⟨a, t, e, ht⟩
    have := h a t e
    omega)
  rw [hr]; simp

example : load (str "[[[{\"a") ≠ none := by
  apply C21_total
  intro a t e
  exfalso
  have : (92 : Nat) ∈ str "[[[{\"a" := by rw [e]; simp [str]
  revert this
  decide

theorem string_cut {s t u : List Nat} (h : Text ascii s t) (hu : u.length < 3) : ∀ (room : Nat) (out : List Nat),
    string room out (s ++ (92 :: 117 :: u)) = none ∨ ∃ n, room ≤ out.length + n ∧ n ≤ s.length := by
  induction h with
  | nil =>
    intro room out
    left
    rw [List.nil_append, string.eq_def]
    simp only
    rw [if_neg (by decide), if_neg (by decide), if_pos (by decide)]
    match u, hu with
    | [], _ => rfl
    | [_], _ => rfl
    | [_, _], _ => rfl
  | plain c s t hc _ _ ih =>
    intro room out
    simp at hc
    by_cases hr : out.length < room
    · rw [List.cons_append, string.eq_def]
      simp only
      rw [if_neg (by simp [ch]; omega), if_pos (by simp [ch]; omega), push_eq hr]
      rcases ih room (out ++ [c]) with h | ⟨n, h1, h2⟩
      · exact Or.inl (by simpa using h)
      · exact Or.inr ⟨n + 1, by simp at h1; omega, by simp; omega⟩
    · exact Or.inr ⟨0, by omega, by omega⟩
  | escape e v s t he _ ih =>
    intro room out
    obtain ⟨h1, h2, _⟩ := escape_spec he
    by_cases hr : out.length < room
    · rw [List.cons_append, List.cons_append, string.eq_def]
      simp only
      rw [if_neg (by decide), if_neg (by decide), if_neg h1, h2]
      simp only
      rw [push_eq hr]
      rcases ih room (out ++ [v]) with h | ⟨n, h1, h2⟩
      · exact Or.inl (by simpa using h)
      · exact Or.inr ⟨n + 1, by simp at h1; omega, by simp; omega⟩
    · exact Or.inr ⟨0, by omega, by omega⟩
  | u d b s t hd hh hb _ ih =>
    intro room out
    obtain ⟨a1, a2, a3, a4, rfl⟩ : ∃ a b c e, d = [a, b, c, e] := by
      match d, hd with
      | [a, b, c, e], _ => exact ⟨a, b, c, e, rfl⟩
    simp only [List.mem_cons, List.not_mem_nil, or_false, forall_eq_or_imp, forall_eq] at hh
    obtain ⟨g1, g2, g3, g4⟩ := hh
    by_cases hr : out.length < room
    · have e : 92 :: 117 :: ([a1, a2, a3, a4] ++ s) ++ 92 :: 117 :: u = 92 :: 117 :: a1 :: a2 :: a3 :: a4 :: (s ++ 92 :: 117 :: u) := by simp
      rw [e, string.eq_def]
      simp only
      rw [if_neg (by decide), if_neg (by decide), if_pos (by decide)]
      simp only [isHex_spec g1, isHex_spec g2, isHex_spec g3, isHex_spec g4, Bool.and_self, if_true]
      rw [push_eq hr]
      rcases ih room (out ++ [(nibble a1 * 4096 + nibble a2 * 256 + nibble a3 * 16 + nibble a4) % 256]) with h | ⟨n, h1, h2⟩
      · exact Or.inl (by simpa using h)
      · exact Or.inr ⟨n + 1, by simp at h1; omega, by simp; omega⟩
    · exact Or.inr ⟨0, by omega, by omega⟩

theorem measure_text {s t : List Nat} (h : Text ascii s t) (r : List Nat) : s.length ≤ measure (s ++ r) := by
  induction h with
  | nil => simp
  | plain c s t hc _ _ ih =>
    simp at hc
    rw [List.cons_append, measure_plain hc.1 hc.2, List.length_cons]
    omega
  | escape e v s t _ _ ih => rw [List.cons_append, List.cons_append, measure_escape]; simp; omega
  | u d b s t hd hh _ _ ih =>
    obtain ⟨a1, a2, a3, a4, rfl⟩ : ∃ a b c e, d = [a, b, c, e] := by
      match d, hd with
      | [a, b, c, e], _ => exact ⟨a, b, c, e, rfl⟩
    simp only [List.mem_cons, List.not_mem_nil, or_false, forall_eq_or_imp, forall_eq] at hh
    have e : 92 :: 117 :: ([a1, a2, a3, a4] ++ s) ++ r = 92 :: 117 :: a1 :: a2 :: a3 :: a4 :: (s ++ r) := by simp
    rw [e, measure_hex (isHex_spec hh.1) (isHex_spec hh.2.1) (isHex_spec hh.2.2.1) (isHex_spec hh.2.2.2)]
    simp; omega

/-- **C21, the gap in the safety.**  A file that ends in a string with `\u` and less than three more bytes is read behind
its end. -/
theorem C21_overread {s t u : List Nat} (h : Text ascii s t) (hu : u.length < 3) :
    load (str "\"" ++ s ++ (str "\\u" ++ u)) = none := by
  have e : str "\"" ++ s ++ (str "\\u" ++ u) = 34 :: (s ++ (92 :: 117 :: u)) := by simp [str]
  have hl : lex (34 :: (s ++ (92 :: 117 :: u))) =
      string (measure (s ++ (92 :: 117 :: u)) + 1) [] (s ++ (92 :: 117 :: u)) := by
    simp [lex, skipSpace_stop, ch]
  rw [load, e, hl]
  rcases string_cut h hu (measure (s ++ (92 :: 117 :: u)) + 1) [] with h' | ⟨n, h1, h2⟩
  · rw [h']; rfl
  · have := measure_text h (92 :: 117 :: u)
    simp at h1
    omega

example : load (str "\"ab\\u0") = none :=
  C21_overread (s := str "ab") (t := str "ab") (.plain 97 [98] [98] (by simp) (by simp) (.plain 98 [] [] (by simp) (by simp) .nil)) (u := str "0")
    (by decide)

theorem blank_nil_load {v : Obj} {s r : List Nat} (h : Renders ascii (.val v) s) (hr : Follow r) {q : P}
    (hq : lex r = some q) : load (s ++ r) = some (if q.err then none else some v) := by
  have := load_follow (w := []) .nil h hr hq
  simpa using this

/-- **C21, signs.**  A minus sign is dropped. -/
theorem C21_negative {d : List Nat} (h : Digits d) : load (str "-" ++ d) = some (some (.num (decimal d))) := by
  have h1 : lex (45 :: d) = some (number (45 :: d)) := by simp [lex, skipSpace_stop, ch]
  have h2 : number (45 :: d) = ⟨.num (decimal d), [], false⟩ := by
    have := digits_eq d 0 [] h.2 (by simp)
    rw [number_minus]
    simp only [List.append_nil] at this
    rw [this]
    simp [numberTail]
  have h3 : lex [] = some ⟨.eof, [], false⟩ := by simp [lex, skipSpace]
  have e : str "-" ++ d = 45 :: d := rfl
  rw [e, load, h1, h2]
  simp [parse, h3]

example : load (str "-7") = some (some (.num 7)) := by
  have := C21_negative (d := [55]) ⟨by simp, by simp⟩
  simpa [decimal, str] using this

/-- **C21, exponents.**  A number with an exponent is refused. -/
theorem C21_exponent {d : List Nat} (h : Digits d) (r : List Nat) : load (d ++ (str "e" ++ r)) = some none := by
  have h1 : lex (101 :: r) = some fail := by simp [lex, skipSpace_stop, ch, isDigit]
  have := blank_nil_load (Renders.int (char := ascii) d h) (follow_cons (c := 101) (by omega) r) h1
  simpa [str, fail] using this

example : load (str "1e5") = some none := C21_exponent (d := [49]) ⟨by simp, by simp⟩ (str "5")

/-- **C21, Unicode.**  `\uhhhh` is read as the last byte of its value, and if this is zero the string ends. -/
theorem C21_unicode {d : List Nat} (hl : d.length = 4) (hd : ∀ c ∈ d, IsHex c) :
    load (str "\"\\u" ++ d ++ str "\"") =
      some (some (.str (if hexValue d % 256 = 0 then [] else [hexValue d % 256]))) := by
  have ht : Text (fun v => some [v % 256]) (92 :: 117 :: (d ++ [])) ([hexValue d % 256] ++ []) := .u d _ [] [] hl hd rfl .nil
  have h1 : lex (34 :: (92 :: 117 :: (d ++ []) ++ 34 :: [])) = some ⟨.str (cstr ([] ++ ([hexValue d % 256] ++ []))), [], false⟩ := by
    have : lex (34 :: (92 :: 117 :: (d ++ []) ++ 34 :: [])) =
        string (measure (92 :: 117 :: (d ++ []) ++ 34 :: []) + 1) [] (92 :: 117 :: (d ++ []) ++ 34 :: []) := by
      simp [lex, skipSpace_stop, ch]
    rw [this, string_text (char := fun v => some [v % 256]) (by intro v b hb; simpa using hb.symm) ht _ _ _ (by simp)]
  have e : str "\"\\u" ++ d ++ str "\"" = 34 :: (92 :: 117 :: (d ++ []) ++ 34 :: []) := by simp [str]
  have h3 : lex [] = some ⟨.eof, [], false⟩ := by simp [lex, skipSpace]
  rw [e, load, h1]
  simp [parse, h3, cstr]
  split <;> rename_i h <;> simp [h]

/-- `é` becomes the byte `E9`, which is not UTF-8; `Ā` cuts the string. -/
example : load (str "\"\\u00e9\"") = some (some (.str [0xe9])) ∧ load (str "\"\\u0100\"") = some (some (.str [])) :=
  ⟨C21_unicode (d := str "00e9") (by decide) (by decide), C21_unicode (d := str "0100") (by decide) (by decide)⟩

/-- **C21, the end.**  Only the first token after the value is read, and it may be anything but an error. -/
theorem C21_trailing {v : Obj} {s g : List Nat} (h : Renders ascii (.val v) s) {c : Nat} (hc : c ∈ str "{}[]:,") :
    load (s ++ c :: g) = some (some v) := by
  have hf : Follow (c :: g) := follow_cons (by simp [str] at hc; omega) g
  have : ∃ q, lex (c :: g) = some q ∧ q.err = false := by
    obtain ⟨h1, h2, h3, h4, h5, h6⟩ := lex_sym g
    simp [str] at hc
    rcases hc with rfl | rfl | rfl | rfl | rfl | rfl
    · exact ⟨_, h1, rfl⟩
    · exact ⟨_, h2, rfl⟩
    · exact ⟨_, h3, rfl⟩
    · exact ⟨_, h4, rfl⟩
    · exact ⟨_, h5, rfl⟩
    · exact ⟨_, h6, rfl⟩
  obtain ⟨q, hq, he⟩ := this
  rw [blank_nil_load h hf hq, he]
  rfl

example : load (str "true, nonsense") = some (some (.bool true)) :=
  C21_trailing (c := 44) (g := str " nonsense") .true (by decide)

/-- **C21, lookup.**  Of several members for a key the first is found, not the last. -/
theorem C21_lookup (ms ms' : List (List Nat × Obj)) (key : List Nat) (v : Obj) (h : ∀ m ∈ ms, m.1 ≠ key) :
    mapGet (ms ++ (key, v) :: ms') key = v ∧ mapGet ms key = .null := by
  induction ms with
  | nil => simp [mapGet]
  | cons m ms ih =>
    have h1 := h m (by simp)
    obtain ⟨k, u⟩ := m
    simp only [List.cons_append, mapGet, if_neg h1]
    exact ih fun m hm => h m (by simp [hm])

example : mapGet [(str "a", .bool true), (str "b", .bool true), (str "a", .bool false)] (str "a") = .bool true :=
  (C21_lookup [] _ (str "a") (.bool true) (by simp)).1

/-- **C21, setting.**  A set member is found, and the others are as before. -/
theorem C21_set (ms : List (List Nat × Obj)) (key key' : List Nat) (v : Obj) :
    mapGet (mapSet ms key v) key' = if key' = key then v else mapGet ms key' := by
  induction ms with
  | nil =>
    by_cases h : key = key'
    · simp [mapSet, mapGet, h]
    · simp [mapSet, mapGet, h, Ne.symm h]
  | cons m ms ih =>
    obtain ⟨k, u⟩ := m
    unfold mapSet at ih ⊢
    simp only [List.map_cons, List.cons_append]
    by_cases hk : k = key
    · simp only [hk, if_true, mapGet]
      by_cases h : key = key'
      · simp [h]
      · rw [if_neg h, if_neg h, ih]
    · simp only [hk, if_false, mapGet]
      by_cases h : k = key'
      · rw [if_pos h, if_pos h, if_neg (by rw [← h]; exact hk)]
      · rw [if_neg h, if_neg h, ih]

example : mapGet (mapSet [(str "a", .bool true)] (str "a") (.str [])) (str "a") = .str [] := by
  rw [C21_set, if_pos rfl]

/-- **C21, setting twice.**  Setting a member that exists adds another member with this key. -/
theorem C21_set_duplicates (ms : List (List Nat × Obj)) (key : List Nat) (v : Obj) :
    ((mapSet ms key v).map Prod.fst).count key = (ms.map Prod.fst).count key + 1 := by
  have : (ms.map (fun m => if m.1 = key then (m.1, v) else m)).map Prod.fst = ms.map Prod.fst := by
    rw [List.map_map]
    apply List.map_congr_left
    intro m _
    simp only [Function.comp_apply]
    split <;> rfl
  rw [mapSet, List.map_append, this]
  simp

/-- **C47.**  A value that is written is read back, unless it holds a `null`, or a string or key that needs an escape, or a
number that `%f` does not write exactly.

Missing from the property: these values (`C47_null`, `C47_null_member`, `C47_backslash`, `C47_escape`). -/
theorem C47_roundtrip_partial {float : Rat → List Nat} {v : Obj} (h : Writable float v) :
    ∃ s, printFile float v = some s ∧ load s = some (some v) := by
  obtain ⟨s, h1, w, t, hw, rfl, ht⟩ := print_written h 0
  refine ⟨_, h1, ?_⟩
  have := C21_parse_partial hw ht .nil
  simpa using this

example : ∃ s, printFile (fun _ => str "2.500000") (.obj [(str "deps", .arr [.str (str "ui"), .bool true]), (str "v", .num (5 / 2))]) = some s ∧
    load s = some (some (.obj [(str "deps", .arr [.str (str "ui"), .bool true]), (str "v", .num (5 / 2))])) := by
  apply C47_roundtrip_partial
  have pl : ∀ s : List Nat, s.all (fun c => 32 ≤ c && c ≠ 34 && c ≠ 92) = true → Plain s := by
    intro s h c hc
    have := List.all_eq_true.1 h c hc
    simp at this
    omega
  have hn : Renders ascii (.val (.num (5 / 2))) (str "2.500000") := by
    have := Renders.frac (char := ascii) [50] (str "500000") ⟨by simp, by simp⟩ ⟨by decide, by decide⟩
    have e : ((decimal [50] : Nat) : Rat) + (decimal (str "500000") : Nat) / 10 ^ (str "500000").length = 5 / 2 := by
      simp [decimal, str]; norm_num
    rw [e] at this
    exact this
  refine .obj _ ?_ ?_
  · simp only [List.mem_cons, List.not_mem_nil, or_false, forall_eq_or_imp, forall_eq]
    exact ⟨pl _ (by decide), pl _ (by decide)⟩
  · simp only [List.mem_cons, List.not_mem_nil, or_false, forall_eq_or_imp, forall_eq]
    refine ⟨.arr _ ?_, .num _ hn⟩
    simp only [List.mem_cons, List.not_mem_nil, or_false, forall_eq_or_imp, forall_eq]
    exact ⟨.str _ (pl _ (by decide)), .bool _⟩

/-- **C47, null elements.**  Writing an array with a `null` and no object before it dereferences the null pointer. -/
theorem C47_null (float : Rat → List Nat) (vs vs' : List Obj) (h : ∀ v ∈ vs, ∀ ms, v ≠ .obj ms) :
    printFile float (.arr (vs ++ .null :: vs')) = none := by
  have ha : anyObject (vs ++ .null :: vs') = none := by
    induction vs with
    | nil => rfl
    | cons v vs ih =>
      rw [List.cons_append, anyObject]
      split
      · rfl
      · have : v.isObj = false := by
          cases v <;> first | rfl | exact absurd rfl (h _ List.mem_cons_self _)
        rw [this]
        exact ih fun v hv => h v (by simp [hv])
  unfold printFile
  cases vs with
  | nil => rw [List.nil_append, print]; rw [List.nil_append] at ha; rw [ha]; rfl
  | cons v vs => rw [List.cons_append, print]; rw [List.cons_append] at ha; rw [ha]; rfl

example : printFile (fun _ => []) (.arr [.bool true, .null]) = none := C47_null _ [.bool true] [] (by simp)

/-- **C47, null members.**  An object with a `null` member is written as a file that is refused. -/
theorem C47_null_member (float : Rat → List Nat) {key : List Nat} (h : Plain key) :
    ∃ s, printFile float (.obj [(key, .null)]) = some s ∧ load s = some none := by
  refine ⟨[123, 10, 32, 32] ++ (34 :: (key ++ (34 :: 58 :: 32 :: 10 :: 125 :: []))), ?_, ?_⟩
  · have e1 : bytes "{\n" = [123, 10] := by decide
    have e2 : bytes "\n" = [10] := by decide
    have e3 : bytes "}" = [125] := by decide
    have e4 : bytes "\"" = [34] := by decide
    have e5 : bytes "\": " = [34, 58, 32] := by decide
    have e6 : indent (0 + 1) = [32, 32] := by decide
    have e7 : indent 0 = [] := by decide
    simp [printFile, print, printMembers, e1, e2, e3, e4, e5, e6, e7]
  · have l1 : lex ([123, 10, 32, 32] ++ (34 :: (key ++ (34 :: 58 :: 32 :: 10 :: 125 :: [])))) =
        some ⟨.lbrace, [10, 32, 32] ++ (34 :: (key ++ (34 :: 58 :: 32 :: 10 :: 125 :: []))), false⟩ := by
      rw [List.cons_append]; exact (lex_sym _).1
    have l2 : lex ([10, 32, 32] ++ (34 :: (key ++ (34 :: 58 :: 32 :: 10 :: 125 :: [])))) = _ :=
      (lex_blank (blank_all (by simp)) _).trans (lex_string (text_plain h) _)
    have l3 : lex (58 :: 32 :: 10 :: 125 :: []) = _ := (lex_sym _).2.2.2.2.1
    have l4 : lex (32 :: 10 :: 125 :: []) = _ := (lex_blank (w := [32, 10]) (blank_all (by simp)) [125]).trans (lex_sym _).2.1
    rw [load, l1]
    simp only [Option.bind_eq_bind, Option.bind_some]
    rw [parse]
    simp only [Bool.false_eq_true, if_false]
    rw [parseObject, consume_hit, l2]
    simp only [Option.bind_eq_bind, Option.bind_some, Bool.not_true, Bool.false_eq_true, if_false]
    rw [consume_miss (by simp)]
    simp only [Option.bind_some, Bool.false_eq_true, if_false]
    rw [objectLoop]
    simp only [Option.bind_eq_bind]
    rw [l3]
    simp only [Option.bind_some]
    rw [consume_hit, l4]
    simp [parse, fail]

example : ∃ s, printFile (fun _ => []) (.obj [(str "a", .null)]) = some s ∧ load s = some none :=
  C47_null_member _ (by intro c hc; simp [str] at hc; omega)

theorem printFile_str (float : Rat → List Nat) (s : List Nat) : printFile float (.str s) = some (34 :: (s ++ [34])) := by
  have e4 : bytes "\"" = [34] := by decide
  simp [printFile, print, e4]

/-- **C47, a backslash at the end.**  A string that ends in a backslash is written as a file that is refused. -/
theorem C47_backslash (float : Rat → List Nat) {s : List Nat} (h : Plain s) :
    ∃ t, printFile float (.str (s ++ [92])) = some t ∧ load t = some none := by
  refine ⟨_, printFile_str _ _, ?_⟩
  have key : ∀ (s : List Nat), Plain s → ∀ (room : Nat) (out : List Nat), out.length + s.length + 1 < room →
      string room out (s ++ [92, 34]) = some fail := by
    intro s
    induction s with
    | nil =>
      intro _ room out hr
      rw [List.nil_append, string.eq_def]
      simp only
      rw [if_neg (by decide), if_neg (by decide), if_neg (by decide)]
      have : escape 34 = some 34 := by decide
      rw [this]
      simp only
      rw [push_eq (by simp at hr; omega)]
      simp [string]
    | cons c s ih =>
      intro h room out hr
      have hc := h c (by simp)
      simp only [List.length_cons] at hr
      rw [List.cons_append, string.eq_def]
      simp only
      rw [if_neg (by simp [ch]; omega), if_pos (by simp [ch]; omega), push_eq (by omega)]
      simp only [Option.bind_eq_bind, Option.bind_some]
      exact ih (fun c hc => h c (by simp [hc])) _ _ (by simp; omega)
  have hl : lex (34 :: (s ++ [92] ++ [34])) = string (measure (s ++ [92, 34]) + 1) [] (s ++ [92, 34]) := by
    simp [lex, skipSpace_stop, ch]
  have hm : s.length + 1 < measure (s ++ [92, 34]) + 1 := by
    have : ∀ s : List Nat, Plain s → s.length + 1 ≤ measure (s ++ [92, 34]) := by
      intro s
      induction s with
      | nil => intro _; decide
      | cons c s ih =>
        intro h
        have hc := h c (by simp)
        have := ih fun c hc => h c (by simp [hc])
        rw [List.cons_append, measure_plain hc.2.1 hc.2.2]
        simp; omega
    have := this s h
    omega
  rw [load, hl, key s h _ _ (by simpa using hm)]
  simp [parse, fail]

example : ∃ t, printFile (fun _ => []) (.str (str "C:\\")) = some t ∧ load t = some none :=
  C47_backslash _ (s := str "C:") (by intro c hc; simp [str] at hc; omega)

/-- **C47, escapes.**  A backslash before a letter comes back as one control character. -/
theorem C47_escape (float : Rat → List Nat) {s t : List Nat} {e v : Nat} (hs : Plain s) (ht : Plain t) (he : (e, v) ∈ escapes) :
    ∃ f, printFile float (.str (s ++ 92 :: e :: t)) = some f ∧ load f = some (some (.str (s ++ v :: t))) := by
  refine ⟨_, printFile_str _ _, ?_⟩
  have h : Text ascii (s ++ 92 :: e :: t) (s ++ v :: t) := by
    induction s with
    | nil => exact .escape e v t t he (text_plain ht)
    | cons c s ih =>
      have hc := hs c (by simp)
      exact .plain c _ _ (by simp; omega) hc.1 (ih fun c hc => hs c (by simp [hc]))
  have := C21_parse_partial .nil (Renders.str _ _ h) .nil
  simpa using this

/-- The directory `C:\new` comes back with a line break. -/
example : ∃ f, printFile (fun _ => []) (.str (str "C:\\new")) = some f ∧ load f = some (some (.str (str "C:\new"))) :=
  C47_escape _ (s := str "C:") (t := str "ew") (e := 110) (v := 10) (by intro c hc; simp [str] at hc; omega)
    (by intro c hc; simp [str] at hc; omega) (by decide)

end C3.Json
