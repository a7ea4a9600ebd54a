{
 "claims": [
  {
   "property": "C01",
   "status": "proved",
   "theorems": [
    "C3.Bigint.C01_add",
    "C3.Bigint.C01_sub",
    "C3.Bigint.C01_mul",
    "C3.Bigint.C01_neg",
    "C3.Bigint.C01_not",
    "C3.Bigint.C01_add64",
    "C3.Bigint.C01_sub64"
   ],
   "note": "all ten integer types; the eight entry points int_add/sub/mul/neg/not/add64/sub64"
  },
  {
   "property": "C02",
   "status": "partial",
   "theorems": [
    "C3.Bigint.C02_div_partial",
    "C3.Bigint.C02_min_not_wrapped"
   ],
   "note": "full except MIN / -1 of signed types below 128 bits, where the code stores an out-of-range constant (C02_min_not_wrapped proves it)"
  },
  {
   "property": "C03",
   "status": "partial",
   "theorems": [
    "C3.Bigint.C03_rem_partial",
    "C3.Bigint.C03_neg_divisor"
   ],
   "note": "full for non-negative divisors; for negative divisors the code's remainder has the wrong sign (C03_neg_divisor proves it for every such pair)"
  },
  {
   "property": "C04",
   "status": "proved",
   "theorems": [
    "C3.Bigint.C04_shift"
   ],
   "note": "includes the compiler's own check of the shift amount"
  },
  {
   "property": "C05",
   "status": "proved",
   "theorems": [
    "C3.Bigint.C05_bitwise"
   ],
   "note": ""
  },
  {
   "property": "C06",
   "status": "proved",
   "theorems": [
    "C3.Bigint.C06_compare",
    "C3.Bigint.C06_icomp",
    "C3.Bigint.C06_ucomp"
   ],
   "note": ""
  },
  {
   "property": "C07",
   "status": "proved",
   "theorems": [
    "C3.Bigint.C07_fits",
    "C3.Bigint.C07_bits_needed"
   ],
   "note": ""
  },
  {
   "property": "C08",
   "status": "proved",
   "theorems": [
    "C3.Bigint.C08_conv"
   ],
   "note": ""
  },
  {
   "property": "C09",
   "status": "proved",
   "theorems": [
    "C3.Bigint.C09_print",
    "C3.Bigint.C09_read_back"
   ],
   "note": "bases 2..16, buffer sizes included"
  },
  {
   "property": "C10",
   "status": "proved",
   "theorems": [
    "C3.Bigint.C10_word",
    "C3.Bigint.C10_wide"
   ],
   "note": ""
  },
  {
   "property": "C11",
   "status": "partial",
   "theorems": [
    "C3.IntLiteral.C11_value_partial",
    "C3.IntLiteral.C11_too_big",
    "C3.IntLiteral.C11_total",
    "C3.IntLiteral.C11_misread_decimal",
    "C3.IntLiteral.C11_misread_unsuffixed",
    "C3.IntLiteral.C11_misread_suffixed"
   ],
   "note": "the value is right whenever the literal is accepted and stays within the checked range; three families of out-of-range literals are accepted with a wrong value (C11_misread_*)"
  },
  {
   "property": "C12",
   "status": "partial",
   "theorems": [
    "C3.IntLiteral.C12_type_partial",
    "C3.IntLiteral.C12_width",
    "C3.IntLiteral.C12_small_suffix_aborts"
   ],
   "note": "type rules proved for the widths 8..128; i1/i2/i4 suffixes abort the compiler (C12_small_suffix_aborts)"
  },
  {
   "property": "C13",
   "status": "partial",
   "theorems": [
    "C3.ByteLiteral.C13_scan_hex",
    "C3.ByteLiteral.C13_scan_hex_complete",
    "C3.ByteLiteral.C13_scan_base64",
    "C3.ByteLiteral.C13_scan_base64_complete",
    "C3.ByteLiteral.C13_bytes_partial",
    "C3.ByteLiteral.C13_uninitialised",
    "C3.ByteLiteral.C13_overread"
   ],
   "note": "scanner complete and sound; bytes proved for hex literals and a leading base64 literal; the two remaining cases are proved wrong for every instance (C13_uninitialised, C13_overread)"
  },
  {
   "property": "C14",
   "status": "partial",
   "theorems": [
    "C3.Lexer.C14_tokens_partial",
    "C3.Lexer.C14_open_raw",
    "C3.Lexer.C14_open_char",
    "C3.Lexer.C14_hex_overrun"
   ],
   "note": "Proved for all texts: either the text is tiled by tokens and gaps, or an error is reported, or the text has a character literal or raw string that is never closed or a byte outside ASCII among the digits of a hex escape (C14_tokens_partial). Missing because false: in these three cases the lexer reads outside the text or its table (C14_open_raw, C14_open_char, C14_hex_overrun)."
  },
  {
   "property": "C15",
   "status": "proved",
   "theorems": [
    "C3.Lexer.C15_closed",
    "C3.Lexer.C15_unique",
    "C3.Lexer.C15_open"
   ],
   "note": "Closed comments of any nesting (C15_closed), uniqueness of their end (C15_unique), unterminated ones (C15_open)."
  },
  {
   "property": "C16",
   "status": "proved",
   "theorems": [
    "C3.Lexer.C16_name",
    "C3.Lexer.C16_prefixed",
    "C3.Lexer.C16_rejected",
    "C3.Lexer.C16_underscore"
   ],
   "note": "Names without and with prefix, rejection, the single underscore; for any set of keywords."
  },
  {
   "property": "C17",
   "status": "partial",
   "theorems": [
    "C3.Lexer.C17_string_partial",
    "C3.Lexer.C17_accepted",
    "C3.Lexer.C17_byte_escape",
    "C3.Lexer.C17_no_scalar_check",
    "C3.Lexer.C17_escapes_collide",
    "C3.Lexer.C17_raw_string"
   ],
   "note": "Proved for all string literals whose \\x escapes are below 80 hex (C17_string_partial), all raw strings (C17_raw_string), and conversely for everything accepted (C17_accepted). Missing because false: \\x80 to \\xff become two bytes (C17_byte_escape); escapes for surrogates and above 10ffff are accepted (C17_no_scalar_check, C17_escapes_collide)."
  },
  {
   "property": "C18",
   "status": "partial",
   "theorems": [
    "C3.Symtab.C18_history_partial",
    "C3.Symtab.C18_same_symbol_partial",
    "C3.Symtab.C18_stable_partial",
    "C3.Symtab.C18_find_partial",
    "C3.Symtab.C18_long",
    "C3.Symtab.C18_confused"
   ],
   "note": "full for texts below 65536 bytes, any hash function; false for longer ones (C18_long, C18_confused)"
  },
  {
   "property": "C19",
   "status": "proved",
   "theorems": [
    "C3.Tables.C19_stable",
    "C3.Tables.C19_stable_init",
    "C3.Tables.C19_htable",
    "C3.Tables.C19_decltable"
   ],
   "note": "STable, HTable and DeclTable; the bound 2^28 on the history keeps the table below MAX_HASH_SIZE, beyond which the code stops with a fatal error"
  },
  {
   "property": "C20",
   "status": "partial",
   "theorems": [
    "C3.Vec.C20_history",
    "C3.Vec.C20_reserved_partial",
    "C3.Vec.C20_zero_capacity",
    "C3.Vec.C20_resize_beyond"
   ],
   "note": "full from NULL and from VECNEW with a capacity other than 0; false from VECNEW(T, 0) (C20_zero_capacity); vec_resize is taken as truncation, C20_resize_beyond shows what happens otherwise"
  },
  {
   "property": "C21",
   "status": "partial",
   "theorems": [
    "C3.Json.C21_parse_partial",
    "C3.Json.C21_total",
    "C3.Json.C21_overread",
    "C3.Json.C21_negative",
    "C3.Json.C21_exponent",
    "C3.Json.C21_unicode",
    "C3.Json.C21_trailing",
    "C3.Json.C21_lookup",
    "C3.Json.C21_set",
    "C3.Json.C21_set_duplicates"
   ],
   "note": "Proved for all values, nesting and white space, without signs, exponents and \\u beyond ASCII, which the code reads wrongly or refuses (proved: C21_negative, C21_exponent, C21_unicode); lookups find the first member for a key, not the last (C21_lookup). Termination and memory safety: C21_total, but for a \\u at the end of the file (C21_overread). Rounding to double is not modelled."
  },
  {
   "property": "C22",
   "status": "partial",
   "theorems": [
    "C3.TaskQueue.C22_exactly_once",
    "C3.TaskQueue.C22_never_twice",
    "C3.TaskQueue.C22_exclusive",
    "C3.TaskQueue.C22_no_deadlock",
    "C3.TaskQueue.C22_terminates",
    "C3.TaskQueue.C22_windows_partial",
    "C3.TaskQueue.C22_windows_many"
   ],
   "note": "full for the pthread version: exactly once, no deadlock, bounded schedules, mutual exclusion; the Windows version for at most 64 threads, for more it is false (C22_windows_many)"
  },
  {
   "property": "C23",
   "status": "partial",
   "theorems": [
    "C3.Arena.C23_arena_partial",
    "C3.Arena.C23_strings_partial",
    "C3.Arena.C23_ids",
    "C3.Arena.C23_zero_block",
    "C3.Arena.C23_overlap"
   ],
   "note": "full for requests up to 2^63 bytes, incl. the 32-bit ids; false for requests close to 2^64 bytes (C23_zero_block, C23_overlap)"
  },
  {
   "property": "C24",
   "status": "partial",
   "theorems": [
    "C3.Layout.C24_struct_partial",
    "C3.Layout.C24_struct_exists",
    "C3.Layout.C24_members_partial",
    "C3.Layout.C24_accepted_partial",
    "C3.Layout.C24_nopadding",
    "C3.Layout.C24_union",
    "C3.Layout.C24_llvm_struct_partial",
    "C3.Layout.C24_llvm_union_partial",
    "C3.Layout.C24_plain_partial",
    "C3.Layout.C24_plain_members_partial",
    "C3.Layout.C24_packed_align_asserts",
    "C3.Layout.C24_union_truncated",
    "C3.Layout.C24_struct_truncated",
    "C3.Layout.C24_packed_member_moved",
    "C3.Layout.C24_packed_nested_moved",
    "C3.Layout.C24_union_member_moved",
    "C3.Layout.C24_packed_size",
    "C3.Layout.C24_offsets_wrap",
    "C3.Layout.C24_union_packed_given",
    "C3.Layout.C24_compact_array"
   ],
   "note": "Proved for all member lists and attributes as long as the layout fits in 32 bits (C24_struct_partial, C24_members_partial, C24_nopadding, C24_union). That LLVM types agree is proved for members whose LLVM alignment is the natural one and padding below 64 kB, and for all types without attributes. Missing because false: packed structs as members (C24_packed_member_moved, C24_packed_nested_moved, C24_packed_size), unions with members aligned by attribute (C24_union_member_moved), large padding (C24_union_truncated, C24_struct_truncated), wrapping offsets (C24_offsets_wrap), an assertion that fails (C24_packed_align_asserts), alignment of members of packed unions (C24_union_packed_given), @compact with arrays (C24_compact_array)."
  },
  {
   "property": "C25",
   "status": "partial",
   "theorems": [
    "C3.Casts.C25_leaves_partial",
    "C3.Casts.C25_narrow_partial",
    "C3.Casts.C25_widen_partial",
    "C3.Casts.C25_same_size",
    "C3.Casts.C25_const",
    "C3.Casts.C25_sign",
    "C3.Casts.C25_const_widen",
    "C3.Casts.C25_carry",
    "C3.Casts.C25_len",
    "C3.Casts.C25_plus",
    "C3.Casts.C25_division"
   ],
   "note": "Proved for all expressions: narrowing is accepted exactly if all leaves and constants fit (C25_leaves_partial, without slice lengths) and gives the exact value reduced to the target (C25_narrow_partial, if operands of / % >> have not wrapped); widening is exact (C25_widen_partial, without +e, e!! and lists, which the code does not look into); same size (C25_same_size); constants (C25_const). Information is lost without a cast in the cases proved as C25_sign, C25_const_widen, C25_carry, C25_len, C25_plus, C25_division."
  },
  {
   "property": "C26",
   "status": "partial",
   "theorems": [
    "C3.Pratt.C26_grammar_partial",
    "C3.Pratt.C26_table",
    "C3.Pratt.C26_constant",
    "C3.Pratt.C26_unambiguous",
    "C3.Pratt.C26_roundtrip",
    "C3.Pratt.C26_concat",
    "C3.Pratt.C26_open_length"
   ],
   "note": "full against the rule table (C26_table, C26_roundtrip, C26_unambiguous); against grammar.y for texts without +++ ; false for +++ (C26_concat) and for ranges e[i:] (C26_open_length)"
  },
  {
   "property": "C27",
   "status": "partial",
   "theorems": [
    "C3.ConstCompare.C27_equality_partial",
    "C3.ConstCompare.C27_order",
    "C3.ConstCompare.C27_nan",
    "C3.ConstCompare.C27_range",
    "C3.ConstCompare.C27_fault_inequality",
    "C3.ConstCompare.C27_string_nul"
   ],
   "note": "all comparable kinds but faults, and strings without zero bytes on the left; false for faults (C27_fault_inequality) and strings with zero bytes (C27_string_nul); ordering, NaN and ranges in C27_order, C27_nan, C27_range"
  },
  {
   "property": "C28",
   "status": "partial",
   "theorems": [
    "C3.Switch.C28_check_sound_partial",
    "C3.Switch.C28_check_complete",
    "C3.Switch.C28_check_defined",
    "C3.Switch.C28_exhaustive",
    "C3.Switch.C28_exhaustive_complete",
    "C3.Switch.C28_target_unique",
    "C3.Switch.C28_dispatch_partial",
    "C3.Switch.C28_dispatch_jump_partial",
    "C3.Switch.C28_nextcase",
    "C3.Switch.C28_overlap_accepted",
    "C3.Switch.C28_overlap_jump",
    "C3.Switch.C28_not_exhaustive",
    "C3.Switch.C28_exhaustive_rejected",
    "C3.Switch.C28_inverted_accepted",
    "C3.Switch.C28_default_fallthrough",
    "C3.Switch.C28_jump_fallthrough",
    "C3.Switch.C28_jump_wraps"
   ],
   "note": "disjoint accepted switches dispatch correctly as LLVM switch, chain or jump table (side conditions in the theorems); disjoint switches are accepted; enum switches accepted are exhaustive; false in general: overlaps are only detected when the later case starts inside an earlier one (C28_overlap_accepted), and further cases C28_*"
  },
  {
   "property": "C29",
   "status": "partial",
   "theorems": [
    "C3.Liveness.C29_sound",
    "C3.Liveness.C29_live_partial",
    "C3.Liveness.C29_cleanup_untraced"
   ],
   "note": "tracing ends on every analysed program, roots are live, everything live is used; everything used is live if at most one statement is to be run at each return: only the first of these is traced (C29_cleanup_untraced; in practice the deferred statement is traced where it is written). Used is defined by the parts of each construct; whether the code generator needs more is not modelled"
  },
  {
   "property": "C30",
   "status": "partial",
   "theorems": [
    "C3.Lexer.C30_isolates_partial",
    "C3.Lexer.C30_embedding",
    "C3.Lexer.C30_mixed",
    "C3.Lexer.C30_plain"
   ],
   "note": "Proved for texts with isolates only (C30_isolates_partial). Missing because false: every text with a closed embedding is rejected (C30_embedding), an embedding closed as an isolate is accepted (C30_mixed)."
  },
  {
   "property": "C31",
   "status": "proved",
   "theorems": [
    "C3.Base64.C31_alphabets",
    "C3.Base64.C31_encode",
    "C3.Base64.C31_decode",
    "C3.Base64.C31_roundtrip",
    "C3.Base64.C31_api"
   ],
   "note": "exact acceptance and round trip for every valid alphabet; both built-in alphabets are checked to be valid"
  },
  {
   "property": "C32",
   "status": "partial",
   "theorems": [
    "C3.Base32.C32_alphabets",
    "C3.Base32.C32_encode",
    "C3.Base32.C32_decode_partial",
    "C3.Base32.C32_large_buffer",
    "C3.Base32.C32_decode_sound",
    "C3.Base32.C32_safe_partial",
    "C3.Base32.C32_out_of_bounds",
    "C3.Base32.C32_garbage",
    "C3.Base32.C32_roundtrip_partial",
    "C3.Base32.C32_api"
   ],
   "note": "encoder full; decoder: round trip through the allocating API full (C32_api); decode_buffer rejects valid padded text in buffers larger than needed (C32_large_buffer), can write out of bounds (C32_out_of_bounds) and accepts garbage (C32_garbage)"
  },
  {
   "property": "C33",
   "status": "proved",
   "theorems": [
    "C3.Hex.C33_encode",
    "C3.Hex.C33_decode",
    "C3.Hex.C33_roundtrip",
    "C3.Hex.C33_api"
   ],
   "note": ""
  },
  {
   "property": "C34",
   "status": "partial",
   "theorems": [
    "C3.Utf.C34_from_utf32",
    "C3.Utf.C34_utf32to8",
    "C3.Utf.C34_utf32_lengths",
    "C3.Utf.C34_to_utf32",
    "C3.Utf.C34_roundtrip",
    "C3.Utf.C34_utf8to32",
    "C3.Utf.C34_iterator",
    "C3.Utf.C34_peek",
    "C3.Utf.C34_decode_partial",
    "C3.Utf.C34_overlong",
    "C3.Utf.C34_not_scalar",
    "C3.Utf.C34_to_utf16",
    "C3.Utf.C34_to_utf16_garbage",
    "C3.Utf.C34_from_utf16_garbage",
    "C3.Utf.C34_from_utf16_partial",
    "C3.Utf.C34_utf16_accepts",
    "C3.Utf.C34_memory_safe"
   ],
   "note": "all conversions exact on well-formed text except from_utf16 above 0xFFFF (trailing uninitialised bytes, C34_from_utf16_garbage); the decoder's accepted language is characterised exactly and is larger than UTF-8 (C34_overlong, C34_not_scalar)"
  },
  {
   "property": "C35",
   "status": "proved",
   "theorems": [
    "C3.DynList.C35_history",
    "C3.DynList.C35_init",
    "C3.DynList.C35_add_all_self"
   ],
   "note": "28 operations of List; the bound says the allocation fits in the address space. add_all of a list to itself is outside the claim and writes out of bounds (C35_add_all_self)"
  },
  {
   "property": "C36",
   "status": "partial",
   "theorems": [
    "C3.Ring.C36_history_partial",
    "C3.Ring.C36_full_reached",
    "C3.Ring.C36_pop_full",
    "C3.Ring.C36_pop_full_wrap",
    "C3.Ring.C36_read_not_full",
    "C3.Ring.C36_read_full_iff",
    "C3.Ring.C36_read_partial"
   ],
   "note": "push, write, get full; pop and read proved except on full buffers, where pop does not remove (C36_pop_full), can return the wrong element (C36_pop_full_wrap) and read is wrong exactly as C36_read_full_iff says"
  },
  {
   "property": "C37",
   "status": "partial",
   "theorems": [
    "C3.PQueue.C37_history_partial",
    "C3.PQueue.C37_total",
    "C3.PQueue.C37_remove_at"
   ],
   "note": "full except remove_at at an index other than 0, for which the claim is false (C37_remove_at)"
  },
  {
   "property": "C38",
   "status": "proved",
   "theorems": [
    "C3.Sort.C38_qsort_range",
    "C3.Sort.C38_quicksort"
   ],
   "note": ""
  },
  {
   "property": "C39",
   "status": "partial",
   "theorems": [
    "C3.Sort.C39_rank_partial",
    "C3.Sort.C39_single",
    "C3.Sort.C39_gives_up"
   ],
   "note": "every returned element has rank k; always found for 2..64 elements; NOT_FOUND for one-element lists and for rank >= 64 of sorted lists is proved (C39_single, C39_gives_up)"
  },
  {
   "property": "C40",
   "status": "proved",
   "theorems": [
    "C3.Sort.C40_isort_range",
    "C3.Sort.C40_insertionsort"
   ],
   "note": ""
  },
  {
   "property": "C41",
   "status": "proved",
   "theorems": [
    "C3.Sort.C41_binarysearch",
    "C3.Sort.C41_found"
   ],
   "note": ""
  },
  {
   "property": "C42",
   "status": "partial",
   "theorems": [
    "C3.Sort.C42_is_sorted_partial",
    "C3.Sort.C42_overflow"
   ],
   "note": "full for comparison results up to 46340 in magnitude; C42_overflow proves the wrong answer for larger ones"
  },
  {
   "property": "C43",
   "status": "proved",
   "theorems": [
    "C3.Lexer.C43_clean"
   ],
   "note": "All files."
  },
  {
   "property": "C44",
   "status": "proved",
   "theorems": [
    "C3.Lexer.C44_bytes",
    "C3.Lexer.C44_too_long",
    "C3.Lexer.C44_unicode_escape",
    "C3.Lexer.C44_utf8",
    "C3.Lexer.C44_overlong"
   ],
   "note": "Bytes and escapes (C44_bytes, C44_too_long), \\u and \\U (C44_unicode_escape), UTF-8 (C44_utf8); overlong encodings are accepted (C44_overlong)."
  },
  {
   "property": "C45",
   "status": "proved",
   "theorems": [
    "C3.Lexer.C45_longest",
    "C3.Lexer.C45_close",
    "C3.Lexer.C45_open"
   ],
   "note": "The table of operators is in the specification."
  },
  {
   "property": "C46",
   "status": "proved",
   "theorems": [
    "C3.Lexer.C46_locations"
   ],
   "note": "All tokens of all texts that lex without leaving the text. Locations of error messages are not claimed."
  },
  {
   "property": "C47",
   "status": "partial",
   "theorems": [
    "C3.Json.C47_roundtrip_partial",
    "C3.Json.C47_null",
    "C3.Json.C47_null_member",
    "C3.Json.C47_backslash",
    "C3.Json.C47_escape"
   ],
   "note": "Proved for all values without null, with strings and keys that need no escape and numbers %f writes exactly; for the others the code faults or writes a different value (proved: C47_null, C47_null_member, C47_backslash, C47_escape)."
  },
  {
   "property": "C48",
   "status": "partial",
   "theorems": [
    "C3.Casts.C48_fold_partial",
    "C3.Casts.C48_constant_partial",
    "C3.Casts.C48_accepts_partial",
    "C3.Casts.C48_zero_divisor",
    "C3.Casts.C48_neg_rem",
    "C3.Casts.C48_shift_cut",
    "C3.Casts.C48_dead_branch"
   ],
   "note": "Proved for all expressions and executions: folding keeps type and value (C48_fold_partial), constants become one fitting literal (C48_constant_partial), nothing defined is refused (C48_accepts_partial), a constant zero divisor always is (C48_zero_divisor). Left out are constant remainders by negative constants, where the claim fails (C48_neg_rem); refusals that the run time does not make are C48_shift_cut and C48_dead_branch."
  },
  {
   "property": "C49",
   "status": "partial",
   "theorems": [
    "C3.Json.C49_sound_partial",
    "C3.Json.C49_refused",
    "C3.Json.C49_nothing",
    "C3.Json.C49_numbers",
    "C3.Json.C49_control"
   ],
   "note": "Proved for all texts: what is read is a text of the grammar for exactly that value (C49_sound_partial), everything else is refused (C49_refused). The grammar is larger than JSON: numbers without digits or with a sign that is dropped (C49_numbers), empty files (C49_nothing), control characters in strings (C49_control), anything after the value (C21_trailing)."
  },
  {
   "property": "C50",
   "status": "proved",
   "theorems": [
    "C3.Url.C50_encode",
    "C3.Url.C50_alphabet",
    "C3.Url.C50_decode",
    "C3.Url.C50_roundtrip",
    "C3.Url.C50_modes"
   ],
   "note": "Proved for all byte strings and modes: exact encoded text and length, alphabet, exact decoding and refusal, round trip, and decoding in a different mode."
  },
  {
   "property": "C51",
   "status": "proved",
   "theorems": [
    "C3.Str.C51_char",
    "C3.Str.C51_chars",
    "C3.Str.C51_index_of",
    "C3.Str.C51_rindex_of",
    "C3.Str.C51_contains",
    "C3.Str.C51_affixes",
    "C3.Str.C51_trim"
   ],
   "note": "Proved for all strings over any alphabet, needles not empty as the contracts demand."
  },
  {
   "property": "C52",
   "status": "partial",
   "theorems": [
    "C3.Str.C52_split",
    "C3.Str.C52_unique",
    "C3.Str.C52_join",
    "C3.Str.C52_max",
    "C3.Str.C52_tokenize",
    "C3.Str.C52_splitter_partial",
    "C3.Str.C52_trailing",
    "C3.Str.C52_ensure"
   ],
   "note": "split and join are proved for all strings, delimiters and limits; the Splitter yields the pieces of split except an empty last one (C52_trailing proves it is lost), and split with skip_empty breaks its @ensure (C52_ensure)."
  },
  {
   "property": "C53",
   "status": "partial",
   "theorems": [
    "C3.Str.C53_accepts",
    "C3.Str.C53_sound_partial",
    "C3.Str.C53_negative",
    "C3.Str.C53_overflow_partial",
    "C3.Str.C53_colon",
    "C3.Str.C53_wraps"
   ],
   "note": "Every text of a value of the type is read as that value; what is read is right modulo 2^bits. Refusal is proved up to 2^bits + 2^bits/base (unsigned) and 2^bits (signed); beyond it fails (C53_wraps). In base 16 `:;<=>?` are digits (C53_colon)."
  },
  {
   "property": "C54",
   "status": "partial",
   "theorems": [
    "C3.HashMap.C54_run",
    "C3.HashMap.C54_run_zero",
    "C3.HashMap.C54_each",
    "C3.HashMap.C54_iter",
    "C3.HashMap.C54_no_leak",
    "C3.HashMap.C54_free",
    "C3.HashMap.C54_set_after_free",
    "C3.HashMap.C54_copy",
    "C3.HashMap.C54_dictionary_laws"
   ],
   "note": "Proved for every lawful key type, load factor, capacity, allocator and sequence of fewer than 2^32 operations, from an initialized map or an all-zero one. After free the map cannot be used again (C54_set_after_free proves the fault)."
  },
  {
   "property": "C55",
   "status": "partial",
   "theorems": [
    "C3.Flow.C55_defers_partial",
    "C3.Flow.C55_defer_body_partial",
    "C3.Flow.C55_labelled_constant_if"
   ],
   "note": "Proved for every accepted function without an `if` that has both a label and a constant condition; for these C55_labelled_constant_if proves that deferred statements and the rest of the scope are lost."
  },
  {
   "property": "C56",
   "status": "partial",
   "theorems": [
    "C3.Flow.C56_no_missing_return_partial",
    "C3.Flow.C56_labelled_constant_if"
   ],
   "note": "Proved for the same functions; C56_labelled_constant_if proves that a function with a result may reach its end otherwise."
  },
  {
   "property": "C57",
   "status": "partial",
   "theorems": [
    "C3.Flow.C57_returns_partial",
    "C3.Flow.C57_effects_partial",
    "C3.Flow.C57_never_stuck_partial",
    "C3.Flow.C57_while_false"
   ],
   "note": "Proved for every accepted function without macros, without an `if` that has both a label and a constant condition, and without a loop whose condition is the constant `false`, provided emission succeeds; C57_while_false proves that the body of a `while (false)` runs once."
  },
  {
   "property": "C58",
   "status": "partial",
   "theorems": [
    "C3.ConstInit.C58_content_partial",
    "C3.ConstInit.C58_accepted_partial",
    "C3.ConstInit.C58_rejected_partial",
    "C3.ConstInit.C58_blank_member_clears",
    "C3.ConstInit.C58_range_shares",
    "C3.ConstInit.C58_range_too_long",
    "C3.ConstInit.C58_index_after_list"
   ],
   "note": "Proved for every accepted initializer in which nothing blank is stored in a member of a struct by its last step, only scalars are stored in ranges of more than one element, and ranges end inside the array; for each of the three forms there is a theorem that it fails. C58_accepted_partial: initializers of the right form are accepted if no designator leads into an array that was given by a list; C58_index_after_list: then the stores confuse the kinds of nodes. C58_rejected_partial: the others are not accepted."
  },
  {
   "property": "C59",
   "status": "partial",
   "theorems": [
    "C3.Bitstruct.C59_read_partial",
    "C3.Bitstruct.C59_assign_partial",
    "C3.Bitstruct.C59_read_after_assign_partial",
    "C3.Bitstruct.C59_others_partial",
    "C3.Bitstruct.C59_init_partial",
    "C3.Bitstruct.C59_init_rest_partial",
    "C3.Bitstruct.C59_const_partial",
    "C3.Bitstruct.C59_const_overlap",
    "C3.Bitstruct.C59_increment_value",
    "C3.Bitstruct.C59_nested_order",
    "C3.Bitstruct.C59_nested_wrong",
    "C3.Bitstruct.C59_char_with_order"
   ],
   "note": "Reads, assignments and initializers in full for members that are accepted; byte order attributes on containers of one byte make the compiler fail (C59_char_with_order). Constants for members with no bits in common (C59_const_overlap). Fails: the value of ++x.a (C59_increment_value), members of nested bitstructs in designated initializers (C59_nested_wrong)."
  },
  {
   "property": "C60",
   "status": "partial",
   "theorems": [
    "C3.Bitstruct.C60_read_partial",
    "C3.Bitstruct.C60_assign_partial",
    "C3.Bitstruct.C60_read_after_assign_partial",
    "C3.Bitstruct.C60_others_partial",
    "C3.Bitstruct.C60_const_partial",
    "C3.Bitstruct.C60_init_partial",
    "C3.Bitstruct.C60_assign_loses",
    "C3.Bitstruct.C60_assign_wrong",
    "C3.Bitstruct.C60_assign_clears",
    "C3.Bitstruct.C60_others_wrong",
    "C3.Bitstruct.C60_init_differs",
    "C3.Bitstruct.C60_elements",
    "C3.Bitstruct.C60_big_platform",
    "C3.Bitstruct.C60_big_platform_wrong",
    "C3.Bitstruct.C60_width"
   ],
   "note": "Reads and constants for arrays of bytes and all accepted members, if swapped ones have a width that is a power of two (C60_width). Assignments only for members that end with a byte, are bool, or inside of the first byte: in general they lose bits (C60_assign_loses) or clear those of others (C60_assign_clears), both proved for all such members. Also wrong: arrays of wider elements (C60_elements), big endian platforms with an attribute (C60_big_platform)."
  },
  {
   "property": "C61",
   "status": "partial",
   "theorems": [
    "C3.Bitstruct.C61_binary_int_partial",
    "C3.Bitstruct.C61_binary_array_partial",
    "C3.Bitstruct.C61_not_int_partial",
    "C3.Bitstruct.C61_not_array_partial",
    "C3.Bitstruct.C61_not_code",
    "C3.Bitstruct.C61_not_wrong",
    "C3.Bitstruct.C61_binary_overlap"
   ],
   "note": "& | ^ in full for members with no bits in common (C61_binary_overlap: others). ~ for bool and for all bits but the top one of each integer member, which is always zero in the constant: C61_not_wrong."
  },
  {
   "property": "C62",
   "status": "proved",
   "theorems": [
    "C3.Bitstruct.C62_accepted",
    "C3.Bitstruct.C62_ok"
   ],
   "note": "Both directions; the end of a range is taken as analysed (the code analyses the start twice)."
  },
  {
   "property": "C63",
   "status": "proved",
   "theorems": [
    "C3.NameRes.C63_subpath",
    "C3.NameRes.C63_parent",
    "C3.NameRes.C63_hierarchy",
    "C3.NameRes.C63_inclusion",
    "C3.NameRes.C63_visible",
    "C3.NameRes.C63_tables"
   ],
   "note": "C63_hierarchy shows that the passes over the modules establish what the other theorems assume about parents and top modules."
  },
  {
   "property": "C64",
   "status": "proved",
   "theorems": [
    "C3.NameRes.C64_sound",
    "C3.NameRes.C64_private",
    "C3.NameRes.C64_ambiguous"
   ],
   "note": "Assumes that all declarations were registered without an error, and that imports are each of another module, once, which the import pass reports otherwise."
  },
  {
   "property": "C65",
   "status": "partial",
   "theorems": [
    "C3.NameRes.C65_found",
    "C3.NameRes.C65_only",
    "C3.NameRes.C65_std"
   ],
   "note": "Proved for every path but `std`; C65_std shows that nothing is found with that one, even what a file declares in `module std`."
  },
  {
   "property": "C66",
   "status": "partial",
   "theorems": [
    "C3.NameRes.C66_local",
    "C3.NameRes.C66_rules_partial",
    "C3.NameRes.C66_order_partial",
    "C3.NameRes.C66_public_imports_order",
    "C3.NameRes.C66_public_imports_path",
    "C3.NameRes.C66_weak_order"
   ],
   "note": "Proved for names that are not weak aliases, in files without @public imports. C66_weak_order, C66_public_imports_order and C66_public_imports_path show that otherwise the outcome depends on the order of modules and imports."
  },
  {
   "property": "C67",
   "status": "partial",
   "theorems": [
    "C3.Mangle.C67_typeid_partial",
    "C3.Mangle.C67_local_types",
    "C3.Mangle.C67_function_types",
    "C3.Mangle.C67_variadic_types",
    "C3.Mangle.C67_slice_or_pointer",
    "C3.Mangle.C67_extern_types",
    "C3.Mangle.C67_export_types",
    "C3.Mangle.C67_nested_types"
   ],
   "note": "Proved for the types of Ty.Good. The other C67 theorems prove that the claim fails for @local types of one name, function types, @extern and @export types, and for types of generic modules named like a code."
  },
  {
   "property": "C68",
   "status": "partial",
   "theorems": [
    "C3.Mangle.C68_same",
    "C3.Mangle.C68_instances_partial",
    "C3.Mangle.C68_local_types",
    "C3.Mangle.C68_module_paths",
    "C3.Mangle.C68_faults",
    "C3.Mangle.C68_enums",
    "C3.Mangle.C68_integers",
    "C3.Mangle.C68_function_types"
   ],
   "note": "C68_same is unconditional. That different arguments get different instances is proved for the arguments of Arg.Good; the other C68 theorems prove that it fails for @local types of one name, paths with '_', faults, enums with '_', integers of different types and function types."
  },
  {
   "property": "C69",
   "status": "partial",
   "theorems": [
    "C3.Mangle.C69_symbols_partial",
    "C3.Mangle.C69_exported",
    "C3.Mangle.C69_slice_methods"
   ],
   "note": "Proved for declarations without @extern and @export which are no methods of arrays, slices, vectors or pointers. C69_exported and C69_slice_methods prove that it fails otherwise. Private methods which two modules add to one type have one symbol, but internal linkage; linkage is not modelled."
  },
  {
   "property": "C70",
   "status": "partial",
   "theorems": [
    "C3.StdMem.C70_sound_partial",
    "C3.StdMem.C70_keeps_partial",
    "C3.StdMem.C70_stops",
    "C3.StdMem.C70_reset",
    "C3.StdMem.C70_move_copies_old_size",
    "C3.StdMem.C70_writes_outside",
    "C3.StdMem.C70_full_arena_stops"
   ],
   "note": "Proved for programs that do not make a block smaller by a resize which moves it (C70_sound_partial, C70_keeps_partial). C70_writes_outside proves that the full claim fails; C70_full_arena_stops shows where a full arena stops the program."
  },
  {
   "property": "C71",
   "status": "partial",
   "theorems": [
    "C3.StdMem.C71_sound_partial",
    "C3.StdMem.C71_keeps_partial",
    "C3.StdMem.C71_refused",
    "C3.StdMem.C71_no_loss",
    "C3.StdMem.C71_huge_as_zero",
    "C3.StdMem.C71_huge_unsound",
    "C3.StdMem.C71_huge_fails"
   ],
   "note": "Proved for all programs which ask for less than 2^63 bytes at a time. C71_huge_fails proves that the full claim fails: the last fifteen sizes are taken as 0."
  },
  {
   "property": "C72",
   "status": "partial",
   "theorems": [
    "C3.StdMem.C72_acquire_partial",
    "C3.StdMem.C72_acquire_memory_partial",
    "C3.StdMem.C72_page_iff",
    "C3.StdMem.C72_huge",
    "C3.StdMem.C72_resize_alignment",
    "C3.StdMem.C72_resize_copies_old_size",
    "C3.StdMem.C72_resize_partial",
    "C3.StdMem.C72_page_too_small",
    "C3.StdMem.C72_fails"
   ],
   "note": "Per call: the block is where it should be unless it gets its own page with an alignment above 16 (C72_page_iff says exactly when that goes wrong) or has a size near 2^64. C72_fails proves that the full claim fails. Scopes of the temp allocator and the freeing of pages are not modelled."
  },
  {
   "property": "C73",
   "status": "partial",
   "theorems": [
    "C3.StdMem.C73_sound_partial",
    "C3.StdMem.C73_keeps_partial",
    "C3.StdMem.C73_grow_overlaps",
    "C3.StdMem.C73_release_reuses",
    "C3.StdMem.C73_shrink_reuses",
    "C3.StdMem.C73_move_copies_old_size",
    "C3.StdMem.C73_fails"
   ],
   "note": "Proved for programs that do not release or resize a block which the current page wrongly takes for its last one, do not shrink that block, and do not shrink by moving (Dyn.Fine). C73_fails proves that the full claim fails. reset and free are not part of the programs."
  },
  {
   "property": "C74",
   "status": "partial",
   "theorems": [
    "C3.StdMem.C74_sound_partial",
    "C3.StdMem.C74_keeps_partial",
    "C3.StdMem.C74_backing",
    "C3.StdMem.C74_zero_ignored",
    "C3.StdMem.C74_resize_copies_old_size",
    "C3.StdMem.C74_huge",
    "C3.StdMem.C74_fails"
   ],
   "note": "Proved for the memory on the stack and programs that do not shrink blocks nor ask for zero blocks; C74_backing covers what does not fit, for any backing allocator. C74_fails proves that the full claim fails."
  },
  {
   "property": "C75",
   "status": "proved",
   "theorems": [
    "C3.I128Rt.C75_unsigned",
    "C3.I128Rt.C75_signed",
    "C3.I128Rt.C75_signed_exact"
   ],
   "note": "Unsigned and signed quotient and remainder for all operands; a zero divisor always traps. C75_signed_exact: the only quotient that does not fit is min / -1."
  },
  {
   "property": "C76",
   "status": "proved",
   "theorems": [
    "C3.I128Rt.C76_product"
   ],
   "note": "Both readings, with and without sign."
  },
  {
   "property": "C77",
   "status": "partial",
   "theorems": [
    "C3.I128Rt.C77_shift_right_unsigned",
    "C3.I128Rt.C77_shift_left_partial",
    "C3.I128Rt.C77_shift_left_fails",
    "C3.I128Rt.C77_shift_right_signed_partial",
    "C3.I128Rt.C77_shift_right_signed_fails"
   ],
   "note": "Proved for unsigned right shifts, left shifts by less than 64 and signed right shifts of numbers that are not negative. C77_shift_left_fails and C77_shift_right_signed_fails prove that the code is wrong for all other operands: left shifts by 64 or more give 0, and right shifts of negative numbers give numbers that are not negative."
  },
  {
   "property": "C78",
   "status": "partial",
   "theorems": [
    "C3.I128Rt.C78_unsigned",
    "C3.I128Rt.C78_signed_partial",
    "C3.I128Rt.C78_zero",
    "C3.I128Rt.C78_signed_fails"
   ],
   "note": "Proved for all unsigned numbers and all signed ones but the smallest. C78_signed_fails proves that the smallest int128 is converted to the wrong number."
  },
  {
   "property": "C79",
   "status": "partial",
   "theorems": [
    "C3.I128Rt.C79_unsigned",
    "C3.I128Rt.C79_signed_partial",
    "C3.I128Rt.C79_signed_fails"
   ],
   "note": "Proved for casts to uint128, and for casts to int128 of all numbers in range and of all numbers of magnitude 2^128 and more. C79_signed_fails proves that those between come out with the wrong sign."
  },
  {
   "property": "C80",
   "status": "proved",
   "theorems": [
    "C3.BigNum.C80_add",
    "C3.BigNum.C80_sub",
    "C3.BigNum.C80_negate",
    "C3.BigNum.C80_abs",
    "C3.BigNum.C80_compare",
    "C3.BigNum.C80_unique",
    "C3.BigNum.C80_tests"
   ],
   "note": "Addition, subtraction, negation and absolute value give the exact result, or stop if there is no room; comparisons and tests; one form per integer."
  },
  {
   "property": "C81",
   "status": "proved",
   "theorems": [
    "C3.BigNum.C81_init",
    "C3.BigNum.C81_u128",
    "C3.BigNum.C81_array"
   ],
   "note": "From int128, uint128 and arrays of words."
  },
  {
   "property": "C82",
   "status": "partial",
   "theorems": [
    "C3.BigNum.C82_mult",
    "C3.BigNum.C82_overflow",
    "C3.BigNum.C82_fails"
   ],
   "note": "C82_mult says exactly which products are made, and that those made are right; C82_overflow that none is made without room. C82_fails proves that the code stops at products that have room: those by the smallest number, and those that are the smallest number."
  },
  {
   "property": "C83",
   "status": "proved",
   "theorems": [
    "C3.BigNum.C83_bits",
    "C3.BigNum.C83_negate"
   ],
   "note": "And, or, xor and complement are those of the infinite two's complement."
  },
  {
   "property": "C84",
   "status": "partial",
   "theorems": [
    "C3.BigNum.C84_div_partial",
    "C3.BigNum.C84_stops",
    "C3.BigNum.C84_same_bits",
    "C3.BigNum.C84_fails"
   ],
   "note": "Right for divisors of one word, and if the dividend is smaller than the divisor; division by zero stops. C84_same_bits and C84_fails prove that the quotient of two numbers of more than one word with equally many bits is 0 and the remainder the dividend. What the code gives for other divisors of more than one word is modelled but nothing is proved of it."
  },
  {
   "property": "C85",
   "status": "partial",
   "theorems": [
    "C3.BigNum.C85_shl_words",
    "C3.BigNum.C85_shl_partial",
    "C3.BigNum.C85_shl_loses",
    "C3.BigNum.C85_shl_32",
    "C3.BigNum.C85_shr_same",
    "C3.BigNum.C85_shr_wrong",
    "C3.BigNum.C85_fails"
   ],
   "note": "Left shifts are right while the number stays in the words in use. C85_shl_loses, C85_shl_32 and C85_shr_wrong prove that all other left shifts of positive numbers are wrong, and all right shifts of numbers but 0 and -1."
  },
  {
   "property": "C86",
   "status": "partial",
   "theorems": [
    "C3.BigNum.C86_gcd_partial",
    "C3.BigNum.C86_lcm_partial",
    "C3.BigNum.C86_gcd_runs",
    "C3.BigNum.C86_gcd_none"
   ],
   "note": "Right if one of the numbers has one word. C86_gcd_runs proves that gcd does not return for numbers of more than one word with equally many bits, such as gcd(x, x)."
  },
  {
   "property": "C87",
   "status": "partial",
   "theorems": [
    "C3.BigNum.C87_to_string",
    "C3.BigNum.C87_to_string_min",
    "C3.BigNum.C87_parse",
    "C3.BigNum.C87_parse_neg",
    "C3.BigNum.C87_malformed",
    "C3.BigNum.C87_round_trip",
    "C3.BigNum.C87_fails",
    "C3.BigNum.C87_zeros_stop",
    "C3.BigNum.C87_empty_stops"
   ],
   "note": "Writing is right for every number but the smallest, at which it stops; C87_parse and C87_parse_neg say exactly what is read, when the program stops and which fault is returned; what was written is read back. C87_fails: -0 is refused as an overflow; C87_zeros_stop: many leading zeros stop the program. Numbers without room stop the program instead of returning the fault."
  },
  {
   "property": "C88",
   "status": "partial",
   "theorems": [
    "C3.BigNum.C88_sqrt_partial",
    "C3.BigNum.C88_zero",
    "C3.BigNum.C88_large_stops",
    "C3.BigNum.C88_fails"
   ],
   "note": "Right for positive numbers below a quarter of the range. C88_large_stops proves that it stops for all greater ones, C88_zero that the root of zero is not equal to zero."
  },
  {
   "property": "C89",
   "status": "proved",
   "theorems": [
    "C3.Chan.C89_queue",
    "C3.Chan.C89_order",
    "C3.Chan.C89_no_stop"
   ],
   "note": "For every interleaving of any number of threads the results are those of a bounded queue."
  },
  {
   "property": "C90",
   "status": "proved",
   "theorems": [
    "C3.Chan.C90_pop_sleeps",
    "C3.Chan.C90_push_sleeps",
    "C3.Chan.C90_closed",
    "C3.Chan.C90_goes",
    "C3.Chan.C90_ends",
    "C3.Chan.C90_rest",
    "C3.Chan.C90_size_zero"
   ],
   "note": "No lost wake-ups, no deadlock, and an end after a bounded number of steps; at rest a pop sleeps only at an empty and a push only at a full channel."
  },
  {
   "property": "C91",
   "status": "partial",
   "theorems": [
    "C3.Chan.Unbuf.C91_two_senders",
    "C3.Chan.Unbuf.C91_two_receivers",
    "C3.Chan.Unbuf.C91_fails",
    "C3.Chan.Unbuf.C91_goes_partial",
    "C3.Chan.Unbuf.C91_sleep_partial"
   ],
   "note": "C91_fails, C91_two_senders and C91_two_receivers prove that two threads that send, or two that receive, stop the channel for ever. One sender and one receiver without close and without spurious wake-ups never stop."
  },
  {
   "property": "C92",
   "status": "partial",
   "theorems": [
    "C3.Chan.Unbuf.C92_lost_and_twice",
    "C3.Chan.Unbuf.C92_closed_but_received",
    "C3.Chan.Unbuf.C92_init_closed",
    "C3.Chan.Unbuf.C92_fails",
    "C3.Chan.Unbuf.C92_meets_partial"
   ],
   "note": "Holds for one sender and one receiver without close and without spurious wake-ups, if the memory of the channel was zero. C92_fails, C92_lost_and_twice, C92_closed_but_received, C92_init_closed show what happens otherwise."
  },
  {
   "property": "C93",
   "status": "partial",
   "theorems": [
    "C3.PathStd.C93_as_built",
    "C3.PathStd.C93_hidden_stays",
    "C3.PathStd.C93_above_root",
    "C3.PathStd.C93_fails",
    "C3.PathStd.C93_normal_partial"
   ],
   "note": "C93_as_built says exactly what normalize gives for every path. That is the normal form if no name is a dot and one more byte (C93_normal_partial); C93_fails, C93_hidden_stays, C93_above_root show what happens to names such as `.a`."
  },
  {
   "property": "C94",
   "status": "partial",
   "theorems": [
    "C3.PathStd.C94_idempotent",
    "C3.PathStd.C94_shape",
    "C3.PathStd.C94_dots_partial",
    "C3.PathStd.C94_append_root",
    "C3.PathStd.C94_append_fails",
    "C3.PathStd.C94_append_partial"
   ],
   "note": "Idempotence and shape hold for every path; `..` is at the beginning only if no name is such as `.a`; append is right except at the root, where it fails its assertion (C94_append_root, C94_append_fails)."
  },
  {
   "property": "C95",
   "status": "partial",
   "theorems": [
    "C3.PathStd.C95_base_and_dir",
    "C3.PathStd.C95_parent_below_root",
    "C3.PathStd.C95_parent_fails",
    "C3.PathStd.C95_parent_partial",
    "C3.PathStd.C95_extension_fails",
    "C3.PathStd.C95_extension_partial",
    "C3.PathStd.C95_no_extension"
   ],
   "note": "basename and dirname are right for every normal path. C95_parent_fails: the parent of `/a` is the empty path. C95_extension_fails: `.foo` has the extension `foo` but its extension is empty."
  },
  {
   "property": "C96",
   "status": "partial",
   "theorems": [
    "C3.Hash.Sha256.C96_constants",
    "C3.Hash.Sha256.C96_compress",
    "C3.Hash.Sha256.C96_hash_partial"
   ],
   "note": "Constants and compression function are those of the standard for every state and block; the hash is right for data of less than 2^29 bytes. Longer data get a wrong count (C97_fails); that the digest then differs is not proved."
  },
  {
   "property": "C97",
   "status": "partial",
   "theorems": [
    "C3.Hash.Sha256.C97_as_built",
    "C3.Hash.Sha256.C97_pieces_partial",
    "C3.Hash.Sha256.C97_long_piece",
    "C3.Hash.Sha256.C97_fails"
   ],
   "note": "C97_as_built says exactly what blocks are hashed. They are right if each piece has less than 2^29 bytes; C97_fails: `len * 8` wraps in 32 bits."
  },
  {
   "property": "C98",
   "status": "proved",
   "theorems": [
    "C3.Hash.Sha1.C98_compress",
    "C3.Hash.Sha1.C98_hash"
   ],
   "note": "For all data that the contract of update allows."
  },
  {
   "property": "C99",
   "status": "partial",
   "theorems": [
    "C3.Hash.Sha1.C99_pieces_partial",
    "C3.Hash.Sha1.C99_long_piece",
    "C3.Hash.Sha1.C99_fails"
   ],
   "note": "Right if each piece has at most 2^32-64 bytes; C99_long_piece, C99_fails: `j + len` wraps in 32 bits, and the buffer is written out of bounds."
  },
  {
   "property": "C100",
   "status": "proved",
   "theorems": [
    "C3.Hash.Md5.C100_constants",
    "C3.Hash.Md5.C100_compress",
    "C3.Hash.Md5.C100_hash"
   ],
   "note": "The constants are shown to be the integer parts of 2^32 |sin i| with Mathlib's sine; steps and digest are those of RFC 1321 for every state and block."
  },
  {
   "property": "C101",
   "status": "proved",
   "theorems": [
    "C3.Hash.Md5.C101_pieces"
   ],
   "note": "Pieces of any length, any contents of the buffer before."
  },
  {
   "property": "C102",
   "status": "proved",
   "theorems": [
    "C3.Hash.Hmac.C102_md5",
    "C3.Hash.Hmac.C102_sha1",
    "C3.Hash.Hmac.C102_sha256",
    "C3.Hash.Hmac.C102_pieces",
    "C3.Hash.Hmac.C102_pieces_sha1"
   ],
   "note": "For MD5, SHA-1, SHA-256, within the lengths for which the algorithm itself is right (C97, C99)."
  },
  {
   "property": "C103",
   "status": "partial",
   "theorems": [
    "C3.Hash.Hmac.C103_sha256_partial",
    "C3.Hash.Hmac.C103_sha1_partial",
    "C3.Hash.Hmac.C103_md5_partial",
    "C3.Hash.Hmac.C103_length",
    "C3.Hash.Hmac.C103_endless",
    "C3.Hash.Hmac.C103_fails"
   ],
   "note": "Right for less than 2^31 iterations; C103_endless, C103_fails: from 2^31 on it never ends."
  },
  {
   "property": "C104",
   "status": "proved",
   "theorems": [
    "C3.Checksum.C104_remainder",
    "C3.Checksum.C104_stream",
    "C3.Checksum.C104_equal",
    "C3.Checksum.C104_burst"
   ],
   "note": "As polynomials of Mathlib; the generator is written out."
  },
  {
   "property": "C105",
   "status": "proved",
   "theorems": [
    "C3.Checksum.C105_remainder",
    "C3.Checksum.C105_stream",
    "C3.Checksum.C105_equal",
    "C3.Checksum.C105_burst"
   ],
   "note": "As C104. (The seed of Crc64.init has 32 bits only, so a checksum cannot be continued as with Crc32.)"
  },
  {
   "property": "C106",
   "status": "proved",
   "theorems": [
    "C3.Checksum.C106_adler",
    "C3.Checksum.C106_stream",
    "C3.Checksum.C106_single"
   ],
   "note": "All lengths."
  },
  {
   "property": "C107",
   "status": "proved",
   "theorems": [
    "C3.Checksum.C107_fnv",
    "C3.Checksum.C107_single",
    "C3.Checksum.C107_stream"
   ],
   "note": "Both widths."
  },
  {
   "property": "C108",
   "status": "proved",
   "theorems": [
    "C3.Rc4.C108_rc4",
    "C3.Rc4.C108_involution",
    "C3.Rc4.C108_pieces",
    "C3.Rc4.C108_permutation"
   ],
   "note": "All keys but the empty one, which the contract forbids."
  },
  {
   "property": "C109",
   "status": "partial",
   "theorems": [
    "C3.Bits.C109_fails",
    "C3.Bits.C109_exact",
    "C3.Bits.C109_write_partial"
   ],
   "note": "Up to 31 bits at a time; C109_exact says when a call fails, C109_fails that the full claim is false."
  },
  {
   "property": "C110",
   "status": "proved",
   "theorems": [
    "C3.Bits.C110_read",
    "C3.Bits.C110_init",
    "C3.Bits.C110_clear"
   ],
   "note": "From every state with less than eight bits kept, which is every state reached."
  },
  {
   "property": "C111",
   "status": "proved",
   "theorems": [
    "C3.Bits.C111_round_trip"
   ],
   "note": "All sequences."
  },
  {
   "property": "C112",
   "status": "proved",
   "theorems": [
    "C3.Qoi.C112_encode",
    "C3.Qoi.C112_refuses"
   ],
   "note": "Up to PIXELS_MAX pixels; beyond, see C116."
  },
  {
   "property": "C113",
   "status": "proved",
   "theorems": [
    "C3.Qoi.C113_round_trip"
   ],
   "note": "All images and channels."
  },
  {
   "property": "C114",
   "status": "partial",
   "theorems": [
    "C3.Qoi.C114_fails",
    "C3.Qoi.C114_partial"
   ],
   "note": "False in general (C114_fails); holds if the stream does not start with a run and refers to filled slots only."
  },
  {
   "property": "C115",
   "status": "partial",
   "theorems": [
    "C3.Qoi.C115_panics",
    "C3.Qoi.C115_fails",
    "C3.Qoi.C115_partial"
   ],
   "note": "False in general (C115_fails, C115_panics); holds with five bytes for every pixel. Streams of valid chunks are covered by C113 and C114."
  },
  {
   "property": "C116",
   "status": "partial",
   "theorems": [
    "C3.Qoi.C116_partial",
    "C3.Qoi.C116_unreadable",
    "C3.Qoi.C116_fails"
   ],
   "note": "False in general (C116_fails); C116_partial says exactly when, C116_unreadable what is written instead."
  },
  {
   "property": "C117",
   "status": "partial",
   "theorems": [
    "C3.Fmt.C117_fails",
    "C3.Fmt.C117_long_fails",
    "C3.Fmt.C117_alt_fails",
    "C3.Fmt.C117_int_partial"
   ],
   "note": "False in general (C117_fails, C117_long_fails, C117_alt_fails); C117_int_partial holds for the directives that are `Clean`."
  },
  {
   "property": "C118",
   "status": "partial",
   "theorems": [
    "C3.Fmt.C118_fails",
    "C3.Fmt.C118_bound_partial",
    "C3.Fmt.C118_count_partial"
   ],
   "note": "False in general (C118_fails); never more than printed (all formats), and equal where integers have no width and characters are ASCII."
  },
  {
   "property": "C119",
   "status": "partial",
   "theorems": [
    "C3.Fmt.C119_fails",
    "C3.Fmt.C119_panic_partial"
   ],
   "note": "False in general (C119_fails); only formats that end in a digit panic."
  },
  {
   "property": "C120",
   "status": "partial",
   "theorems": [
    "C3.Fmt.C120_fails",
    "C3.Fmt.C120_width_fails",
    "C3.Fmt.C120_char_partial"
   ],
   "note": "False in general (C120_fails, C120_width_fails); holds without padding for all but three characters."
  },
  {
   "property": "C121",
   "status": "proved",
   "theorems": [
    "C3.Fmt.C121_string",
    "C3.Fmt.C121_number",
    "C3.Fmt.C121_bytes"
   ],
   "note": "Integers printed with %s without a precision."
  },
  {
   "property": "C122",
   "status": "proved",
   "theorems": [
    "C3.Fmt.C122_pieces",
    "C3.Fmt.C122_missing"
   ],
   "note": "For pieces that C117 to C121 cover."
  },
  {
   "property": "C123",
   "status": "proved",
   "theorems": [
    "C3.Fmt.C123_read"
   ],
   "note": "For directives that C117_int_partial covers, filled from the right."
  },
  {
   "property": "C124",
   "status": "proved",
   "theorems": [
    "C3.Sets.C124_bitset",
    "C3.Sets.C124_cardinality",
    "C3.Sets.C124_refuses"
   ],
   "note": ""
  },
  {
   "property": "C125",
   "status": "partial",
   "theorems": [
    "C3.Sets.C125_foreach_partial",
    "C3.Sets.C125_aborts",
    "C3.Sets.C125_fails"
   ],
   "note": "False (C125_fails): aborts for every size that is not a multiple of 32 (C125_aborts), holds for the others."
  },
  {
   "property": "C126",
   "status": "proved",
   "theorems": [
    "C3.Sets.C126_growable",
    "C3.Sets.C126_cardinality"
   ],
   "note": ""
  },
  {
   "property": "C127",
   "status": "partial",
   "theorems": [
    "C3.Sets.C127_bound",
    "C3.Sets.C127_len_partial",
    "C3.Sets.C127_fails"
   ],
   "note": "False (C127_fails) after removals; an upper bound always, exact as long as nothing is removed."
  },
  {
   "property": "C128",
   "status": "proved",
   "theorems": [
    "C3.Sets.C128_enumset",
    "C3.Sets.C128_remove",
    "C3.Sets.C128_equal"
   ],
   "note": ""
  },
  {
   "property": "C129",
   "status": "partial",
   "theorems": [
    "C3.Sets.C129_enumset_partial",
    "C3.Sets.C129_blind",
    "C3.Sets.C129_fails"
   ],
   "note": "False (C129_fails): elements whose ordinal is not a multiple of eight are never found (C129_blind); holds for the others."
  },
  {
   "property": "C130",
   "status": "proved",
   "theorems": [
    "C3.Sets.C130_print"
   ],
   "note": ""
  },
  {
   "property": "C131",
   "status": "partial",
   "theorems": [
    "C3.Inet.C131_read_partial",
    "C3.Inet.C131_total",
    "C3.Inet.C131_fails"
   ],
   "note": "False (C131_fails): numbers wrap around in `int`; exact for numbers of at most nine digits, and never aborts."
  },
  {
   "property": "C132",
   "status": "proved",
   "theorems": [
    "C3.Inet.C132_roundtrip4",
    "C3.Inet.C132_roundtrip6"
   ],
   "note": ""
  },
  {
   "property": "C133",
   "status": "partial",
   "theorems": [
    "C3.Inet.C133_reads_partial",
    "C3.Inet.C133_exact_partial",
    "C3.Inet.C133_total",
    "C3.Inet.C133_fails",
    "C3.Inet.C133_accepts_wrong"
   ],
   "note": "False (C133_fails, C133_accepts_wrong); every text where `::` stands for two or more groups is read, never aborts, and exactness up to the length of groups away from single colons at the ends."
  },
  {
   "property": "C134",
   "status": "proved",
   "theorems": [
    "C3.Inet.C134_classes4"
   ],
   "note": ""
  },
  {
   "property": "C135",
   "status": "partial",
   "theorems": [
    "C3.Inet.C135_single_partial",
    "C3.Inet.C135_never",
    "C3.Inet.C135_fails"
   ],
   "note": "False (C135_fails): no address of these blocks is ever recognised (C135_never); loopback and unspecified addresses are."
  },
  {
   "property": "C136",
   "status": "partial",
   "theorems": [
    "C3.Time.C136_print_partial",
    "C3.Time.C136_sign_fails",
    "C3.Time.C136_zeros_fail",
    "C3.Time.C136_fails"
   ],
   "note": "False (C136_fails, C136_sign_fails, C136_zeros_fail); holds for positive durations whose thousandths need no zero in front."
  },
  {
   "property": "C137",
   "status": "partial",
   "theorems": [
    "C3.Time.C137_fields_partial",
    "C3.Time.C137_early_fails",
    "C3.Time.C137_late_fails",
    "C3.Time.C137_fails"
   ],
   "note": "False (C137_fails, C137_early_fails, C137_late_fails); holds from 1970 up to 2^53 microseconds."
  },
  {
   "property": "C138",
   "status": "partial",
   "theorems": [
    "C3.Time.C138_time_partial",
    "C3.Time.C138_early_partial",
    "C3.Time.C138_fails"
   ],
   "note": "False (C138_fails) before 1970; holds from 1970 up to 2^53 microseconds, and before but for the sign of the microseconds."
  },
  {
   "property": "C139",
   "status": "partial",
   "theorems": [
    "C3.Time.C139_months_partial",
    "C3.Time.C139_spill_fails",
    "C3.Time.C139_fails",
    "C3.Time.C139_years_partial"
   ],
   "note": "False (C139_fails): a day that the month does not have lands in the next month (C139_spill_fails); holds otherwise."
  },
  {
   "property": "C140",
   "status": "partial",
   "theorems": [
    "C3.Time.C140_to_offset",
    "C3.Time.C140_with_offset",
    "C3.Time.C140_add",
    "C3.Time.C140_months_partial",
    "C3.Time.C140_zero_fails",
    "C3.Time.C140_fails"
   ],
   "note": "Proved for to_gmt_offset, with_gmt_offset and the units of time; False for no months or years (C140_fails, C140_zero_fails)."
  },
  {
   "property": "C141",
   "status": "partial",
   "theorems": [
    "C3.Time.C141_years_partial",
    "C3.Time.C141_opposite",
    "C3.Time.C141_fails"
   ],
   "note": "False between a leap year and another (C141_fails); holds otherwise; antisymmetry proved."
  },
  {
   "property": "C142",
   "status": "partial",
   "theorems": [
    "C3.Time.C142_suffix_partial",
    "C3.Time.C142_west_fails",
    "C3.Time.C142_fails"
   ],
   "note": "False for western offsets with minutes (C142_fails, C142_west_fails); holds otherwise."
  },
  {
   "property": "C143",
   "status": "partial",
   "theorems": [
    "C3.Time.C143_format_partial",
    "C3.Time.C143_unixdate_fails",
    "C3.Time.C143_other_fails",
    "C3.Time.C143_fails"
   ],
   "note": "False for UNIXDATE, RUBYDATE and the formats with microseconds (C143_fails, C143_other_fails); holds for the other eleven."
  },
  {
   "property": "C144",
   "status": "partial",
   "theorems": [
    "C3.Abi.C144_fails",
    "C3.Abi.C144_classes_partial"
   ],
   "note": "False for unions with a float128 and AVX (C144_fails); holds for all values without unions, without float128, or on targets without AVX."
  },
  {
   "property": "C145",
   "status": "partial",
   "theorems": [
    "C3.Abi.C145_fails",
    "C3.Abi.C145_bytes_partial"
   ],
   "note": "False for a union of double and float (C145_fails); holds for values without unions that have no 16 bit floats or no padding."
  },
  {
   "property": "C146",
   "status": "proved",
   "theorems": [
    "C3.Abi.C146_register_kinds"
   ],
   "note": "For every value that is not of class memory."
  },
  {
   "property": "C147",
   "status": "partial",
   "theorems": [
    "C3.Abi.C147_fails",
    "C3.Abi.C147_fails_nested",
    "C3.Abi.C147_total_partial",
    "C3.Abi.C147_function_partial"
   ],
   "note": "False for structs with padding (C147_fails, C147_fails_nested); holds for values without unions that are without padding or in memory, and for functions with such parameters."
  },
  {
   "property": "C148",
   "status": "partial",
   "theorems": [
    "C3.Abi.C148_fails",
    "C3.Abi.C148_assignment_partial"
   ],
   "note": "False where C144 is (C148_fails); holds for all functions whose values C144 holds for."
  },
  {
   "property": "C149",
   "status": "partial",
   "theorems": [
    "C3.Abi.C149_fails",
    "C3.Abi.C149_results_partial"
   ],
   "note": "False where C144 is (C149_fails); holds for all values C144 holds for."
  },
  {
   "property": "C150",
   "status": "proved",
   "theorems": [
    "C3.Linked.C150_sequence",
    "C3.Linked.C150_determined"
   ],
   "note": ""
  },
  {
   "property": "C151",
   "status": "proved",
   "theorems": [
    "C3.Linked.C151_progress"
   ],
   "note": ""
  },
  {
   "property": "C152",
   "status": "proved",
   "theorems": [
    "C3.Linked.C152_memory",
    "C3.Linked.C152_clear"
   ],
   "note": ""
  },
  {
   "property": "C153",
   "status": "proved",
   "theorems": [
    "C3.Pool.C153_once",
    "C3.Pool.C153_most"
   ],
   "note": ""
  },
  {
   "property": "C154",
   "status": "proved",
   "theorems": [
    "C3.Pool.C154_awake",
    "C3.Pool.C154_taken"
   ],
   "note": ""
  },
  {
   "property": "C155",
   "status": "proved",
   "theorems": [
    "C3.Pool.C155_drained"
   ],
   "note": ""
  },
  {
   "property": "C156",
   "status": "partial",
   "theorems": [
    "C3.Pool.C156_fixed",
    "C3.Pool.C156_fails",
    "C3.Pool.C156_partial"
   ],
   "note": "The full statement holds of FixedThreadPool (C156_fixed). It fails of ThreadPool of every size (C156_fails); of it a thread that waits for work at the call never works again."
  },
  {
   "property": "C157",
   "status": "partial",
   "theorems": [
    "C3.Pool.C157_quiet",
    "C3.Pool.C157_fixed",
    "C3.Pool.C157_init_fails",
    "C3.Pool.C157_fails",
    "C3.Pool.C157_deadlock",
    "C3.Pool.C157_partial"
   ],
   "note": "The full statement holds of FixedThreadPool if all threads could be made (C157_fixed). It fails of both pools if not (C157_init_fails), and of ThreadPool when jobs push jobs (C157_fails, C157_deadlock)."
  },
  {
   "property": "C158",
   "status": "proved",
   "theorems": [
    "C3.Pool.C158_freed",
    "C3.Pool.C158_not_early"
   ],
   "note": ""
  },
  {
   "property": "C159",
   "status": "partial",
   "theorems": [
    "C3.Stream.C159_bytes",
    "C3.Stream.C159_whole",
    "C3.Stream.C159_limit",
    "C3.Stream.C159_pushback",
    "C3.Stream.C159_available_fails",
    "C3.Stream.C159_available_partial"
   ],
   "note": "Reading and pushback_byte hold in full. available fails (C159_available_fails) after a seek past the end and for a LimitReader around a shorter stream."
  },
  {
   "property": "C160",
   "status": "partial",
   "theorems": [
    "C3.Stream.C160_fails",
    "C3.Stream.C160_partial",
    "C3.Stream.C160_start"
   ],
   "note": "Holds up to the first EOF or fault (C160_partial). After an EOF old bytes are delivered again (C160_fails)."
  },
  {
   "property": "C161",
   "status": "partial",
   "theorems": [
    "C3.Stream.C161_fails",
    "C3.Stream.C161_panics",
    "C3.Stream.C161_partial"
   ],
   "note": "Holds up to the first EOF or fault (C161_partial). Reading after EOF, or without readers, panics (C161_fails, C161_panics)."
  },
  {
   "property": "C162",
   "status": "partial",
   "theorems": [
    "C3.Stream.C162_fails",
    "C3.Stream.C162_partial"
   ],
   "note": "Holds of read_byte and of reads that succeed (C162_partial). A read that reaches the end of the inner stream loses what is in the buffer (C162_fails)."
  },
  {
   "property": "C163",
   "status": "partial",
   "theorems": [
    "C3.Stream.C163_first_fails",
    "C3.Stream.C163_flush_fails",
    "C3.Stream.C163_fails",
    "C3.Stream.C163_partial",
    "C3.Stream.C163_absent_partial",
    "C3.Stream.C163_flush"
   ],
   "note": "Fails for longer patterns across the end of the buffer and for the buffer after NOT_FOUND at the end of the stream (C163_first_fails, C163_flush_fails, C163_fails). C163_partial and C163_absent_partial say what holds."
  },
  {
   "property": "C164",
   "status": "partial",
   "theorems": [
    "C3.Stream.C164_copy",
    "C3.Stream.C164_bytes",
    "C3.Stream.C164_byte",
    "C3.Stream.C164_fully",
    "C3.Stream.C164_all_fails",
    "C3.Stream.C164_all_partial"
   ],
   "note": "Holds in full of copy_through_buffer, read_using_read_byte, read_byte_using_read and the loop of read_fully. read_all fails when a read delivers a part (C164_all_fails, C164_all_partial)."
  },
  {
   "property": "C165",
   "status": "partial",
   "theorems": [
    "C3.Stream.C165_fails",
    "C3.Stream.C165_partial",
    "C3.Stream.C165_flush_partial"
   ],
   "note": "Fails for inner streams that take a part of the bytes (C165_fails); holds for those that take all or nothing."
  },
  {
   "property": "C166",
   "status": "partial",
   "theorems": [
    "C3.Stream.C166_fails",
    "C3.Stream.C166_partial",
    "C3.Stream.C166_fixed"
   ],
   "note": "With an allocator all but empty writes are taken (C166_partial), an empty one may panic (C166_fails). C166_fixed says exactly which writes a buffer takes: its last byte stays unused."
  },
  {
   "property": "C167",
   "status": "partial",
   "theorems": [
    "C3.Stream.C167_fails",
    "C3.Stream.C167_grow",
    "C3.Stream.C167_partial",
    "C3.Stream.C167_read",
    "C3.Stream.C167_pushback",
    "C3.Stream.C167_pushback_fails"
   ],
   "note": "Reading and pushback_byte hold in full. Writes that do not fit panic unless the next power of two of their length is large enough for all (C167_fails, C167_grow)."
  },
  {
   "property": "C168",
   "status": "proved",
   "theorems": [
    "C3.Stream.C168_multi",
    "C3.Stream.C168_multi_byte",
    "C3.Stream.C168_tee",
    "C3.Stream.C168_tee_byte"
   ],
   "note": ""
  },
  {
   "property": "C169",
   "status": "partial",
   "theorems": [
    "C3.Stream.C169_length",
    "C3.Stream.C169_unsigned",
    "C3.Stream.C169_fails",
    "C3.Stream.C169_signed_fails"
   ],
   "note": "C169_unsigned says exactly what is read back: values below 2^15 and 2^29; the others give OVERFLOW (C169_fails). No signed value but 0 is read back (C169_signed_fails). Types of eight bytes are not modelled."
  },
  {
   "property": "C170",
   "status": "partial",
   "theorems": [
    "C3.Stream.C170_write",
    "C3.Stream.C170_read",
    "C3.Stream.C170_read_short",
    "C3.Stream.C170_array_write",
    "C3.Stream.C170_array_fails",
    "C3.Stream.C170_array_partial"
   ],
   "note": "Integers hold in full. Byte arrays are read back from streams that deliver all they can (C170_array_partial), not from others (C170_array_fails)."
  },
  {
   "property": "C171",
   "status": "proved",
   "theorems": [
    "C3.FmtCheck.C171_accepts",
    "C3.FmtCheck.C171_errors"
   ],
   "note": ""
  },
  {
   "property": "C172",
   "status": "partial",
   "theorems": [
    "C3.FmtCheck.C172_prints_partial",
    "C3.FmtCheck.C172_width_argument",
    "C3.FmtCheck.C172_fails"
   ],
   "note": "Holds for formats of the documented form with the conversions of the formatter's model (C172_prints_partial). Fails for widths given by an argument and for directives with other characters in them (C172_fails, C172_width_argument)."
  },
  {
   "property": "C173",
   "status": "partial",
   "theorems": [
    "C3.FmtCheck.C173_bounds_partial",
    "C3.FmtCheck.C173_star",
    "C3.FmtCheck.C173_point",
    "C3.FmtCheck.C173_fails"
   ],
   "note": "Holds if no % is followed by a point (C173_bounds_partial) and for formats of the documented form (C171_errors). Fails for \"%.*\" with one argument and for formats that end in \"%.\" (C173_fails, C173_star, C173_point)."
  },
  {
   "property": "C174",
   "status": "partial",
   "theorems": [
    "C3.FmtCheck.C174_accepted_partial",
    "C3.FmtCheck.C174_refused",
    "C3.FmtCheck.C174_fails"
   ],
   "note": "Holds for the documented form (C174_accepted_partial). Widths given by an argument, a precision without digits, %O, and %h of a slice are refused (C174_refused, C174_fails)."
  },
  {
   "property": "C175",
   "status": "proved",
   "theorems": [
    "C3.CallArgs.C175_right",
    "C3.CallArgs.C175_order"
   ],
   "note": ""
  },
  {
   "property": "C176",
   "status": "partial",
   "theorems": [
    "C3.CallArgs.C176_elements_partial",
    "C3.CallArgs.C176_vasplat",
    "C3.CallArgs.C176_vasplat_fails",
    "C3.CallArgs.C176_empty",
    "C3.CallArgs.C176_fails"
   ],
   "note": "Holds for splats with elements (C176_elements_partial) and for $vasplat unless it is empty behind a splat (C176_vasplat, C176_vasplat_fails). Splats without elements are refused (C176_fails, C176_empty)."
  },
  {
   "property": "C177",
   "status": "proved",
   "theorems": [
    "C3.CallArgs.C177_names"
   ],
   "note": ""
  },
  {
   "property": "C178",
   "status": "proved",
   "theorems": [
    "C3.CallArgs.C178_extend"
   ],
   "note": ""
  },
  {
   "property": "C179",
   "status": "proved",
   "theorems": [
    "C3.DString.C179_append",
    "C3.DString.C179_append_char",
    "C3.DString.C179_append_repeat",
    "C3.DString.C179_insert",
    "C3.DString.C179_insert_char",
    "C3.DString.C179_delete",
    "C3.DString.C179_delete_range",
    "C3.DString.C179_chop",
    "C3.DString.C179_concat",
    "C3.DString.C179_join",
    "C3.DString.C179_zstr"
   ],
   "note": ""
  },
  {
   "property": "C180",
   "status": "partial",
   "theorems": [
    "C3.DString.C180_insert_partial",
    "C3.DString.C180_prefix",
    "C3.DString.C180_grow",
    "C3.DString.C180_fails"
   ],
   "note": "Holds with room in the buffer for parts not at the beginning (C180_insert_partial). A part at the beginning is not inserted (C180_prefix), without room freed memory is read (C180_grow)."
  },
  {
   "property": "C181",
   "status": "partial",
   "theorems": [
    "C3.DString.C181_sound",
    "C3.DString.C181_all_partial",
    "C3.DString.C181_char",
    "C3.DString.C181_empty",
    "C3.DString.C181_fails"
   ],
   "note": "Only occurrences are replaced, for all texts (C181_sound); all of them are for single characters (C181_char) and if the first character occurs only in occurrences (C181_all_partial). In general some are missed (C181_fails); an empty needle is out of bounds (C181_empty)."
  },
  {
   "property": "C182",
   "status": "partial",
   "theorems": [
    "C3.DString.C182_equals",
    "C3.DString.C182_asymm_partial",
    "C3.DString.C182_length",
    "C3.DString.C182_empty",
    "C3.DString.C182_same_first",
    "C3.DString.C182_fails"
   ],
   "note": "equals is right (C182_equals). less is asymmetric on nonempty strings (C182_asymm_partial), but no order (C182_fails, C182_same_first, C182_empty)."
  },
  {
   "property": "C183",
   "status": "partial",
   "theorems": [
    "C3.DString.C183_content_partial",
    "C3.DString.C183_owner",
    "C3.DString.C183_fails"
   ],
   "note": "Holds for what is copied (C183_content_partial). The copy keeps the allocator of the original (C183_owner, C183_fails)."
  },
  {
   "property": "C184",
   "status": "partial",
   "theorems": [
    "C3.DString.C184_source_partial",
    "C3.DString.C184_returns_zero",
    "C3.DString.C184_fails",
    "C3.DString.C184_short"
   ],
   "note": "All is read if the stream gives what it is asked for (C184_source_partial). The number returned is always zero (C184_returns_zero, C184_fails), and a short read ends the loop (C184_short)."
  },
  {
   "property": "C185",
   "status": "partial",
   "theorems": [
    "C3.Range.C185_enumerates_partial",
    "C3.Range.C185_length_overflow",
    "C3.Range.C185_iff",
    "C3.Range.C185_fails"
   ],
   "note": "Holds if the difference of the bounds is one of the type, or the type has 64 bits, and the range does not have all values of 64 bits (C185_enumerates_partial); for ranges that are not empty only then (C185_iff). Otherwise the length is wrong (C185_length_overflow, C185_fails)."
  },
  {
   "property": "C186",
   "status": "partial",
   "theorems": [
    "C3.Range.C186_enumerates_partial",
    "C3.Range.C186_unsigned",
    "C3.Range.C186_iff",
    "C3.Range.C186_fails"
   ],
   "note": "Holds for unsigned types and types of 64 bits (C186_unsigned), and if the difference of the bounds is one of the type (C186_enumerates_partial); for ranges that are not empty only then (C186_iff, C186_fails)."
  },
  {
   "property": "C187",
   "status": "proved",
   "theorems": [
    "C3.Elastic.C187_elastic_array"
   ],
   "note": "For push_try, pop, pop_first, remove_at, remove_first, insert_at_try, add_array_to_limit, add_all_to_limit with another array, remove_item and clear."
  },
  {
   "property": "C188",
   "status": "partial",
   "theorems": [
    "C3.Elastic.C188_get_partial",
    "C3.Elastic.C188_beyond",
    "C3.Elastic.C188_stale",
    "C3.Elastic.C188_fails"
   ],
   "note": "Elements are given and set (C188_get_partial). Indices from the size to MAX_SIZE are accepted (C188_beyond, C188_stale, C188_fails)."
  },
  {
   "property": "C189",
   "status": "partial",
   "theorems": [
    "C3.Elastic.C189_self_partial",
    "C3.Elastic.C189_too_large",
    "C3.Elastic.C189_other_partial",
    "C3.Elastic.C189_fails"
   ],
   "note": "Holds for another array (C189_other_partial). For the array itself what is added is right (C189_self_partial), but the number is too large whenever some, but not all, fits (C189_too_large, C189_fails)."
  },
  {
   "property": "C190",
   "status": "partial",
   "theorems": [
    "C3.Elastic.C190_other_partial",
    "C3.Elastic.C190_self",
    "C3.Elastic.C190_fails"
   ],
   "note": "Holds for another array (C190_other_partial). With itself the second of three or more different elements remains (C190_self, C190_fails)."
  },
  {
   "property": "C191",
   "status": "partial",
   "theorems": [
    "C3.Slice2d.C191_position",
    "C3.Slice2d.C191_within_partial",
    "C3.Slice2d.C191_default",
    "C3.Slice2d.C191_array_default",
    "C3.Slice2d.C191_array_partial",
    "C3.Slice2d.C191_fails"
   ],
   "note": "The positions are right (C191_position). The elements are within if the lengths given fit (C191_within_partial, C191_array_partial). With a start in x and the default length they never are (C191_default, C191_array_default, C191_fails)."
  },
  {
   "property": "C192",
   "status": "proved",
   "theorems": [
    "C3.Slice2d.C192_row",
    "C3.Slice2d.C192_distinct",
    "C3.Slice2d.C192_each"
   ],
   "note": ""
  },
  {
   "property": "C193",
   "status": "partial",
   "theorems": [
    "C3.Random.C193_below",
    "C3.Random.C193_next_partial",
    "C3.Random.C193_negative",
    "C3.Random.C193_fails",
    "C3.Random.C193_uniform",
    "C3.Random.C193_reached",
    "C3.Random.C193_half"
   ],
   "note": "Holds for ranges up to 2^31 (C193_next_partial), and for all as a uint (C193_below); uniformity, reachability and the end of the loop hold for all (C193_uniform, C193_reached, C193_half). Above 2^31 negative values are given (C193_negative, C193_fails)."
  },
  {
   "property": "C194",
   "status": "partial",
   "theorems": [
    "C3.Random.C194_range_partial",
    "C3.Random.C194_all",
    "C3.Random.C194_fails"
   ],
   "note": "Holds unless the range has all values of int (C194_range_partial); then the contract of next is violated (C194_all, C194_fails)."
  },
  {
   "property": "C195",
   "status": "partial",
   "theorems": [
    "C3.Random.C195_bytes_partial",
    "C3.Random.C195_empty",
    "C3.Random.C195_fails"
   ],
   "note": "Holds for buffers that are not empty (C195_bytes_partial); for an empty one unreachable is reached (C195_empty, C195_fails)."
  },
  {
   "property": "C196",
   "status": "proved",
   "theorems": [
    "C3.StdJson.C196_parse",
    "C3.StdJson.C196_total"
   ],
   "note": "C196_parse; the end for all bytes is C196_total. The empty array and the empty object denote the same value, see C199."
  },
  {
   "property": "C197",
   "status": "partial",
   "theorems": [
    "C3.StdJson.C197_slash",
    "C3.StdJson.C197_vertical_tab",
    "C3.StdJson.C197_trailing",
    "C3.StdJson.C197_comma_array",
    "C3.StdJson.C197_comma_object",
    "C3.StdJson.C197_begin",
    "C3.StdJson.C197_fails",
    "C3.StdJson.C197_good_partial",
    "C3.StdJson.C197_lax_partial",
    "C3.StdJson.C197_lax_parsed"
   ],
   "note": "Fails (C197_fails): slashes and vertical tabs are white space (C197_slash, C197_vertical_tab), a comma may be after the last element (C197_comma_array, C197_comma_object), what is after the value is not looked at (C197_trailing). What is parsed has no name twice in an object (C197_good_partial). What is parsed begins with a text of a wider grammar, of the value (C197_lax_partial); the grammar says all that is missing, apart from what is after the value. C197_lax_partial and C197_lax_parsed give the wider grammar that is accepted, both ways."
  },
  {
   "property": "C198",
   "status": "partial",
   "theorems": [
    "C3.StdJson.C198_escape",
    "C3.StdJson.C198_pair",
    "C3.StdJson.C198_fails"
   ],
   "note": "Fails for all pairs (C198_pair, C198_fails). Each escape alone gives the form of UTF-8 of its number (C198_escape)."
  },
  {
   "property": "C199",
   "status": "partial",
   "theorems": [
    "C3.StdJson.C199_told_partial",
    "C3.StdJson.C199_fails"
   ],
   "note": "Holds unless both are without elements (C199_told_partial); then both are the empty object (C199_fails)."
  },
  {
   "property": "C200",
   "status": "proved",
   "theorems": [
    "C3.Csv.C200_line",
    "C3.Csv.C200_last",
    "C3.Csv.C200_eof"
   ],
   "note": ""
  },
  {
   "property": "C201",
   "status": "proved",
   "theorems": [
    "C3.Csv.C201_rows",
    "C3.Csv.C201_read_row",
    "C3.Csv.C201_skip_row"
   ],
   "note": "Lines shorter than 2^64 - 1."
  },
  {
   "property": "C202",
   "status": "partial",
   "theorems": [
    "C3.Csv.C202_split",
    "C3.Csv.C202_fails"
   ],
   "note": "Fails: quotes are bytes like others (C202_split, C202_fails)."
  },
  {
   "property": "C203",
   "status": "partial",
   "theorems": [
    "C3.Csv.C203_free_partial",
    "C3.Csv.C203_empty",
    "C3.Csv.C203_fails"
   ],
   "note": "Holds unless the line begins with a line feed (C203_free_partial); then the row is a literal (C203_empty, C203_fails)."
  },
  {
   "property": "C204",
   "status": "partial",
   "theorems": [
    "C3.DynList.C204_other_partial",
    "C3.DynList.C204_self",
    "C3.DynList.C204_self_partial",
    "C3.DynList.C204_fails"
   ],
   "note": "Holds for another list (C204_other_partial) and for fewer than two elements (C204_self_partial); a list of two or more elements always violates the contract of [] when it is its own argument (C204_self, C204_fails)."
  },
  {
   "property": "C205",
   "status": "proved",
   "theorems": [
    "C3.RandGen.C205_lcg",
    "C3.RandGen.C205_pcg",
    "C3.RandGen.C205_simple",
    "C3.RandGen.C205_uniform"
   ],
   "note": ""
  },
  {
   "property": "C206",
   "status": "proved",
   "theorems": [
    "C3.RandGen.C206_mcg"
   ],
   "note": ""
  },
  {
   "property": "C207",
   "status": "proved",
   "theorems": [
    "C3.RandGen.C207_injective",
    "C3.RandGen.C207_period"
   ],
   "note": ""
  },
  {
   "property": "C208",
   "status": "partial",
   "theorems": [
    "C3.RandGen.C208_half",
    "C3.RandGen.C208_fails",
    "C3.RandGen.C208_low_partial"
   ],
   "note": "Fails: only values below 2^32 are given (C208_half, C208_fails), and all of them (C208_low_partial)."
  },
  {
   "property": "C209",
   "status": "proved",
   "theorems": [
    "C3.RandGen.C209_period",
    "C3.RandGen.C209_counters",
    "C3.RandGen.C209_merge"
   ],
   "note": ""
  }
 ]
}