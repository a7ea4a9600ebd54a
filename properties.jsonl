{"id": "C01", "title": "Compile-time + - * unary minus and ~ wrap exactly like the run-time type", "statement": "For every integer type of 8, 16, 32, 64 or 128 bits, signed or unsigned, folding a+b, a-b, a*b, -a or ~a of two constants of that type at compile time yields the unique value of that type congruent modulo 2^N to the mathematical result, and the stored constant stays in the range of the type.", "quantifier": "all ten integer types, all pairs of in-range operands (up to 2^128 values each)", "why_tests_cant": "128-bit operands give 2^256 pairs; carry/borrow mistakes between the two 64-bit halves only show for specific bit patterns", "anchors": ["src/compiler/bigint.c:i128_add, i128_sub, i128_neg, i128_not, int64_mult, i128_mult, i128_extend, int_add, int_sub, int_mul, int_neg, int_not"]}
{"id": "C02", "title": "Compile-time division is exact truncating division", "statement": "Folding a/b for constants of one integer type with b != 0 terminates, runs without undefined behaviour, and yields the quotient rounded toward zero (wrapped to the type when the quotient is not representable).", "quantifier": "all ten integer types, all operand pairs with non-zero divisor", "why_tests_cant": "shift-subtract division over 128-bit operands; the loop count depends on the leading zero counts of both operands", "anchors": ["src/compiler/bigint.c:i128_udivrem, i128_udiv, i128_sdiv, int_div, i128_clz, clz64", "src/compiler/sema_expr.c:sema_expr_analyse_div"]}
{"id": "C03", "title": "Compile-time remainder matches division", "statement": "Folding a % b for constants of one integer type with b != 0 yields r with a = (a/b)*b + r, |r| < |b| and r zero or of the sign of a (the run-time remainder).", "quantifier": "all ten integer types, all operand pairs with non-zero divisor", "why_tests_cant": "needs all sign combinations for every pair of magnitudes", "anchors": ["src/compiler/bigint.c:i128_srem, i128_urem, int_rem", "src/compiler/sema_expr.c:sema_expr_analyse_mod"]}
{"id": "C04", "title": "Compile-time shifts", "statement": "Folding a << n and a >> n for every constant a of an integer type and every n accepted by the compiler (0 <= n < bit width) gives a*2^n wrapped to the type, and floor(a / 2^n); the computation never performs a C shift by an out-of-range amount.", "quantifier": "all ten integer types, all operands, all shift amounts", "why_tests_cant": "the two-word shift has five regimes per direction; undefined C shifts are silent on most machines", "anchors": ["src/compiler/bigint.c:i128_shl64, i128_lshr64, i128_ashr64, int_shl64, int_shr64", "src/compiler/sema_expr.c:sema_expr_check_shift_rhs, sema_expr_analyse_shift"]}
{"id": "C05", "title": "Compile-time & | ^ act bitwise and stay in the type", "statement": "Folding a&b, a|b, a^b yields, for every in-range pair of constants of a type, the value whose N-bit two's complement pattern is the bitwise combination of the operands' patterns, and that value is in range of the type.", "quantifier": "all ten integer types, all operand pairs", "why_tests_cant": "2^256 operand pairs", "anchors": ["src/compiler/bigint.c:i128_and, i128_or, i128_xor, int_and, int_or, int_xor", "src/compiler/sema_expr.c:sema_expr_analyse_bit"]}
{"id": "C06", "title": "Compile-time comparison is the mathematical order, also across signedness", "statement": "For any two integer constants of any two integer types, each of <, <=, >, >=, ==, != folded at compile time equals the comparison of the mathematical values; the same holds for the comparisons against machine-word literals used by the compiler's own range checks.", "quantifier": "all pairs of types and values, all six operators", "why_tests_cant": "mixed-sign comparison goes wrong only near the 2^63/2^127 boundaries", "anchors": ["src/compiler/bigint.c:i128_scomp, i128_ucomp, int_compare, int_comp, int_icomp, int_ucomp, int_signed_compare, int_unsigned_compare, binary_op_matches_res"]}
{"id": "C07", "title": "The fits-in-type check and the bits-needed computation are exact", "statement": "The compiler accepts a constant for an integer type exactly when its mathematical value lies in the range of the type, and the number of bits it reports as needed is the minimal width of a two's complement (signed) or binary (unsigned) representation.", "quantifier": "all constants of all ten types against all ten target types", "why_tests_cant": "range boundaries for each of 100 type pairs, over 2^128 values", "anchors": ["src/compiler/bigint.c:int_fits, int_bits_needed, i128_clz, clz64", "src/compiler/number.c:expr_const_will_overflow"]}
{"id": "C08", "title": "Explicit integer conversion of constants is reduction modulo 2^N", "statement": "Casting a constant of any integer type to any integer type at compile time yields the unique value of the target type congruent modulo 2^N to the source value.", "quantifier": "all 100 ordered pairs of integer types, all values", "why_tests_cant": "2^128 values per pair, with four code paths", "anchors": ["src/compiler/bigint.c:int_conv, i128_extend", "src/compiler/sema_casts.c:cast_int_to_int"]}
{"id": "C09", "title": "Printing a constant and reading it back is the identity", "statement": "The text produced for an integer constant in base 2..16 is the positional representation of its value (with a minus sign exactly for negative signed values and the base prefix when requested), and re-reading the decimal text of a non-negative value gives the same constant.", "quantifier": "all 128-bit values, all bases 2..16", "why_tests_cant": "2^128 values; buffer bounds depend on the number of digits", "anchors": ["src/compiler/bigint.c:i128_to_string, int_to_str, i128_from_str, i128_from_strl"]}
{"id": "C10", "title": "Leading zero, trailing zero and population counts are exact", "statement": "The branch-free bit counting used by the compiler's wide integers returns the number of leading zeros, trailing zeros and set bits of every 64- and 128-bit word.", "quantifier": "all 64-bit and 128-bit words", "why_tests_cant": "bit tricks over 2^64 words", "anchors": ["src/compiler/bigint.c:clz64, ctz64, popcnt64, i128_clz, i128_ctz, i128_popcnt"]}
{"id": "C11", "title": "An accepted integer literal denotes the number its digits spell", "statement": "For every integer literal token (decimal, 0x, 0o, 0b, with _ separators and optional suffix) the compiler either reports an error or produces a constant whose value is the number spelled by the digits in that base.", "quantifier": "all literal strings of any length", "why_tests_cant": "overflow detection errors only show for particular digit strings beyond 2^125", "anchors": ["src/compiler/parse_expr.c:parse_integer, read_int_suffix, read_num_type"]}
{"id": "C12", "title": "The type of an integer literal is the documented one", "statement": "A suffix selects exactly that signedness and width or the literal is rejected; an unsuffixed hexadecimal/octal/binary literal gets the smallest power-of-two width covering its written digits; an unsuffixed decimal literal gets the first of int, long, int128 that holds it.", "quantifier": "all literal strings", "why_tests_cant": "combinatorial over digits, separators and suffixes", "anchors": ["src/compiler/parse_expr.c:parse_integer, read_int_suffix, read_num_type", "src/utils/lib.h:is_power_of_two, next_highest_power_of_2"]}
{"id": "C13", "title": "Byte literals x\"..\" and b64\"..\" decode to the written bytes", "statement": "For every sequence of adjacent hex and base64 byte literals accepted by the lexer, the resulting constant is the concatenation, in order, of the decoded bytes of each piece.", "quantifier": "all sequences of byte literals of any length", "why_tests_cant": "lengths and alignments of 4-character groups and padding are unbounded", "anchors": ["src/compiler/parse_expr.c:parse_bytes_expr, parse_hex, parse_base64, base64_to_sextet", "src/compiler/lexer.c:scan_hex_array, scan_base64"]}
{"id": "C14", "title": "Lexer positions: every scan stays inside the source and tokens appear in order", "statement": "Lexing any zero-terminated source never reads beyond the terminator, always terminates, and yields tokens whose text ranges are non-empty (except at end of file), in order and non-overlapping, with everything between them being whitespace or comments.", "quantifier": "all source texts", "why_tests_cant": "unbounded inputs; a missed end-of-file check only shows for files ending at that exact construct", "anchors": ["src/compiler/lexer.c:next, peek, prev, match, reached_end, skip_whitespace, parse_line_comment, parse_multiline_comment, lexer_scan_token_inner, lexer_next_token"]}
{"id": "C15", "title": "Block comments nest", "statement": "A /* ... */ comment ends at the */ that balances its opening /*, for any nesting depth; an unterminated comment is skipped to the end of file without passing it.", "quantifier": "all comment bodies and nesting depths", "why_tests_cant": "nesting depth is unbounded", "anchors": ["src/compiler/lexer.c:parse_multiline_comment, skip_whitespace"]}
{"id": "C16", "title": "Identifier classification", "statement": "A name token covers the longest run of letters, digits and underscores (after an optional prefix @, # or $) and is classified solely by its letters: a lower-case first letter means identifier, an upper-case first letter with some lower-case letter means type, only upper-case letters mean constant; keywords give their own token. It is rejected exactly when a digit comes before the first letter or there is no letter, except that a single underscore is a token of its own.", "quantifier": "all names of all lengths", "why_tests_cant": "unbounded strings", "anchors": ["src/compiler/lexer.c:scan_ident", "src/utils/stringutils.c:str_is_type, str_is_identifier, str_is_constant"]}
{"id": "C17", "title": "String literal escapes encode as UTF-8", "statement": "The bytes of a string literal are its source bytes with each escape replaced by the byte or by the UTF-8 encoding of the code point it denotes.", "quantifier": "all string literals", "why_tests_cant": "unbounded strings and all code points", "anchors": ["src/compiler/lexer.c:scan_string, append_esc_string_token, scan_hex_literal"]}
{"id": "C18", "title": "Identifier interning: same spelling if and only if same symbol", "statement": "After any history of identifier registrations, two spellings get the same symbol pointer exactly when they are byte-equal, earlier symbols are never moved or changed, and a token's keyword kind is retained, whatever the hash collisions.", "quantifier": "all histories of insertions and look-ups, all hash behaviours", "why_tests_cant": "hash collisions and table sizes are adversarial", "anchors": ["src/compiler/symtab.c:symtab_add, symtab_find, symtab_init"]}
{"id": "C19", "title": "The pointer-keyed tables behave like a finite map at every load", "statement": "After any history of calls and of the resizes they trigger, STable looks up the value of the latest set for the key, HTable the first one (its set reports it, which is how callers detect duplicates), DeclTable all declarations entered under the name in order; keys never set give nothing; probing terminates.", "quantifier": "all histories of operations, all initial sizes the asserts permit (STable and DeclTable: fewer than 2^28 operations)", "why_tests_cant": "resizing and wrap-around probing depend on history", "anchors": ["src/compiler/symtab.c:stable_set, stable_get, stable_resize, htable_set, htable_get", "src/compiler/decltable.c:decltable_set, decltable_get, decltable_resize"]}
{"id": "C20", "title": "Growable vectors behave like sequences", "statement": "The compiler's growable vector (append, pop, erase, insert, resize) behaves like a mathematical sequence under any history, never writing outside its allocation.", "quantifier": "all operation histories", "why_tests_cant": "reallocation boundary is history dependent", "anchors": ["src/utils/lib.h:vec_add, expand_, vec_new_, vec_pop, vec_erase_front, vec_erase_at, vec_insert_first, vec_resize"]}
{"id": "C21", "title": "Project JSON parsing", "statement": "For every JSON value (objects, arrays, strings, numbers, booleans, null), parsing any standard rendering of it yields that value; keys look up to the last value given for them.", "quantifier": "all JSON values, all nesting depths", "why_tests_cant": "unbounded nesting and lengths", "anchors": ["src/utils/json.c:json_parse, json_parse_object, json_parse_array, json_parse_number, json_parse_string, json_map_set, json_map_get"]}
{"id": "C22", "title": "Parallel code generation runs every task exactly once", "statement": "For every number of worker threads and every schedule, running the task queue executes each queued task exactly once, and the call returns only after every task has finished.", "quantifier": "all task lists, thread counts and interleavings", "why_tests_cant": "the number of interleavings is unbounded", "anchors": ["src/utils/taskqueue.c:taskqueue_run, taskqueue_thread"]}
{"id": "C23", "title": "Arena allocations never overlap and are aligned", "statement": "Every block handed out by the compiler's bump arenas is 16-byte aligned, inside the reserved region, and disjoint from every block handed out before, for any history of requests; a request that does not fit is refused, not wrapped.", "quantifier": "all allocation histories", "why_tests_cant": "histories and sizes are unbounded", "anchors": ["src/utils/malloc.c:malloc_arena, calloc_arena", "src/utils/vmem.c:vmem_alloc"]}
{"id": "C24", "title": "Struct layout", "statement": "For every struct declaration (packed or not, with alignment attributes), fields get increasing, non-overlapping, correctly aligned offsets, the struct's alignment is the maximum required, its size is a multiple of the alignment covering all fields with minimal padding; unions overlay at offset 0 with the size of the largest member rounded up.", "quantifier": "all member lists, sizes and alignments", "why_tests_cant": "unbounded member lists", "anchors": ["src/compiler/sema_decls.c:sema_analyse_struct_members, sema_analyse_union_members", "src/compiler/types.c:type_create_struct, aligned_offset"]}
{"id": "C25", "title": "Implicit conversion never silently loses integer information", "statement": "If the compiler accepts an implicit (non-cast) conversion of an integer expression to another integer type, then for every run-time value of the variables the converted value equals the value of the original expression evaluated at the target width's sources, i.e. every leaf fits the target type.", "quantifier": "all expressions and all values", "why_tests_cant": "expression trees are unbounded", "anchors": ["src/compiler/sema_casts.c:rule_widen_narrow, recursive_may_narrow", "src/compiler/number.c:expr_const_will_overflow"]}
{"id": "C26", "title": "Operator precedence and associativity", "statement": "For every expression tree over the binary operators, writing it with only the parentheses required by the documented precedence table and associativity and parsing it gives back the same tree, and the parser consumes exactly those tokens.", "quantifier": "all expression trees of all depths", "why_tests_cant": "unbounded nesting", "anchors": ["src/compiler/parse_expr.c:parse_precedence, parse_precedence_with_left_side, parse_binary, parse_ternary_expr, rules"]}
{"id": "C27", "title": "Constant equality and inequality are complementary", "statement": "For any two comparable compile-time constants, folding a != b gives the negation of folding a == b, and == is true exactly when the values are equal.", "quantifier": "all pairs of constants of every comparable kind", "why_tests_cant": "all kinds times unbounded strings", "anchors": ["src/compiler/number.c:expr_const_compare, compare_bool, compare_fps"]}
{"id": "C28", "title": "Switch: duplicate and overlapping cases are detected and the right case runs", "statement": "For every switch over integers or enums with constant cases and ranges, the compiler rejects it exactly when two cases overlap, and an accepted switch transfers every scrutinee value to the only case containing it, or to default.", "quantifier": "all case lists and all values", "why_tests_cant": "pairs of 128-bit ranges", "anchors": ["src/compiler/sema_stmts.c:sema_check_value_case, sema_analyse_switch_body", "src/compiler/number.c:expr_const_in_range"]}
{"id": "C29", "title": "Only unreachable declarations are dropped", "statement": "Every declaration reachable from an entry point through calls, types and globals is marked live, and tracing terminates on cyclic reference graphs.", "quantifier": "all reference graphs", "why_tests_cant": "cyclic graphs of unbounded size", "anchors": ["src/compiler/sema_liveness.c:sema_trace_liveness, sema_trace_decl_liveness"]}
{"id": "C30", "title": "Bidirectional control characters must balance", "statement": "A source file containing Unicode bidirectional control characters is accepted exactly when every opening control (embedding, override or isolate) is closed by a control of its own kind.", "quantifier": "all texts", "why_tests_cant": "unbounded nesting", "anchors": ["src/compiler/lexer.c:check_bidirectional_markers"]}
{"id": "C31", "title": "std base64 encode/decode round-trip", "statement": "For every byte string, every padding choice and both built-in alphabets, decode(encode(x)) = x, the encoded length is encode_len(len), and no access leaves the buffers.", "quantifier": "all byte strings", "why_tests_cant": "unbounded length; three residues times padding", "anchors": ["lib/std/encoding/base64.c3:encode_buffer, decode_buffer, encode_len, decode_len"]}
{"id": "C32", "title": "std base32 encode/decode round-trip", "statement": "For every byte string, padding choice and both built-in alphabets, decoding the encoding into any buffer at least as large as required gives back the bytes.", "quantifier": "all byte strings, all destination sizes", "why_tests_cant": "unbounded length; five residues", "anchors": ["lib/std/encoding/base32.c3:encode_buffer, decode_buffer, encode_len, decode_len"]}
{"id": "C33", "title": "std hex encode/decode round-trip and rejection", "statement": "decode(encode(x)) = x for every byte string; decoding succeeds exactly on even-length strings of hex digits and is case-insensitive.", "quantifier": "all strings", "why_tests_cant": "unbounded length", "anchors": ["lib/std/encoding/hex.c3:encode_bytes, decode_bytes"]}
{"id": "C34", "title": "std UTF-8/16/32 conversions", "statement": "Converting any sequence of Unicode scalar values to UTF-8 or UTF-16 and back gives the sequence; the length functions give exactly the number of units written; the UTF-8 decoder accepts exactly well-formed UTF-8.", "quantifier": "all sequences of scalar values, all byte strings", "why_tests_cant": "unbounded strings", "anchors": ["lib/std/core/conv.c3:char32_to_utf8, utf8_to_char32, utf32to8, utf8to32, char16_to_utf8_unsafe, char32_to_utf16_unsafe, utf8len_for_utf32, utf16len_for_utf32"]}
{"id": "C35", "title": "std List behaves like a sequence", "statement": "Any history of push, pop, insert_at, remove_at, push_front, add_array, reverse, swap, set, remove_if, retain_if, clear on a List has the effect of the same history on a mathematical sequence, and every access stays below the capacity.", "quantifier": "all histories and element values", "why_tests_cant": "capacity growth and shifting depend on history", "anchors": ["lib/std/collections/list.c3:List.*", "lib/std/collections/list_common.c3"]}
{"id": "C36", "title": "std RingBuffer keeps the latest elements in order", "statement": "After any history of pushes the buffer of capacity n indexes, oldest first, the last min(n, pushes) elements; pop removes and returns the newest element; read copies the requested window and touches only the buffer.", "quantifier": "all histories, capacities and windows", "why_tests_cant": "wrap-around depends on history", "anchors": ["lib/std/collections/ringbuffer.c3:RingBuffer.push, get, pop, read, write"]}
{"id": "C37", "title": "std PriorityQueue always pops an extremal element", "statement": "After any history of push, pop and remove_at, pop returns a minimal (maximal for the Max variant) element of the multiset of elements present and removes exactly that one.", "quantifier": "all histories", "why_tests_cant": "heap shape depends on history", "anchors": ["lib/std/collections/priorityqueue.c3:push, pop, remove_at, first"]}
{"id": "C38", "title": "std quicksort sorts", "statement": "For every list and every total preorder comparison, quicksort terminates, never overflows its fixed 64-entry range stack, and leaves a sorted permutation of the input.", "quantifier": "all lists, all comparisons", "why_tests_cant": "stack bound depends on adversarial inputs up to 2^63 elements", "anchors": ["lib/std/sort/quicksort.c3:qsort, @partition"]}
{"id": "C39", "title": "std quickselect returns the k-th smallest element", "statement": "For every list and every k below its length quickselect returns the element of rank k.", "quantifier": "all lists and ranks", "why_tests_cant": "adversarial orderings of unbounded length", "anchors": ["lib/std/sort/quicksort.c3:qselect, @partition"]}
{"id": "C40", "title": "std insertion sort is a stable sort", "statement": "For every list and total preorder, insertionsort yields a sorted permutation keeping equal elements in input order.", "quantifier": "all lists", "why_tests_cant": "unbounded length", "anchors": ["lib/std/sort/insertionsort.c3:isort"]}
{"id": "C41", "title": "std binarysearch finds the element or its insertion point", "statement": "On every sorted list, binarysearch returns an index holding an equal element if there is one, and otherwise the unique position where x can be inserted keeping the list sorted.", "quantifier": "all sorted lists and keys", "why_tests_cant": "unbounded length", "anchors": ["lib/std/sort/binarysearch.c3:binarysearch"]}
{"id": "C42", "title": "std is_sorted recognises ascending and descending lists", "statement": "For every list and every comparison function of a total preorder, is_sorted returns true exactly if the list is ascending or descending.", "quantifier": "all lists, all comparison functions", "why_tests_cant": "depends on the magnitude of comparison results and the length of runs of equal elements", "anchors": ["lib/std/sort/sorted.c3:is_sorted, @sort_cmp"]}
{"id": "C43", "title": "Loading a source file drops the byte order mark and carriage returns and nothing else", "statement": "Reading a file leaves a NUL-terminated buffer holding exactly the bytes of the file without a leading UTF-8 byte order mark and without carriage returns, never touching memory outside the buffer; files starting like UTF-16 are rejected.", "quantifier": "all files of all lengths", "why_tests_cant": "the compaction is done in place over buffers of any length", "anchors": ["src/utils/file_utils.c:file_clean_buffer, file_read_all"]}
{"id": "C44", "title": "Character literals denote their bytes, big endian", "statement": "A character literal of 1, 2, 4, 8 or 16 bytes (characters and escapes) denotes the number with these bytes, the most significant first; longer literals are rejected; a literal holding one UTF-8 encoded character denotes its code point.", "quantifier": "all character literals, all code points", "why_tests_cant": "all code points and all combinations of escapes", "anchors": ["src/compiler/lexer.c:scan_char, scan_utf8, scan_hex_literal"]}
{"id": "C45", "title": "Operators are read by maximal munch", "statement": "Where the text continues with an operator, the token read is the longest operator of the language that is a prefix of the text; <* opens and *> closes a contract.", "quantifier": "all texts, in and outside contracts", "why_tests_cant": "all continuations of all operators", "anchors": ["src/compiler/lexer.c:lexer_scan_token_inner"]}
{"id": "C46", "title": "Token locations", "statement": "The row, column and length reported for a token are those of its text: one more than the line breaks before it, one more than the bytes between the last line break and it, and its number of bytes (0 if they do not fit a byte; length 1 for tokens with line breaks).", "quantifier": "all source texts, all tokens", "why_tests_cant": "rows and columns are kept incrementally through all scanners, comments and backtracking", "anchors": ["src/compiler/lexer.c:set_generic_token, next, backtrack, begin_new_token"]}
{"id": "C47", "title": "A project file that is written reads back", "statement": "For every JSON value, the file written for it by print_json_to_file is read back as that value.", "quantifier": "all JSON values", "why_tests_cant": "unbounded nesting and lengths; strings with any bytes", "anchors": ["src/utils/json.c:print_json, print_json_to_file, json_parse", "src/build/project_manipulation.c:add_target_project"]}
{"id": "C48", "title": "Constant folding agrees with run-time evaluation", "statement": "Whenever the compiler evaluates part of an integer expression itself, the program computes what it would have computed had that part been evaluated at run time; an expression made of literals becomes one literal; no expression whose value is defined is refused while folding.", "quantifier": "all integer expressions over all operators and types, all values of variables", "why_tests_cant": "all values of all types to 128 bits through arbitrarily nested operators; the compiler's arithmetic (bigint.c) and the emitted instructions are separate implementations", "anchors": ["src/compiler/sema_expr.c:sema_expr_analyse_add/sub/mult/div/mod/bit/shift/neg_plus/bit_not", "src/compiler/sema_casts.c:cast_int_to_int", "src/compiler/llvm_codegen_expr.c:llvm_emit_binary"]}
{"id": "C49", "title": "Only JSON is read from project files", "statement": "If the reader returns a value for a text, then the text is a JSON text (with comments and trailing commas as extensions) for exactly this value; every other text is refused with an error.", "quantifier": "all texts", "why_tests_cant": "the texts to be refused are infinitely many and of unbounded nesting", "anchors": ["src/utils/json.c:json_lexer_advance, json_parse_string, json_parse_number, json_parse, json_parse_array, json_parse_object"]}
{"id": "C50", "title": "Percent encoding is lossless", "statement": "url::encode writes exactly the bytes that may not stand in the given part of an URL as % and two hexadecimal digits, in encode_len bytes; url::decode gives back every encoded string, decodes every text without a stray % to the bytes it stands for in decode_len bytes, and returns INVALID_HEX for all others.", "quantifier": "all byte strings, all encoding modes", "why_tests_cant": "all strings over all 256 bytes and six modes", "anchors": ["lib/std/net/url_encoding.c3:encode, decode, encode_len, decode_len, should_encode"]}
{"id": "C51", "title": "Searching and trimming strings", "statement": "index_of, rindex_of, index_of_char, rindex_of_char, index_of_char_from and index_of_chars return the first or last position at which what is searched for stands, and NOT_FOUND only if there is none; contains, starts_with and ends_with decide whether it stands anywhere, at the front, at the back; strip, strip_end and trim remove exactly what they name. None of them reads outside of the string.", "quantifier": "all strings, all needles, all character sets", "why_tests_cant": "the partial match and restart logic depends on overlaps of needle and string of every length", "anchors": ["lib/std/core/string.c3:index_of, rindex_of, index_of_char, index_of_chars, contains, starts_with, ends_with, strip, strip_end, trim"]}
{"id": "C52", "title": "Splitting is the inverse of joining", "statement": "String.split cuts a string at exactly the non-overlapping occurrences of the delimiter found from the left, joining the pieces with the delimiter gives back the string, max limits the number of pieces and leaves the rest in the last one, skip_empty drops exactly the empty pieces, and a Splitter yields the same pieces as split.", "quantifier": "all strings, all non-empty delimiters, all limits", "why_tests_cant": "all strings of any length and delimiters overlapping themselves", "anchors": ["lib/std/core/string.c3:split, join, tokenize, Splitter.next"]}
{"id": "C53", "title": "Reading integers from text", "statement": "String.to_integer returns the value of every text of blanks, sign, prefix and digits whose value the type holds, INTEGER_OVERFLOW for every text whose value it does not hold, NEGATIVE_VALUE for a minus sign at an unsigned type, and a fault for everything else.", "quantifier": "all byte strings, all integer types, all supported bases", "why_tests_cant": "all digit strings of any length; the overflow check is by comparison after wrapping", "anchors": ["lib/std/core/string.c3:String.to_integer"]}
{"id": "C54", "title": "A hash map is a dictionary", "statement": "For any key type whose equality is an equivalence that the hash respects, any sequence of set, get, has_key, get_or_set, remove, clear and len on a HashMap returns what the same sequence returns on an association list, whatever collisions, growth and addresses occur; iteration, keys and values give each pair exactly once; an iterator asked for indices in any order is consistent; a copy has the same pairs; removed and cleared entries are freed exactly once and nothing is leaked; no step reads freed or null memory.", "quantifier": "all key types with lawful equality and hash, all load factors, capacities, allocators and operation sequences shorter than 2^32", "why_tests_cant": "Collisions, chains and rehashing depend on hash values, load factor and history; tests exercise a few histories and cannot see leaks or dangling chain links for all of them.", "anchors": ["lib/std/collections/hashmap.c3:46-590"]}
{"id": "C55", "title": "Deferred statements run at every exit of their scope, and only there", "statement": "The compiler copies deferred statements to the places where scopes are left and drops unreachable code. For every function it accepts, the resulting code has the same effects in the same order, and ends in the same way, as the function in which each deferred statement runs once when its scope is left, whether by reaching the end, break, continue, nextcase, return or a rethrown fault, latest first, `defer try` only without and `defer catch` only with a fault; no deferred statement can itself be left by a jump.", "quantifier": "all nestings of statements and jumps, all effects of basic statements, all states, all finite parts of runs", "why_tests_cant": "Every combination of nesting, label, kind of defer and kind of exit is a separate path in the analysis; tests show a few of unboundedly many.", "anchors": ["src/compiler/semantic_analyser.c:77", "src/compiler/sema_stmts.c:174", "src/compiler/sema_stmts.c:419", "src/compiler/sema_stmts.c:1759", "src/compiler/sema_stmts.c:3016", "src/compiler/sema_expr.c:8449"]}
{"id": "C56", "title": "A function with a result never reaches its end", "statement": "If the compiler accepts a function with a result, no run of it reaches the end of its body without a return: the check for a missing return is sound.", "quantifier": "all functions over all statements, all states, all finite parts of runs", "why_tests_cant": "The check is a static approximation over all nestings of conditions, loops, switches and labelled jumps.", "anchors": ["src/compiler/sema_stmts.c:3207", "src/compiler/sema_stmts.c:1843", "src/compiler/llvm_codegen_function.c:388"]}
{"id": "C57", "title": "The basic blocks of a function do what its source does", "statement": "For every function the compiler accepts and emits, running its LLVM basic blocks from the entry returns from a state exactly when the source does, with the same fault or none and the same effects; when the source goes on forever so do the blocks, with the same effects by every point; and the blocks never branch to a block that was removed or never made and never reach an `unreachable`.", "quantifier": "all nestings of conditions, loops, switches, jumps and deferred statements, all effects of basic statements, all states, all runs including infinite ones", "why_tests_cant": "Emission depends on which blocks are in use, empty or already terminated at every point of an unboundedly nested function; a test compiles one function and runs one path.", "anchors": ["src/compiler/llvm_codegen_stmt.c:355", "src/compiler/llvm_codegen_stmt.c:499", "src/compiler/llvm_codegen_stmt.c:925", "src/compiler/llvm_codegen_function.c:506"]}
{"id": "C58", "title": "Constants are what their initializers say", "statement": "A variable or constant with a constant initializer, however lists, designators, ranges and nested initializers are combined, holds in each scalar part the value its initializer gives to this part, and zero where it gives none: a later designator replaces what an earlier one stored there and nothing else, save that other members of a union are lost. The emitted constant has all members of structs and exactly the elements of arrays.", "quantifier": "all types built from structs, unions and arrays, all initializers, all parts", "why_tests_cant": "The initializer is a tree changed in place by every designator, with sparse arrays, sharing and lazily expanded zeros; each order and nesting of designators is a different history of the tree.", "anchors": ["src/compiler/sema_initializers.c:556", "src/compiler/sema_initializers.c:860", "src/compiler/sema_initializers.c:938", "src/compiler/sema_initializers.c:1046", "src/compiler/sema_initializers.c:1127", "src/compiler/llvm_codegen.c:232"]}
{"id": "C59", "title": "Members of a bitstruct in an integer", "statement": "A member of a bitstruct in an integer reads as the bits from its first to its last one, extended by its type; assigning to it stores the value, truncated to these bits, and changes no other bit of the object; members with no bits in common do not influence each other. With a byte order attribute the object has this order on every platform. Initializing the bitstruct, as code or as a constant, gives the same bytes, in which each member has its value and bits of no member are zero.", "quantifier": "all containers up to any size, all members, values, objects, both platforms and all byte orders", "why_tests_cant": "Shifts, masks and sign extension depend on the first bit, the last one, the width of the type and of the container: no set of layouts covers the combinations.", "anchors": ["src/compiler/llvm_codegen_expr.c:978", "src/compiler/llvm_codegen_expr.c:1128", "src/compiler/llvm_codegen_expr.c:1154", "src/compiler/llvm_codegen_expr.c:1548", "src/compiler/llvm_codegen_expr.c:1916"]}
{"id": "C60", "title": "Members of a bitstruct in an array", "statement": "The same for bitstructs that are arrays: a member reads as its bits, an assignment stores these bits and no others, and a constant has the bytes that the code for the initializer would store. With @bigendian the bytes of a member are in reverse.", "quantifier": "all lengths, members, values, objects, both platforms and all byte orders", "why_tests_cant": "The member is put together from parts of the first byte, whole bytes and a part of the last one; each alignment of start and end is another path.", "anchors": ["src/compiler/llvm_codegen_expr.c:906", "src/compiler/llvm_codegen_expr.c:914", "src/compiler/llvm_codegen_expr.c:1023", "src/compiler/llvm_codegen_expr.c:1840"]}
{"id": "C61", "title": "Bitwise operators on constant bitstructs", "statement": "~, &, | and ^ on constant bitstructs give, in every member, what the same operators give at run time.", "quantifier": "all bitstructs, all constants", "why_tests_cant": "Constants are folded member by member, with masks from the member's type and its range, while the code works on the whole object; they agree only if every member does.", "anchors": ["src/compiler/sema_initializers.c:641", "src/compiler/sema_initializers.c:691", "src/compiler/llvm_codegen_expr.c:2411", "src/compiler/llvm_codegen_expr.c:3921"]}
{"id": "C62", "title": "Bitstructs that are accepted", "statement": "A bitstruct is accepted exactly if all of its members or none of them have ranges, each member is of an integer, enum or bool type, lies in the container, is not wider than its type, no two members have bits in common unless @overlap is given, and the container has at most 4096 bits. Without ranges the members are bools in consecutive bits.", "quantifier": "all declarations", "why_tests_cant": "Ranges are constants of any integer type, up to 128 bits and of both signs; and each pair of members has to be apart.", "anchors": ["src/compiler/sema_decls.c:723", "src/compiler/sema_decls.c:1052", "src/compiler/parse_global.c:1866"]}
{"id": "C63", "title": "Modules form a hierarchy by their paths", "statement": "Each module has as its parent the module of its path without the last identifier, and as its top the module of the first; missing ones are added. A path fits a module just if its identifiers are the last of the module's path. Two modules are related just if one is, or is in, the other. A declaration is visible in a file just if it is in the same module; or it is public, and in a related module, in std::core, or reached by an import; or it is @private and reached by an import that is @public. Imports that are @norecurse reach one module only.", "quantifier": "all module paths, imports and declarations", "why_tests_cant": "Paths are compared as text from the end, related modules by climbing until lengths agree; `io::file` and `o::file`, or `a::bc` and `a::b`, must be kept apart for all names.", "anchors": ["src/compiler/sema_passes.c:7", "src/compiler/sema_passes.c:20", "src/compiler/sema_passes.c:27", "src/compiler/sema_name_resolution.c:13", "src/compiler/sema_name_resolution.c:211", "src/compiler/sema_name_resolution.c:230"]}
{"id": "C64", "title": "A name stands only for what the file may use", "statement": "If a name, with or without a path, is resolved to a declaration, then that has this name, its module is one which the path fits, and the file may use it: @local declarations only in their own file, @private ones only in their module or through a @public import. If two are reported as ambiguous, both may be used.", "quantifier": "all programs, files, paths, names", "why_tests_cant": "There are four searches, each with its own filter, and any of them may let a declaration through.", "anchors": ["src/compiler/sema_name_resolution.c:13", "src/compiler/sema_name_resolution.c:123", "src/compiler/sema_name_resolution.c:132", "src/compiler/sema_name_resolution.c:211", "src/compiler/sema_name_resolution.c:230", "src/compiler/sema_name_resolution.c:293", "src/compiler/sema_name_resolution.c:321", "src/compiler/sema_name_resolution.c:357", "src/compiler/sema_name_resolution.c:426", "src/compiler/sema_name_resolution.c:501", "src/compiler/sema_name_resolution.c:738"]}
{"id": "C65", "title": "What a file may use is found", "statement": "The search for a name always ends without a fault. If the file declares the name, or may use a declaration of that name in a module that the path fits, then the name is resolved or reported as ambiguous, and never as missing; if there is just one, the name stands for it.", "quantifier": "all programs, files, paths, names", "why_tests_cant": "A declaration that a search passes over must be found by a later one, whatever other declarations have the same name.", "anchors": ["src/compiler/sema_name_resolution.c:13", "src/compiler/sema_name_resolution.c:123", "src/compiler/sema_name_resolution.c:132", "src/compiler/sema_name_resolution.c:211", "src/compiler/sema_name_resolution.c:230", "src/compiler/sema_name_resolution.c:293", "src/compiler/sema_name_resolution.c:321", "src/compiler/sema_name_resolution.c:357", "src/compiler/sema_name_resolution.c:426", "src/compiler/sema_name_resolution.c:501", "src/compiler/sema_name_resolution.c:738"]}
{"id": "C66", "title": "Which declaration a name stands for", "statement": "A name stands for the innermost local variable of that name, else for what the file declares, else for what its module declares, else, with a path, for the only one in the modules that the file imports, else for the only one it may use, or the only builtin one of these; if there are several it is ambiguous. This does not depend on the order of modules, files, declarations or imports.", "quantifier": "all programs, files, paths, names, orders", "why_tests_cant": "The candidates are met in the order of registration and folded one by one; independence of the order needs all orders.", "anchors": ["src/compiler/sema_name_resolution.c:132", "src/compiler/sema_name_resolution.c:293", "src/compiler/sema_name_resolution.c:321", "src/compiler/sema_name_resolution.c:357", "src/compiler/sema_name_resolution.c:426", "src/compiler/sema_name_resolution.c:501", "src/compiler/sema_name_resolution.c:738"]}
{"id": "C67", "title": "Different types have different typeid symbols", "statement": "The symbols of the type ids of two runtime types are the same just if the types are the same, so that a typeid in one object file cannot be merged with that of another type.", "quantifier": "all pairs of types, nested to any depth, of any modules", "why_tests_cant": "Two mangled names may only agree for types nobody thought of comparing; it needs all pairs.", "anchors": ["src/compiler/types.c:111", "src/compiler/types.c:552", "src/compiler/module.c:13", "src/compiler/ast.c:462", "src/compiler/sema_types.c:644", "src/compiler/llvm_codegen_type.c:437"]}
{"id": "C68", "title": "Uses of a generic module share an instance just if their arguments are the same", "statement": "Whatever uses of generic modules a program makes, in whatever order, uses with the same module and arguments get the same instance, and each use gets an instance made for its own arguments.", "quantifier": "all sequences of uses, all arguments", "why_tests_cant": "Instances are found by a generated name. Whether two different argument lists have the same name needs all pairs of lists.", "anchors": ["src/compiler/types.c:552", "src/compiler/module.c:13", "src/compiler/ast.c:462", "src/compiler/sema_decls.c:4686", "src/compiler/sema_decls.c:4893"]}
{"id": "C69", "title": "Different functions and variables have different symbols", "statement": "Two global declarations which have the same symbol in the object files have the same name, are in the same module, and are methods of the same type or both no methods.", "quantifier": "all pairs of declarations", "why_tests_cant": "Symbols join path, type and name by the same separators; ambiguity needs all pairs.", "anchors": ["src/compiler/module.c:13", "src/compiler/ast.c:462"]}
{"id": "C70", "title": "Blocks of an arena are sound and keep their contents", "statement": "Whatever a program acquires from, releases to, resizes in and resets of an ArenaAllocator within the contracts of the interface: the blocks it has are inside of the arena, aligned as asked for and share no byte, calls do not change the contents of other blocks, a resized block keeps what fits, ZERO blocks are zero, and nothing outside of the arena is written.", "quantifier": "all memories, arenas, sequences of calls and writes", "why_tests_cant": "Whether blocks overlap depends on the whole history of calls, sizes and alignments.", "anchors": ["lib/std/core/allocators/arena_allocator.c3:69", "lib/std/core/allocators/arena_allocator.c3:89", "lib/std/core/allocators/arena_allocator.c3:115"]}
{"id": "C71", "title": "Blocks of the simple heap are sound and no memory is lost", "statement": "The claims of C70 for SimpleHeapAllocator, whatever memory it is given by its function; every call comes to an end, a block is refused only if the function gave no memory, and when all is given back every region can be had again as a whole.", "quantifier": "all providers of memory, all sequences of calls and writes", "why_tests_cant": "The free list lives in the memory it manages and is split and joined by every call; loops and losses need particular histories.", "anchors": ["lib/std/core/allocators/heap_allocator.c3:24", "lib/std/core/allocators/heap_allocator.c3:33", "lib/std/core/allocators/heap_allocator.c3:74", "lib/std/core/allocators/heap_allocator.c3:141"]}
{"id": "C72", "title": "Blocks of the temp allocator are where they should be", "statement": "A block acquired from or resized in a TempAllocator or BackedArenaAllocator is either in the unused part of the arena, or inside of a page which was acquired for it, has the alignment asked for, and keeps its contents; nothing outside of it is written.", "quantifier": "all states of the allocator, all sizes and alignments, all backing allocators", "why_tests_cant": "The size of a page is computed from size, alignment and header; whether it is enough depends on the address the backing allocator returns.", "anchors": ["lib/std/core/allocators/temp_allocator.c3:201", "lib/std/core/allocators/temp_allocator.c3:251", "lib/std/core/allocators/backed_arena_allocator.c3:141"]}
{"id": "C73", "title": "Blocks of a dynamic arena are sound and keep their contents", "statement": "The claims of C70 for DynamicArenaAllocator, whatever memory its backing allocator gives it.", "quantifier": "all backing allocators, page sizes, sequences of calls and writes", "why_tests_cant": "Which block a page takes for its last one depends on the history of calls; an overlap shows only if a later block is written.", "anchors": ["lib/std/core/allocators/dynamic_arena.c3:67", "lib/std/core/allocators/dynamic_arena.c3:83", "lib/std/core/allocators/dynamic_arena.c3:134", "lib/std/core/allocators/dynamic_arena.c3:165"]}
{"id": "C74", "title": "Blocks of an allocator on the stack are sound and keep their contents", "statement": "The claims of C70 for OnStackAllocator; what does not fit on the stack is a block of the backing allocator.", "quantifier": "all memories, sequences of calls and writes, all backing allocators", "why_tests_cant": "Overwritten neighbours and non-zero blocks only show for particular sizes and earlier contents of the stack.", "anchors": ["lib/std/core/allocators/on_stack_allocator.c3:61", "lib/std/core/allocators/on_stack_allocator.c3:107", "lib/std/core/allocators/on_stack_allocator.c3:127"]}
{"id": "C75", "title": "128-bit division is division", "statement": "a / b and a % b on uint128 are quotient and remainder, and on int128 they round toward zero, for every a and every b but 0; division by 0 traps.", "quantifier": "all pairs of 128-bit integers", "why_tests_cant": "2^256 pairs, and the code has ten cases by the shape of the operands, with a loop whose borrow test reads a sign bit that is only right because of the shift before it.", "anchors": ["lib/std/math/runtime/i128.c3:3", "lib/std/math/runtime/i128.c3:13", "lib/std/math/runtime/i128.c3:185", "lib/std/math/runtime/i128.c3:195"]}
{"id": "C76", "title": "128-bit multiplication is multiplication", "statement": "a * b on 128-bit integers is the product reduced to 128 bits, with and without sign.", "quantifier": "all pairs of 128-bit integers", "why_tests_cant": "A lost carry between the partial products shows only for particular words.", "anchors": ["lib/std/math/runtime/i128.c3:271", "lib/std/math/runtime/i128.c3:290"]}
{"id": "C77", "title": "128-bit shifts are shifts", "statement": "For 0 <= b < 128, a >> b on uint128 is a / 2^b, on int128 it is a / 2^b rounded down, and a << b is a * 2^b reduced to 128 bits.", "quantifier": "all 128-bit integers and shift distances", "why_tests_cant": "The behaviour depends on the distance, on the sign and on which word the bits are in.", "anchors": ["lib/std/math/runtime/i128.c3:215", "lib/std/math/runtime/i128.c3:233", "lib/std/math/runtime/i128.c3:251"]}
{"id": "C78", "title": "128-bit integers are converted to the nearest floating point number", "statement": "(double)a and (float)a of a uint128 or int128 are the floating point numbers nearest to a, and of two equally near ones the even one.", "quantifier": "all 128-bit integers", "why_tests_cant": "Rounding depends on all bits that are dropped; ties and carries into the next power of two are rare.", "anchors": ["lib/std/math/runtime/i128.c3:309", "lib/std/math/runtime/i128.c3:368"]}
{"id": "C79", "title": "Floating point numbers are converted to 128-bit integers toward zero", "statement": "The cast of a double or float to uint128 or int128 is its integer part if that is in range; numbers beyond give the nearest end of the range.", "quantifier": "all bit patterns of double and float except NaN", "why_tests_cant": "2^64 patterns with shifts in both directions by the exponent.", "anchors": ["lib/std/math/runtime/i128.c3:423", "lib/std/math/runtime/i128.c3:467"]}
{"id": "C80", "title": "BigInt sums, differences and comparisons are exact", "statement": "For BigInts a and b, a + b, a - b, -a and a.abs() are the exact integers, or the program stops if the result has no room in MAX_LEN words; the comparisons order the integers; equal integers have equal words and lengths.", "quantifier": "all BigInts of every length, every MAX_LEN", "why_tests_cant": "Carries run over any number of words, and the sign is a bit of a word that most numbers do not use.", "anchors": ["lib/std/math/bigint.c3:130", "lib/std/math/bigint.c3:241", "lib/std/math/bigint.c3:273", "lib/std/math/bigint.c3:454", "lib/std/math/bigint.c3:460", "lib/std/math/bigint.c3:470"]}
{"id": "C81", "title": "BigInts are made from integers and arrays", "statement": "from_int, init_with_u128 and init_with_array give the BigInt of that value.", "quantifier": "all 128-bit integers, all arrays of at most MAX_LEN words", "why_tests_cant": "2^128 values; the overflow test compares what is left after a loop of shifts.", "anchors": ["lib/std/math/bigint.c3:19", "lib/std/math/bigint.c3:26", "lib/std/math/bigint.c3:44", "lib/std/math/bigint.c3:63"]}
{"id": "C82", "title": "BigInt products are exact", "statement": "a * b is the exact product, whenever it has room in MAX_LEN words; otherwise the program stops.", "quantifier": "all pairs of BigInts", "why_tests_cant": "Overflow is found by a carry behind the last word in an inner loop.", "anchors": ["lib/std/math/bigint.c3:175", "lib/std/math/bigint.c3:181"]}
{"id": "C83", "title": "BigInt bit operations are those of two's complement", "statement": "Each bit of a & b, a | b, a ^ b and ~a is that operation on the bits of a and b, where negative numbers have infinitely many leading ones.", "quantifier": "all pairs of BigInts, all bit positions", "why_tests_cant": "Operands of different lengths and signs meet in words that are not in use.", "anchors": ["lib/std/math/bigint.c3:423", "lib/std/math/bigint.c3:431", "lib/std/math/bigint.c3:767", "lib/std/math/bigint.c3:785", "lib/std/math/bigint.c3:803"]}
{"id": "C84", "title": "BigInt division is division", "statement": "For b != 0, a / b is the quotient rounded toward zero and a % b the remainder with the sign of a; division by 0 stops.", "quantifier": "all pairs of BigInts", "why_tests_cant": "Errors in the quotient digits depend on the leading bits of both operands; a test with small divisors takes another path.", "anchors": ["lib/std/math/bigint.c3:337", "lib/std/math/bigint.c3:343", "lib/std/math/bigint.c3:380", "lib/std/math/bigint.c3:900", "lib/std/math/bigint.c3:952"]}
{"id": "C85", "title": "BigInt shifts are shifts", "statement": "a << n is a * 2^n if that has room, and a >> n is a / 2^n rounded down.", "quantifier": "all BigInts and distances", "why_tests_cant": "Whether bits are lost depends on where the highest bit of the number is in its word.", "anchors": ["lib/std/math/bigint.c3:437", "lib/std/math/bigint.c3:443", "lib/std/math/bigint.c3:448", "lib/std/math/bigint.c3:821", "lib/std/math/bigint.c3:1056", "lib/std/math/bigint.c3:1089"]}
{"id": "C86", "title": "BigInt gcd and lcm", "statement": "a.gcd(b) returns, and returns the greatest common divisor; a.lcm(b) the least common multiple.", "quantifier": "all pairs of BigInts", "why_tests_cant": "Termination of the loop rests on the remainder being smaller than the divisor.", "anchors": ["lib/std/math/bigint.c3:826", "lib/std/math/bigint.c3:840"]}
{"id": "C87", "title": "BigInt numerals are read and written", "statement": "to_string_with_radix gives the numeral of the number without leading zeros, init_string_radix gives the number of a numeral with optional sign, returns a fault for anything else and for numbers without room, and reads back what was written.", "quantifier": "all BigInts, all radixes 2 to 36, all strings", "why_tests_cant": "Strings and numbers of any length; overflow may come from the digit, from the sum or from the weight of a digit.", "anchors": ["lib/std/math/bigint.c3:86", "lib/std/math/bigint.c3:517", "lib/std/math/bigint.c3:525"]}
{"id": "C88", "title": "BigInt.sqrt is the integer square root", "statement": "For x >= 0, x.sqrt() is the n with n*n <= x < (n+1)*(n+1).", "quantifier": "all BigInts", "why_tests_cant": "Bits are guessed one by one, and the square of a guess may have no room.", "anchors": ["lib/std/math/bigint.c3:312", "lib/std/math/bigint.c3:725"]}
{"id": "C89", "title": "A buffered channel is a queue", "statement": "Values come out of a BufferedChannel in the order they went in, none is lost, none comes out twice, at most `size` are inside; push is refused only if the channel is closed, pop only if it is closed and empty.", "quantifier": "any number of threads, all interleavings, all sizes", "why_tests_cant": "The interleavings of threads cannot be enumerated or forced by a test.", "anchors": ["lib/std/threads/buffered_channel.c3:24", "lib/std/threads/buffered_channel.c3:61", "lib/std/threads/buffered_channel.c3:101", "lib/std/threads/buffered_channel.c3:146"]}
{"id": "C90", "title": "No wake-up of a buffered channel is lost", "statement": "A thread sleeps in pop only while there is nothing for it to receive, and in push only while there is no room for its value; close wakes everybody; threads that do not sleep can always go on.", "quantifier": "any number of threads, all interleavings, all sizes", "why_tests_cant": "A lost wake-up needs a particular order of signals and locks.", "anchors": ["lib/std/threads/buffered_channel.c3:69", "lib/std/threads/buffered_channel.c3:93", "lib/std/threads/buffered_channel.c3:109", "lib/std/threads/buffered_channel.c3:136", "lib/std/threads/buffered_channel.c3:154"]}
{"id": "C91", "title": "An unbuffered channel does not deadlock", "statement": "An UnbufferedChannel never comes into a state from which on no call ends.", "quantifier": "any number of threads, all interleavings", "why_tests_cant": "Deadlocks depend on the order in which threads get three mutexes.", "anchors": ["lib/std/threads/unbuffered_channel.c3:63", "lib/std/threads/unbuffered_channel.c3:65", "lib/std/threads/unbuffered_channel.c3:85", "lib/std/threads/unbuffered_channel.c3:97", "lib/std/threads/unbuffered_channel.c3:99", "lib/std/threads/unbuffered_channel.c3:106"]}
{"id": "C92", "title": "An unbuffered channel hands values over", "statement": "When UnbufferedChannel.push ends without a fault, its value has been received once; when it ends with one, it has not been received; a new channel is open.", "quantifier": "any number of threads, all interleavings, waits that end without a signal", "why_tests_cant": "Waits that end without a signal hardly ever happen in a test.", "anchors": ["lib/std/threads/unbuffered_channel.c3:21", "lib/std/threads/unbuffered_channel.c3:59", "lib/std/threads/unbuffered_channel.c3:93", "lib/std/threads/unbuffered_channel.c3:125"]}
{"id": "C93", "title": "normalize resolves a path", "statement": "path::normalize of a POSIX path gives the path with empty names and `.` left out and every `..` taken together with the name before it; it refuses exactly the paths with a zero byte and the absolute ones that go above the root; it never indexes out of bounds.", "quantifier": "all byte strings", "why_tests_cant": "The function rewrites its input in place with four indices into it; its states cannot be enumerated by paths written by hand.", "anchors": ["lib/std/io/path.c3:409", "lib/std/io/path.c3:449", "lib/std/io/path.c3:483", "lib/std/io/path.c3:518"]}
{"id": "C94", "title": "Normalized paths are normal", "statement": "A normalized path is its own normal form, has no empty name and no `.`, has `..` only at its beginning, and is absolute when the path was; appending to it gives what normalizing both together gives.", "quantifier": "all byte strings", "why_tests_cant": "Relates two runs of the function for every input.", "anchors": ["lib/std/io/path.c3:181", "lib/std/io/path.c3:225", "lib/std/io/path.c3:409"]}
{"id": "C95", "title": "The parts of a path", "statement": "basename is the last name of a normalized path and dirname and parent the path of the names before it; has_extension(e) is true exactly when extension gives e.", "quantifier": "all normalized paths, all extensions", "why_tests_cant": "Relates different functions for every path.", "anchors": ["lib/std/io/path.c3:278", "lib/std/io/path.c3:293", "lib/std/io/path.c3:319", "lib/std/io/path.c3:327", "lib/std/io/path.c3:396"]}
{"id": "C96", "title": "sha256::hash is SHA-256", "statement": "The constants, the compression function and the digest of sha256 are those of FIPS 180-4: sha256::hash(data) is the SHA-256 of the data.", "quantifier": "all data, all states and blocks", "why_tests_cant": "Test vectors cover a few messages; the equality with the standard is for all states, blocks and lengths.", "anchors": ["lib/std/hash/sha256.c3:8", "lib/std/hash/sha256.c3:41", "lib/std/hash/sha256.c3:49", "lib/std/hash/sha256.c3:85", "lib/std/hash/sha256.c3:127"]}
{"id": "C97", "title": "SHA-256 does not depend on the pieces", "statement": "However data are cut into pieces for Sha256.update, the blocks given to the compression function are those of the data with the padding of the standard, and no index is out of bounds.", "quantifier": "all sequences of pieces that meet the contract", "why_tests_cant": "All ways to cut all data cannot be enumerated, and the failing ones have 2^29 bytes.", "anchors": ["lib/std/hash/sha256.c3:68", "lib/std/hash/sha256.c3:70", "lib/std/hash/sha256.c3:74", "lib/std/hash/sha256.c3:85"]}
{"id": "C98", "title": "sha1::hash is SHA-1", "statement": "sha1::hash(data) is the SHA-1 of FIPS 180-4 of the data; its unrolled steps with rotating variables and circular block are the compression function of the standard.", "quantifier": "all data up to uint.max bytes, all states and blocks", "why_tests_cant": "Test vectors cover a few messages; the equality with the standard is for all states, blocks and lengths.", "anchors": ["lib/std/hash/sha1.c3:25", "lib/std/hash/sha1.c3:51", "lib/std/hash/sha1.c3:74", "lib/std/hash/sha1.c3:106", "lib/std/hash/sha1.c3:112", "lib/std/hash/sha1.c3:161"]}
{"id": "C99", "title": "SHA-1 does not depend on the pieces", "statement": "However data are cut into pieces for Sha1.update, the blocks given to the compression function are those of the data with the padding of the standard, and no index is out of bounds.", "quantifier": "all sequences of pieces that meet the contract", "why_tests_cant": "All ways to cut all data cannot be enumerated, and the failing ones have 2^32 bytes.", "anchors": ["lib/std/hash/sha1.c3:49", "lib/std/hash/sha1.c3:51", "lib/std/hash/sha1.c3:74"]}
{"id": "C100", "title": "md5::hash is MD5", "statement": "md5::hash(data) is the MD5 of RFC 1321 of the data, and the 64 constants of its steps are the integer parts of 2^32 |sin i|.", "quantifier": "all data, all states and blocks", "why_tests_cant": "Test vectors cover a few messages; the equality with the standard is for all states, blocks and lengths.", "anchors": ["lib/std/hash/md5.c3:20", "lib/std/hash/md5.c3:69", "lib/std/hash/md5.c3:103", "lib/std/hash/md5.c3:109", "lib/std/hash/md5.c3:117"]}
{"id": "C101", "title": "MD5 does not depend on the pieces", "statement": "However data are cut into pieces for Md5.update, and whatever the buffer held before, the blocks given to the compression function are those of the data with the padding of the standard, and no index is out of bounds.", "quantifier": "all sequences of pieces, all contents of the buffer", "why_tests_cant": "All ways to cut all data cannot be enumerated.", "anchors": ["lib/std/hash/md5.c3:28", "lib/std/hash/md5.c3:40", "lib/std/hash/md5.c3:69"]}
{"id": "C102", "title": "hmac is HMAC", "statement": "hmac::hash with MD5, SHA-1 or SHA-256 is H((K xor opad) || H((K xor ipad) || message)) of RFC 2104, with longer keys hashed first, also when the message comes in pieces, for all keys and messages on which the algorithm is right.", "quantifier": "all keys and messages, all contents of the context before", "why_tests_cant": "Test vectors cover a few keys and messages.", "anchors": ["lib/std/hash/hmac.c3:9", "lib/std/hash/hmac.c3:45", "lib/std/hash/hmac.c3:72", "lib/std/hash/hmac.c3:77"]}
{"id": "C103", "title": "pbkdf2 is PBKDF2", "statement": "hmac::pbkdf2 fills the output with the key that RFC 8018 derives from password, salt and count of iterations.", "quantifier": "all passwords, salts, positive counts of iterations and lengths of output that the contract allows", "why_tests_cant": "The failing counts run for ever; the others cannot be enumerated.", "anchors": ["lib/std/hash/hmac.c3:21", "lib/std/hash/hmac.c3:86", "lib/std/hash/hmac.c3:97"]}
{"id": "C104", "title": "crc32 is the CRC-32 of IEEE 802.3", "statement": "crc32::hash(data) is the complement of the remainder, by the generator of IEEE 802.3, of the data (lowest bit first, first 32 bits complemented) times x^32; in parts or continued from a checksum it is the same; two messages of one length have the same checksum exactly when their difference is a multiple of the generator, so every change within four bytes is detected.", "quantifier": "all data, all ways to cut them, all changes", "why_tests_cant": "Test vectors use a few entries of the table and a few messages; detection is a claim about all pairs of messages.", "anchors": ["lib/std/hash/crc32.c3:11", "lib/std/hash/crc32.c3:21", "lib/std/hash/crc32.c3:36", "lib/std/hash/crc32.c3:46"]}
{"id": "C105", "title": "crc64 is the CRC-64 of ECMA-182", "statement": "crc64::hash(data) is the remainder of the data (highest bit first) times x^64 by the generator of ECMA-182; in parts it is the same; every change within eight bytes is detected.", "quantifier": "all data, all ways to cut them, all changes", "why_tests_cant": "As C104.", "anchors": ["lib/std/hash/crc64.c3:11", "lib/std/hash/crc64.c3:21", "lib/std/hash/crc64.c3:36", "lib/std/hash/crc64.c3:46"]}
{"id": "C106", "title": "adler32 is the checksum of RFC 1950", "statement": "adler32::hash(data) has one more than the sum of the bytes modulo 65521 as its low half and the sum of these sums modulo 65521 as its high half, without overflow at any length; in parts it is the same; a change of one byte is detected.", "quantifier": "all data of any length", "why_tests_cant": "Overflow would only show on some long data.", "anchors": ["lib/std/hash/adler32.c3:15", "lib/std/hash/adler32.c3:26", "lib/std/hash/adler32.c3:43"]}
{"id": "C107", "title": "fnv32a and fnv64a are FNV-1a", "statement": "fnv32a::hash and fnv64a::hash are FNV-1a with its constants, in parts the same, and a change of one byte always changes them.", "quantifier": "all data, all changes of one byte", "why_tests_cant": "That no two such messages collide is a claim about all pairs.", "anchors": ["lib/std/hash/fnv32a.c3:8", "lib/std/hash/fnv32a.c3:33", "lib/std/hash/fnv64a.c3:8", "lib/std/hash/fnv64a.c3:33"]}
{"id": "C108", "title": "rc4 is RC4", "statement": "rc4::crypt adds the keystream of RC4 for the key to the data and stays within its arrays; done twice it gives the data back; in pieces it is the same; the state always holds every byte once.", "quantifier": "all non-empty keys, all data", "why_tests_cant": "Test vectors cover a few keys and short data.", "anchors": ["lib/std/crypto/rc4.c3:18", "lib/std/crypto/rc4.c3:36", "lib/std/crypto/rc4.c3:50"]}
{"id": "C109", "title": "BitWriter writes the bits it is given", "statement": "After any calls of BitWriter.write_bits with at most 32 bits each and a flush, the bytes in the stream hold these bits in order, highest first, then less than eight zeros.", "quantifier": "all sequences of values and widths up to 32", "why_tests_cant": "The failing sequence needs exactly 24 bits kept and 32 written.", "anchors": ["lib/std/io/bits.c3:57", "lib/std/io/bits.c3:73"]}
{"id": "C110", "title": "BitReader reads the bits of its bytes in order", "statement": "BitReader.read_bits(n) gives the next n bits of the stream as a number, highest first, and leaves the rest; with less than n bits left it reports the end of the stream and loses nothing; clear goes on at the next byte.", "quantifier": "all streams, all states reached, all widths up to 8", "why_tests_cant": "All sequences of widths cannot be enumerated.", "anchors": ["lib/std/io/bits.c3:15", "lib/std/io/bits.c3:24"]}
{"id": "C111", "title": "BitReader reads what BitWriter wrote", "statement": "Values written in groups of at most eight bits are read back in the same groups.", "quantifier": "all sequences of values and widths up to 8", "why_tests_cant": "All sequences of widths cannot be enumerated.", "anchors": ["lib/std/io/bits.c3:24", "lib/std/io/bits.c3:73"]}
{"id": "C112", "title": "qoi::encode writes a QOI stream of the image", "statement": "For every image of at least one and at most PIXELS_MAX pixels, with three or four channels, encode stays within its buffer and returns a header, valid chunks whose pixels under the QOI specification are those of the image, and the end marker; wrong lengths and descriptors get the documented fault.", "quantifier": "all images", "why_tests_cant": "Chunks depend on the whole history of pixels (palette, runs).", "anchors": ["lib/std/compression/qoi.c3:126", "lib/std/compression/qoi.c3:166", "lib/std/compression/qoi.c3:196", "lib/std/compression/qoi.c3:220"]}
{"id": "C113", "title": "qoi::decode gives back what qoi::encode was given", "statement": "decode of the result of encode gives the descriptor and the image; forced to three channels alpha is dropped, forced to four it is kept or 255.", "quantifier": "all images, all three modes", "why_tests_cant": "A round trip over all images cannot be enumerated; runs, wraps and palette collisions interact.", "anchors": ["lib/std/compression/qoi.c3:126", "lib/std/compression/qoi.c3:281"]}
{"id": "C114", "title": "qoi::decode decodes every QOI stream as specified", "statement": "For every valid chunk sequence of the number of pixels in the header decode gives the pixels of the QOI specification.", "quantifier": "all valid streams, from any encoder", "why_tests_cant": "Test images come from encoders that never write the sequence that fails.", "anchors": ["lib/std/compression/qoi.c3:281", "lib/std/compression/qoi.c3:342", "lib/std/compression/qoi.c3:361"]}
{"id": "C115", "title": "qoi::decode never reads outside of its data", "statement": "decode returns an image or a fault for all data.", "quantifier": "all byte sequences", "why_tests_cant": "Truncated and lying files are unbounded in number.", "anchors": ["lib/std/compression/qoi.c3:324", "lib/std/compression/qoi.c3:467"]}
{"id": "C116", "title": "qoi::encode refuses images that are too large", "statement": "encode answers with TOO_MANY_PIXELS for every image of more than PIXELS_MAX pixels.", "quantifier": "all widths and heights", "why_tests_cant": "Needs products that wrap around 32 bits.", "anchors": ["lib/std/compression/qoi.c3:131", "lib/std/compression/qoi.c3:132", "lib/std/compression/qoi.c3:303"]}
{"id": "C117", "title": "printf prints integers as C does", "statement": "Every directive %d %x %X %o %O %b %B with any flags, width and precision prints, for every value of every integer type, what C11 7.21.6.1 says.", "quantifier": "all flags, widths, precisions, types, values", "why_tests_cant": "Flags, width, precision and value interact; tests take a few combinations.", "anchors": ["lib/std/io/formatter.c3:424", "lib/std/io/formatter_private.c3:527", "lib/std/io/formatter_private.c3:551", "lib/std/io/formatter_private.c3:652"]}
{"id": "C118", "title": "printf returns the number of bytes printed", "statement": "The number returned by vprintf is the number of bytes given to the output function.", "quantifier": "all formats and arguments", "why_tests_cant": "Tests look at the text, and at few combinations.", "anchors": ["lib/std/io/formatter.c3:350", "lib/std/io/formatter_private.c3:608", "lib/std/io/formatter_private.c3:618"]}
{"id": "C119", "title": "printf never panics on a format", "statement": "Whatever the format and the arguments, vprintf returns a number or a fault, and terminates.", "quantifier": "all byte strings as formats, all arguments", "why_tests_cant": "Formats are unbounded and may come from outside.", "anchors": ["lib/std/io/formatter.c3:361", "lib/std/io/formatter.c3:380", "lib/std/io/formatter.c3:400", "lib/std/io/formatter_private.c3:671"]}
{"id": "C120", "title": "%c prints a character in UTF-8", "statement": "%c prints the UTF-8 encoding of every character, in a field of the width.", "quantifier": "all characters and widths", "why_tests_cant": "The wrong characters are three of a million.", "anchors": ["lib/std/io/formatter_private.c3:618", "lib/std/io/formatter_private.c3:630"]}
{"id": "C121", "title": "%s and %h print strings, numbers and bytes", "statement": "%s prints as many characters of a string as the precision says, in a field of the width; an integer as its decimal numeral; %h two digits for every byte. The number returned is the number of bytes.", "quantifier": "all strings, integers, byte slices, flags, widths, precisions", "why_tests_cant": "Cuts inside of multi-byte characters depend on the text.", "anchors": ["lib/std/io/formatter.c3:141", "lib/std/io/formatter.c3:476", "lib/std/io/formatter.c3:507", "lib/std/io/formatter_private.c3:157", "lib/std/io/formatter_private.c3:9"]}
{"id": "C122", "title": "A format is printed piece by piece", "statement": "Directives take the arguments in order and print independently of each other; arguments left over are ignored, a missing one makes the call fail.", "quantifier": "all formats made of the pieces of C117 to C121, all arguments", "why_tests_cant": "State carried from one directive to the next shows for some sequences only.", "anchors": ["lib/std/io/formatter.c3:350", "lib/std/io/formatter.c3:361", "lib/std/io/formatter.c3:417"]}
{"id": "C123", "title": "Printed integers are read back", "statement": "String.to_integer of what an integer directive prints is the integer, for every type and conversion.", "quantifier": "all types, values, conversions, widths, precisions", "why_tests_cant": "A round trip over all values of 128 bits cannot be enumerated.", "anchors": ["lib/std/io/formatter_private.c3:527", "lib/std/core/string.c3"]}
{"id": "C124", "title": "A BitSet is a set of indices", "statement": "Whatever operations build a BitSet{SIZE} with indices below SIZE, none aborts, get answers membership and cardinality is the number of members; other indices are refused.", "quantifier": "all sizes, all histories of operations, all indices", "why_tests_cant": "Bits interact through words; histories are unbounded.", "anchors": ["lib/std/collections/bitset.c3:20", "lib/std/collections/bitset.c3:37", "lib/std/collections/bitset.c3:62", "lib/std/collections/bitset.c3:126", "lib/std/collections/bitset.c3:140"]}
{"id": "C125", "title": "foreach walks the bits of a BitSet", "statement": "foreach over a BitSet{SIZE} visits the SIZE bits in order.", "quantifier": "all sizes and sets", "why_tests_cant": "The unit test takes a size that is a multiple of 32.", "anchors": ["lib/std/collections/bitset.c3:147", "lib/std/collections/bitset.c3:140"]}
{"id": "C126", "title": "A GrowableBitSet is a set of numbers", "statement": "Whatever operations build a GrowableBitSet, none aborts, get answers membership for every number and cardinality is the number of members.", "quantifier": "all histories, all numbers, words of 8, 16 and 32 bits", "why_tests_cant": "The set grows without a bound.", "anchors": ["lib/std/collections/bitset.c3:201", "lib/std/collections/bitset.c3:211", "lib/std/collections/bitset.c3:224", "lib/std/collections/bitset.c3:232"]}
{"id": "C127", "title": "The length of a GrowableBitSet", "statement": "len is one more than the largest member, zero for the empty set.", "quantifier": "all histories", "why_tests_cant": "Depends on what was removed and where the words end.", "anchors": ["lib/std/collections/bitset.c3:240"]}
{"id": "C128", "title": "An EnumSet of a small enum is a set", "statement": "For enums of at most 32 elements every history of operations gives the set it says: has answers membership, remove tells whether the element was there, and equal sets are equal values.", "quantifier": "all histories, all elements", "why_tests_cant": "2^32 sets, unbounded histories.", "anchors": ["lib/std/collections/enumset.c3:16", "lib/std/collections/enumset.c3:34", "lib/std/collections/enumset.c3:48", "lib/std/collections/enumset.c3:118"]}
{"id": "C129", "title": "An EnumSet of a large enum is a set", "statement": "The same for enums of more than 128 elements.", "quantifier": "all enums of more than 128 elements, all histories, all elements", "why_tests_cant": "No test has such an enum, and elements at multiples of eight work.", "anchors": ["lib/std/collections/enumset.c3:48", "lib/std/collections/enumset.c3:34"]}
{"id": "C130", "title": "Printing an EnumSet", "statement": "The printed form of a set over at most 32 elements is the names of the members in declaration order between brackets, separated by comma and blank; the count returned is its length.", "quantifier": "all enums of at most 32 elements, all sets", "why_tests_cant": "2^32 sets.", "anchors": ["lib/std/collections/enumset.c3:129"]}
{"id": "C131", "title": "Reading IPv4 addresses", "statement": "ipv4_from_str accepts exactly the texts of four decimal numbers below 256 separated by points and returns that address; every other text gives INVALID_IP_STRING, none aborts.", "quantifier": "all texts", "why_tests_cant": "Unboundedly many texts; numbers of any length.", "anchors": ["lib/std/net/inetaddr.c3:123"]}
{"id": "C132", "title": "Printed addresses can be read back", "statement": "Every address is printed in the usual notation and ipv4_from_str, ipv6_from_str give the address back.", "quantifier": "all 2^32 and 2^128 addresses", "why_tests_cant": "2^128 addresses.", "anchors": ["lib/std/net/inetaddr.c3:48", "lib/std/net/inetaddr.c3:69", "lib/std/net/inetaddr.c3:123"]}
{"id": "C133", "title": "Reading IPv6 addresses", "statement": "ipv6_from_str accepts exactly the texts of RFC 4291 (without dotted decimal part) and returns that address; every other text gives INVALID_IP_STRING, none aborts.", "quantifier": "all texts", "why_tests_cant": "Unboundedly many texts.", "anchors": ["lib/std/net/inetaddr.c3:69"]}
{"id": "C134", "title": "Classes of IPv4 addresses", "statement": "is_loopback, is_any_local, is_link_local, is_site_local, is_multicast and the scopes of multicast are membership in the registered blocks.", "quantifier": "all IPv4 addresses", "why_tests_cant": "The borders of the blocks among 2^32 addresses.", "anchors": ["lib/std/net/inetaddr.c3:158", "lib/std/net/inetaddr.c3:167", "lib/std/net/inetaddr.c3:176", "lib/std/net/inetaddr.c3:185", "lib/std/net/inetaddr.c3:203"]}
{"id": "C135", "title": "Classes of IPv6 addresses", "statement": "is_link_local, is_site_local and is_multicast are membership in fe80::/10, fec0::/10 and ff00::/8.", "quantifier": "all IPv6 addresses", "why_tests_cant": "2^128 addresses; no test has an IPv6 address of these blocks.", "anchors": ["lib/std/net/inetaddr.c3:176", "lib/std/net/inetaddr.c3:185", "lib/std/net/inetaddr.c3:203"]}
{"id": "C136", "title": "Durations are printed", "statement": "A NanoDuration is printed as hours, minutes, seconds with a decimal fraction (below a second: milli-, micro-, nanoseconds) that stand for it, with a minus if it is negative.", "quantifier": "all 2^64 durations", "why_tests_cant": "2^64 durations; the fraction only goes wrong for some thousandths.", "anchors": ["lib/std/time/time.c3:112"]}
{"id": "C137", "title": "Dates are what they were made from", "statement": "from_date of a date of the calendar and a time of day gives a DateTime with these fields, the day of the week and of the year, and the microseconds since 1970.", "quantifier": "all dates and times of day whose time is a 64-bit number", "why_tests_cant": "Hundreds of thousands of years of microseconds; leap years of the Gregorian calendar.", "anchors": ["lib/std/time/datetime.c3:16", "lib/std/time/datetime.c3:122", "lib/std/time/datetime.c3:135"]}
{"id": "C138", "title": "The fields of a time", "statement": "The fields of from_time are a date of the calendar and a time of day, and they stand for the time.", "quantifier": "all 64-bit times", "why_tests_cant": "2^64 times.", "anchors": ["lib/std/time/datetime.c3:135", "lib/std/time/datetime.c3:199"]}
{"id": "C139", "title": "Months and years later", "statement": "add_months and add_years give the same day and time of day of the month or year that many later.", "quantifier": "all dates, all numbers of months and years", "why_tests_cant": "Every pair of date and number; negative numbers, turns of the year, lengths of months.", "anchors": ["lib/std/time/datetime.c3:158", "lib/std/time/datetime.c3:164"]}
{"id": "C140", "title": "Time zones", "statement": "to_gmt_offset keeps the time and gives the fields at the offset; with_gmt_offset keeps the fields and gives their time; adding to a TzDateTime keeps the offset and leaves fields that fit the time.", "quantifier": "all dates with an offset, all offsets", "why_tests_cant": "All combinations of time and offset.", "anchors": ["lib/std/time/datetime.c3:69", "lib/std/time/datetime.c3:81", "lib/std/time/datetime.c3:94", "lib/std/time/datetime.c3:107", "lib/std/time/datetime.c3:190", "lib/std/time/datetime.c3:196"]}
{"id": "C141", "title": "Whole years between dates", "statement": "diff_years is the number of whole years between two dates, with a minus if they are exchanged.", "quantifier": "all pairs of dates", "why_tests_cant": "All pairs of dates; leap years.", "anchors": ["lib/std/time/datetime.c3:235"]}
{"id": "C142", "title": "Offsets are printed", "statement": "The suffix of an offset is its sign, two digits of hours and two of minutes.", "quantifier": "all offsets", "why_tests_cant": "Offsets with minutes on both sides of Greenwich.", "anchors": ["lib/std/time/format.c3:76", "lib/std/time/format.c3:86"]}
{"id": "C143", "title": "Dates are printed", "statement": "format prints a date in the layout that the comment on the format promises, with the fields of universal time where the layout says so.", "quantifier": "all fifteen formats, all dates of the years 1000 to 9999, all offsets", "why_tests_cant": "All dates and offsets; each format.", "anchors": ["lib/std/time/format.c3:9", "lib/std/time/format.c3:28"]}
{"id": "C144", "title": "Classes of values on x86-64", "statement": "The compiler gives every value the classes of the System V convention: MEMORY for what is longer than 16 bytes, has unaligned parts or a flexible array, else the classes that the numbers in its two eightbytes call for.", "quantifier": "all types of structs, unions, arrays and scalars without vectors, all nestings", "why_tests_cant": "Infinitely many types; a wrong class breaks calls to and from C silently.", "anchors": ["src/compiler/abi/c_abi_x64.c:169", "src/compiler/abi/c_abi_x64.c:204", "src/compiler/abi/c_abi_x64.c:223", "src/compiler/abi/c_abi_x64.c:270", "src/compiler/abi/c_abi_x64.c:372"]}
{"id": "C145", "title": "No byte is lost in a call", "statement": "However a value is passed or returned, all bytes of all numbers in it get to the other side.", "quantifier": "all types without vectors, parameters and results", "why_tests_cant": "Infinitely many types; lost bytes are seen only with some values of some members.", "anchors": ["src/compiler/abi/c_abi_x64.c:433", "src/compiler/abi/c_abi_x64.c:491", "src/compiler/abi/c_abi_x64.c:508", "src/compiler/abi/c_abi_x64.c:555", "src/compiler/abi/c_abi_x64.c:667", "src/compiler/abi/c_abi_x64.c:765"]}
{"id": "C146", "title": "Registers of the right kind", "statement": "A value in registers is in general registers where an eightbyte has an integer, in vector registers where it has floating point numbers only, with a second register exactly if a second eightbyte needs one.", "quantifier": "all types without vectors that are not of class memory", "why_tests_cant": "Infinitely many types; the other side of the call looks in another register.", "anchors": ["src/compiler/abi/c_abi_x64.c:508", "src/compiler/abi/c_abi_x64.c:555", "src/compiler/abi/c_abi_x64.c:628", "src/compiler/abi/c_abi_x64.c:667", "src/compiler/abi/c_abi_x64.c:765"]}
{"id": "C147", "title": "Every value can be passed", "statement": "The compiler never stops at the classification of a value or of a function.", "quantifier": "all types without vectors, all lists of parameters", "why_tests_cant": "Assertions that hold for the types in tests fail for others.", "anchors": ["src/compiler/abi/c_abi_x64.c:358", "src/compiler/abi/c_abi_x64.c:491", "src/compiler/abi/c_abi_x64.c:658", "src/compiler/abi/c_abi_x64.c:885"]}
{"id": "C148", "title": "Registers are assigned in order", "statement": "Parameters get six general and eight vector registers in order (five general ones if the result is in memory); one that does not fit as a whole or is of class memory is on the stack and takes none.", "quantifier": "all functions: any number of parameters of any type without vectors", "why_tests_cant": "Calls with many parameters in all orders.", "anchors": ["src/compiler/abi/c_abi_x64.c:19", "src/compiler/abi/c_abi_x64.c:75", "src/compiler/abi/c_abi_x64.c:871", "src/compiler/abi/c_abi_x64.c:885"]}
{"id": "C149", "title": "Results in memory", "statement": "A result of class memory is written through a pointer to memory aligned for its type; no other result is, and none is dropped.", "quantifier": "all types without vectors", "why_tests_cant": "Infinitely many types.", "anchors": ["src/compiler/abi/c_abi_x64.c:42", "src/compiler/abi/c_abi_x64.c:667"]}
{"id": "C150", "title": "A linked list is a sequence", "statement": "Whatever calls are made on a LinkedList, initialised or all zero, every call returns what the same call returns on a sequence of values.", "quantifier": "all element types, all sequences of calls with all arguments, all addresses an allocator may return, all contents of the rest of the memory", "why_tests_cant": "A list has four ways to be at a node (first, last, both, neither); a pointer that is not updated is seen only by later calls in one direction.", "anchors": ["lib/std/collections/linkedlist.c3:54", "lib/std/collections/linkedlist.c3:71", "lib/std/collections/linkedlist.c3:123", "lib/std/collections/linkedlist.c3:163", "lib/std/collections/linkedlist.c3:178", "lib/std/collections/linkedlist.c3:198", "lib/std/collections/linkedlist.c3:215", "lib/std/collections/linkedlist.c3:266", "lib/std/collections/linkedlist.c3:279", "lib/std/collections/linkedlist.c3:294", "lib/std/collections/linkedlist.c3:314"]}
{"id": "C151", "title": "Calls on a linked list fail only by contract", "statement": "No call reads a null pointer or a freed node, frees a node twice, or breaks a contract of a private function; it panics exactly if the index is out of bounds.", "quantifier": "all sequences of calls, all addresses an allocator may return", "why_tests_cant": "A use after free is silent in tests.", "anchors": ["lib/std/collections/linkedlist.c3:43", "lib/std/collections/linkedlist.c3:105", "lib/std/collections/linkedlist.c3:123", "lib/std/collections/linkedlist.c3:178", "lib/std/collections/linkedlist.c3:198", "lib/std/collections/linkedlist.c3:219", "lib/std/collections/linkedlist.c3:294", "lib/std/collections/linkedlist.c3:314"]}
{"id": "C152", "title": "A linked list owns its nodes and nothing else", "statement": "After any calls there is one live node for each element beside what was live before, which is unchanged; after clear or free the memory is as before the first call.", "quantifier": "all sequences of calls, all addresses an allocator may return, all contents of the rest of the memory", "why_tests_cant": "Leaks and writes to other memory do not change the results of the calls.", "anchors": ["lib/std/collections/linkedlist.c3:43", "lib/std/collections/linkedlist.c3:48", "lib/std/collections/linkedlist.c3:105", "lib/std/collections/linkedlist.c3:198", "lib/std/collections/linkedlist.c3:294", "lib/std/collections/linkedlist.c3:314"]}
{"id": "C153", "title": "A thread pool runs every job once", "statement": "Of every job accepted by push exactly one holds: it waits, exactly one thread works on it, or it has been done once; no other job is ever run.", "quantifier": "all schedules, spurious wake-ups, numbers of threads and queue sizes, jobs that push jobs or never end", "why_tests_cant": "A job that is lost or run twice needs a particular interleaving of threads.", "anchors": ["lib/std/threads/pool.c3:89", "lib/std/threads/pool.c3:106", "lib/std/threads/fixed_pool.c3:110", "lib/std/threads/fixed_pool.c3:131"]}
{"id": "C154", "title": "A thread pool loses no wake-up", "statement": "While a job waits no thread sleeps, and every thread that is not in a job takes one as soon as it gets the mutex, unless destroy was called.", "quantifier": "all schedules, spurious wake-ups, numbers of threads and queue sizes, jobs that push jobs or never end", "why_tests_cant": "A lost wake-up needs a push between the test of the queue and the sleep.", "anchors": ["lib/std/threads/pool.c3:100", "lib/std/threads/pool.c3:113", "lib/std/threads/pool.c3:122", "lib/std/threads/fixed_pool.c3:128", "lib/std/threads/fixed_pool.c3:145", "lib/std/threads/fixed_pool.c3:154"]}
{"id": "C155", "title": "stop_and_destroy processes pending work", "statement": "Every job pushed while a thread of the pool is left, also by a job or during stop_and_destroy, is done when stop_and_destroy returns.", "quantifier": "all schedules, spurious wake-ups, numbers of threads and queue sizes, jobs that push jobs or never end", "why_tests_cant": "The job has to arrive between two tests of the last thread.", "anchors": ["lib/std/threads/pool.c3:53", "lib/std/threads/pool.c3:56", "lib/std/threads/pool.c3:115", "lib/std/threads/fixed_pool.c3:68", "lib/std/threads/fixed_pool.c3:71", "lib/std/threads/fixed_pool.c3:147"]}
{"id": "C156", "title": "destroy drops pending work", "statement": "Once destroy is called no thread starts a job.", "quantifier": "all schedules, spurious wake-ups, numbers of threads and queue sizes, jobs that push jobs or never end", "why_tests_cant": "Depends on what each thread does at the time of the call.", "anchors": ["lib/std/threads/pool.c3:44", "lib/std/threads/pool.c3:47", "lib/std/threads/pool.c3:123", "lib/std/threads/fixed_pool.c3:59", "lib/std/threads/fixed_pool.c3:62", "lib/std/threads/fixed_pool.c3:137", "lib/std/threads/fixed_pool.c3:155"]}
{"id": "C157", "title": "Shutting down a pool ends", "statement": "If jobs end, destroy and stop_and_destroy can return from every state, and when they do all threads have returned; a failing init returns.", "quantifier": "all schedules, spurious wake-ups, numbers of threads and queue sizes, jobs that push jobs or never end; any number of threads that could be made", "why_tests_cant": "Deadlocks and failures to make a thread are rare.", "anchors": ["lib/std/threads/pool.c3:31", "lib/std/threads/pool.c3:35", "lib/std/threads/pool.c3:61", "lib/std/threads/pool.c3:89", "lib/std/threads/fixed_pool.c3:40", "lib/std/threads/fixed_pool.c3:50", "lib/std/threads/fixed_pool.c3:76", "lib/std/threads/fixed_pool.c3:114"]}
{"id": "C158", "title": "The fixed pool frees the arguments of jobs", "statement": "When the fixed pool is destroyed the arguments of every job that was pushed have been freed exactly once, and none while the job could still use them.", "quantifier": "all schedules, spurious wake-ups, numbers of threads and queue sizes, jobs that push jobs or never end", "why_tests_cant": "Leaks and double frees depend on which jobs were dropped.", "anchors": ["lib/std/threads/fixed_pool.c3:97", "lib/std/threads/fixed_pool.c3:118", "lib/std/threads/fixed_pool.c3:167", "lib/std/threads/fixed_pool.c3:172"]}
{"id": "C159", "title": "ByteReader and LimitReader deliver their bytes", "statement": "A ByteReader delivers the bytes behind its index, a LimitReader the first limit bytes of its stream, in order, nothing twice or left out, EOF only at the end and for ever; pushback_byte gives back the last byte; available is the number of bytes to come.", "quantifier": "all inner streams, which deliver or take any number of bytes per call and may fail, all data, buffer sizes and sequences of calls", "why_tests_cant": "Depends on the sizes of all reads and on where the inner stream stops short.", "anchors": ["lib/std/io/stream/bytereader.c3:20", "lib/std/io/stream/bytereader.c3:65", "lib/std/io/stream/limitreader.c3:25", "lib/std/io/stream/limitreader.c3:41"]}
{"id": "C160", "title": "A ReadBuffer delivers what its stream does", "statement": "Reading through a ReadBuffer delivers the bytes of the inner stream in order, nothing twice or left out, and EOF only at the end and for ever.", "quantifier": "all inner streams, which deliver or take any number of bytes per call and may fail, all data, buffer sizes and sequences of calls", "why_tests_cant": "The state of the buffer depends on all former reads.", "anchors": ["lib/std/io/stream/buffer.c3:32", "lib/std/io/stream/buffer.c3:49", "lib/std/io/stream/buffer.c3:58"]}
{"id": "C161", "title": "A MultiReader delivers its streams one after the other", "statement": "Reading a MultiReader delivers the bytes of its streams one after the other, and EOF when all have ended and for ever.", "quantifier": "all inner streams, which deliver or take any number of bytes per call and may fail, all data, buffer sizes and sequences of calls", "why_tests_cant": "Any number of streams, some of them empty.", "anchors": ["lib/std/io/stream/multireader.c3:46", "lib/std/io/stream/multireader.c3:63"]}
{"id": "C162", "title": "A Scanner is a stream", "statement": "Reading a Scanner delivers what comes behind the last pattern found, all of it.", "quantifier": "all inner streams, which deliver or take any number of bytes per call and may fail, all data, buffer sizes and sequences of calls", "why_tests_cant": "Depends on what is left in the buffer when the inner stream ends.", "anchors": ["lib/std/io/stream/scanner.c3:101", "lib/std/io/stream/scanner.c3:115"]}
{"id": "C163", "title": "Scanner.scan finds the first occurrence and loses nothing", "statement": "scan returns the bytes up to the first occurrence of the pattern and goes on behind it; if it finds none, no byte is lost or doubled.", "quantifier": "all inner streams, which deliver or take any number of bytes per call and may fail, all data, buffer sizes and sequences of calls, all patterns", "why_tests_cant": "The pattern may lie across the end of the buffer, whatever its size.", "anchors": ["lib/std/io/stream/scanner.c3:48", "lib/std/io/stream/scanner.c3:28", "lib/std/io/stream/scanner.c3:71", "lib/std/io/stream/scanner.c3:78"]}
{"id": "C164", "title": "copy_to and the reading helpers move all bytes", "statement": "copy_through_buffer, when it succeeds, has written all that was to come and returns its length, and otherwise a beginning of it; read_using_read_byte, read_byte_using_read, read_fully and read_all read just what is asked for and is there.", "quantifier": "all inner streams, which deliver or take any number of bytes per call and may fail, all data, buffer sizes and sequences of calls", "why_tests_cant": "Reads and writes of every size have to be combined.", "anchors": ["lib/std/io/stream.c3:72", "lib/std/io/stream.c3:83", "lib/std/io/stream.c3:107", "lib/std/io/stream.c3:130", "lib/std/io/stream.c3:168"]}
{"id": "C165", "title": "A WriteBuffer writes what is written to it", "statement": "What has arrived at the inner stream, followed by what is pending, is what was written to a WriteBuffer; after a successful flush all has arrived.", "quantifier": "all inner streams, which deliver or take any number of bytes per call and may fail, all data, buffer sizes and sequences of calls", "why_tests_cant": "Inner streams that take a part of the bytes are rare in tests.", "anchors": ["lib/std/io/stream/buffer.c3:93", "lib/std/io/stream/buffer.c3:99", "lib/std/io/stream/buffer.c3:121", "lib/std/io/stream/buffer.c3:132"]}
{"id": "C166", "title": "A ByteWriter takes everything it has place for", "statement": "A ByteWriter with an allocator takes every write, one with a buffer takes what fits, and str_view is what was written.", "quantifier": "all sequences of writes", "why_tests_cant": "The failures happen at single sizes.", "anchors": ["lib/std/io/stream/bytewriter.c3:51", "lib/std/io/stream/bytewriter.c3:61", "lib/std/io/stream/bytewriter.c3:69"]}
{"id": "C167", "title": "A ByteBuffer is a queue", "statement": "What is written to a ByteBuffer is read from it in order; it grows when needed; pushback_byte gives back the last byte.", "quantifier": "all sequences of reads and writes, sizes and values of max_read", "why_tests_cant": "Growing and shrinking depend on all former calls.", "anchors": ["lib/std/io/stream/bytebuffer.c3:48", "lib/std/io/stream/bytebuffer.c3:65", "lib/std/io/stream/bytebuffer.c3:81", "lib/std/io/stream/bytebuffer.c3:99", "lib/std/io/stream/bytebuffer.c3:131", "lib/std/io/stream/bytebuffer.c3:138"]}
{"id": "C168", "title": "MultiWriter and TeeReader copy", "statement": "A successful write to a MultiWriter wrote all bytes to all streams; what a TeeReader delivers it has written.", "quantifier": "all inner streams, which deliver or take any number of bytes per call and may fail, all data, buffer sizes and sequences of calls", "why_tests_cant": "Any stream may take a part of the bytes or fail.", "anchors": ["lib/std/io/stream/multiwriter.c3:43", "lib/std/io/stream/multiwriter.c3:54", "lib/std/io/stream/teereader.c3:28", "lib/std/io/stream/teereader.c3:37"]}
{"id": "C169", "title": "Variable length integers are read back", "statement": "read_varint reads back what write_varint wrote, for signed and unsigned types of two and four bytes, and reads no more.", "quantifier": "all values, streams and bytes that follow", "why_tests_cant": "2^32 values; the failures are at the ends of the range.", "anchors": ["lib/std/io/stream.c3:192", "lib/std/io/stream.c3:227"]}
{"id": "C170", "title": "Big endian integers and byte arrays are read back", "statement": "write_be_* writes the bytes of an integer, highest first, and read_be_* reads them back, and no more; so do the functions for tiny and short byte arrays.", "quantifier": "all values of 2, 4, 8 and 16 bytes, all arrays within the contract, all streams", "why_tests_cant": "2^128 values.", "anchors": ["lib/std/io/stream.c3:246", "lib/std/io/stream.c3:273", "lib/std/io/stream.c3:303", "lib/std/io/stream.c3:341", "lib/std/io/stream.c3:396", "lib/std/io/stream.c3:405", "lib/std/io/stream.c3:418", "lib/std/io/stream.c3:427"]}
{"id": "C171", "title": "Constant formats are checked against the arguments", "statement": "A call of a @format function with a constant format of the documented form (text, %%, %[flags][width][.precision]conversion) is accepted exactly if there is one argument per directive, each of a type the conversion takes; otherwise the error names what is wrong.", "quantifier": "all formats of the form and all lists of argument types", "why_tests_cant": "Any number of directives in any combination with flags, widths and precisions.", "anchors": ["src/compiler/sema_expr.c:1845", "src/compiler/sema_expr.c:1855", "src/compiler/sema_expr.c:1875"]}
{"id": "C172", "title": "An accepted call of printf prints", "statement": "If the compiler accepts a constant format with the arguments, the formatter of the library does not run out of arguments, meet a directive it does not know or an argument of the wrong type.", "quantifier": "all formats and arguments (integers, strings, bytes)", "why_tests_cant": "Two parsers of formats, one in the compiler and one in the library, must agree on every text.", "anchors": ["src/compiler/sema_expr.c:1845", "lib/std/io/formatter.c3:350"]}
{"id": "C173", "title": "The check of formats stays in bounds", "statement": "The check reads no character behind the end of the format and no argument that is not there.", "quantifier": "all formats and argument types", "why_tests_cant": "A read out of bounds in the compiler mostly goes unnoticed.", "anchors": ["src/compiler/sema_expr.c:1865", "src/compiler/sema_expr.c:1869", "src/compiler/sema_expr.c:1928"]}
{"id": "C174", "title": "A call of printf that prints is accepted", "statement": "A call for which the formatter prints, using all arguments, is accepted by the compiler.", "quantifier": "all formats and arguments", "why_tests_cant": "All ways to write a directive that the formatter knows are to be known to the compiler.", "anchors": ["src/compiler/sema_expr.c:1845", "lib/std/io/formatter.c3:380"]}
{"id": "C175", "title": "Every parameter gets its argument", "statement": "A call is accepted exactly if its named arguments name parameters in the order of the declaration that have no other value, there are not too many positional ones, and every parameter has a value or a default; then positional arguments go to the parameters in order and to the varargs, named ones to their parameters, defaults to the others, each once.", "quantifier": "all signatures and all calls with positional arguments, names and a slice for the varargs", "why_tests_cant": "Positions, names, defaults, varargs and parameters behind the varargs combine without end.", "anchors": ["src/compiler/sema_expr.c:1246", "src/compiler/sema_expr.c:1527", "src/compiler/sema_expr.c:1578", "src/compiler/sema_expr.c:1647", "src/compiler/sema_expr.c:1699", "src/compiler/sema_expr.c:1779", "src/compiler/sema_expr.c:1788"]}
{"id": "C176", "title": "A splat means its elements", "statement": "A splat of known length, and $vasplat, mean the same as their elements written out as arguments.", "quantifier": "all signatures, all arguments before and behind, all lengths", "why_tests_cant": "Depends on the position, on the kind of varargs and on what comes next.", "anchors": ["src/compiler/sema_expr.c:1469", "src/compiler/sema_expr.c:1583", "src/compiler/sema_expr.c:1592", "src/compiler/sema_expr.c:1602", "src/compiler/sema_expr.c:1636", "src/compiler/sema_expr.c:1640", "src/compiler/sema_expr.c:5593"]}
{"id": "C177", "title": "Naming positional arguments changes nothing", "statement": "A call in which the last positional arguments are given by the names of their parameters is accepted exactly if the call without the names is, and means the same.", "quantifier": "all signatures and calls", "why_tests_cant": "Any number of arguments with and without names.", "anchors": ["src/compiler/sema_expr.c:1647", "src/compiler/sema_expr.c:1699"]}
{"id": "C178", "title": "A new parameter with a default breaks no call", "statement": "If a function without varargs gets one more parameter with a default at its end, every call stays accepted and binds as before.", "quantifier": "all signatures and calls", "why_tests_cant": "Speaks of all callers.", "anchors": ["src/compiler/sema_expr.c:1417", "src/compiler/sema_expr.c:1779"]}
{"id": "C179", "title": "A DString holds what was put into it", "statement": "Appending, inserting, deleting, chopping, joining and concatenating strings give the text these operations give on lists of bytes, never access memory outside the allocation, and zstr_view ends with a zero.", "quantifier": "all strings, capacities, texts and positions within the contracts", "why_tests_cant": "Every size relative to the capacity matters, and growth at every point.", "anchors": ["lib/std/core/dstring.c3:115", "lib/std/core/dstring.c3:126", "lib/std/core/dstring.c3:158", "lib/std/core/dstring.c3:208", "lib/std/core/dstring.c3:308", "lib/std/core/dstring.c3:352", "lib/std/core/dstring.c3:368", "lib/std/core/dstring.c3:377", "lib/std/core/dstring.c3:423", "lib/std/core/dstring.c3:468", "lib/std/core/dstring.c3:574", "lib/std/core/dstring.c3:617"]}
{"id": "C180", "title": "A part of a DString can be inserted into it", "statement": "insert_at with a view of the string itself inserts a copy of that part.", "quantifier": "all strings, parts and positions", "why_tests_cant": "Source and target overlap in many ways, and may move.", "anchors": ["lib/std/core/dstring.c3:423", "lib/std/core/dstring.c3:441", "lib/std/core/dstring.c3:447"]}
{"id": "C181", "title": "DString.replace replaces all occurrences", "statement": "replace puts the replacement in the place of all occurrences of a nonempty string, from left to right, and changes nothing else.", "quantifier": "all strings, needles and replacements", "why_tests_cant": "Depends on how beginnings of the needle follow each other in the text.", "anchors": ["lib/std/core/dstring.c3:65", "lib/std/core/dstring.c3:74", "lib/std/core/dstring.c3:93", "lib/std/core/dstring.c3:104"]}
{"id": "C182", "title": "Comparison of DStrings", "statement": "equals tells whether two strings hold the same, and less is an order in which different strings are comparable.", "quantifier": "all pairs of strings, with null and empty ones", "why_tests_cant": "Laws about all pairs.", "anchors": ["lib/std/core/dstring.c3:266", "lib/std/core/dstring.c3:291"]}
{"id": "C183", "title": "A copy of a DString", "statement": "copy gives a string that holds the same and belongs to the allocator that was given.", "quantifier": "all strings and allocators", "why_tests_cant": "With one allocator in use nothing is to be seen.", "anchors": ["lib/std/core/dstring.c3:236"]}
{"id": "C184", "title": "A DString reads a stream to its end", "statement": "read_from_stream, for a stream without available, appends all of the stream and returns the number of bytes.", "quantifier": "all streams, however much they give at a time", "why_tests_cant": "Streams may give any part of what they are asked for.", "anchors": ["lib/std/core/dstring.c3:634", "lib/std/core/dstring.c3:649"]}
{"id": "C185", "title": "A Range enumerates what it contains", "statement": "The indices below len give, by get, exactly the values for which contains holds, each of them once.", "quantifier": "all bounds, of signed and unsigned types of 32 to 64 bits", "why_tests_cant": "The difference of the bounds overflows only for some of the pairs.", "anchors": ["lib/std/collections/range.c3:13", "lib/std/collections/range.c3:19", "lib/std/collections/range.c3:27"]}
{"id": "C186", "title": "An ExclusiveRange enumerates what it contains", "statement": "The indices below len give, by get, exactly the values for which contains holds, each of them once.", "quantifier": "all bounds, of signed and unsigned types of 32 to 64 bits", "why_tests_cant": "The difference of the bounds overflows only for some of the pairs.", "anchors": ["lib/std/collections/range.c3:43", "lib/std/collections/range.c3:49", "lib/std/collections/range.c3:62"]}
{"id": "C187", "title": "An ElasticArray is a list of at most MAX_SIZE elements", "statement": "Adding, inserting and removing elements give the contents and results these operations give on a list that takes at most MAX_SIZE elements, and never access memory outside the array; what violates a contract is refused.", "quantifier": "all sequences of operations, arrays and sizes", "why_tests_cant": "Sequences of any length, with the array full or empty at any point.", "anchors": ["lib/std/collections/elastic_array.c3:47", "lib/std/collections/elastic_array.c3:61", "lib/std/collections/elastic_array.c3:75", "lib/std/collections/elastic_array.c3:85", "lib/std/collections/elastic_array.c3:107", "lib/std/collections/elastic_array.c3:124", "lib/std/collections/elastic_array.c3:210", "lib/std/collections/elastic_array.c3:220", "lib/std/collections/elastic_array.c3:402", "lib/std/collections/list_common.c3:73"]}
{"id": "C188", "title": "Only elements of an ElasticArray can be accessed", "statement": "get and [] give the element at an index below the size, and refuse other indices.", "quantifier": "all arrays and indices", "why_tests_cant": "What is in the entries from the size on depends on all that happened before.", "anchors": ["lib/std/collections/elastic_array.c3:277", "lib/std/collections/elastic_array.c3:316", "lib/std/collections/elastic_array.c3:326"]}
{"id": "C189", "title": "ElasticArray: the number of elements that did not fit", "statement": "add_all_to_limit adds as many elements as fit and returns the number of those that did not, also for an array added to itself.", "quantifier": "all arrays and sizes", "why_tests_cant": "All relations of sizes and room, and aliasing.", "anchors": ["lib/std/collections/elastic_array.c3:107", "lib/std/collections/elastic_array.c3:112", "lib/std/collections/elastic_array.c3:124"]}
{"id": "C190", "title": "ElasticArray.remove_all_from removes all", "statement": "remove_all_from removes the elements that are in the other array and no others, also if that is the same array.", "quantifier": "all arrays", "why_tests_cant": "Any multiplicities and orders, and aliasing.", "anchors": ["lib/std/collections/elastic_array.c3:409", "lib/std/collections/elastic_array.c3:412"]}
{"id": "C191", "title": "A two-dimensional slice has only elements of what it was made from", "statement": "All elements of a Slice2d made by slice are elements of the slice it was called on, at the positions moved by the start, and those of one made by slice2d are elements of the array.", "quantifier": "all slices, arrays, starts and lengths the contracts allow, with the defaults", "why_tests_cant": "Pointers are not checked, so nothing is noticed as long as the memory exists.", "anchors": ["lib/std/core/slice2d.c3:122", "lib/std/core/slice2d.c3:164", "lib/std/core/slice2d.c3:166", "lib/std/core/array.c3:51"]}
{"id": "C192", "title": "The elements of a two-dimensional slice", "statement": "get_row has the elements get_xy_ref gives, different coordinates are different elements, and @each visits each of them once, count in all.", "quantifier": "all slices and coordinates", "why_tests_cant": "All widths, positions and lengths.", "anchors": ["lib/std/core/slice2d.c3:28", "lib/std/core/slice2d.c3:36", "lib/std/core/slice2d.c3:50", "lib/std/core/slice2d.c3:68", "lib/std/core/slice2d.c3:122"]}
{"id": "C193", "title": "random::next gives values below the range", "statement": "next gives values between 0 and the range, which is not included; each of them equally often over all values of the generator, at least half of which end the loop.", "quantifier": "all ranges and generators", "why_tests_cant": "All ranges of 32 bits, and all values of the generator.", "anchors": ["lib/std/math/random.c3:37", "lib/std/math/random.c3:42", "lib/std/math/random.c3:46"]}
{"id": "C194", "title": "random::next_in_range gives the values of the range", "statement": "next_in_range gives all values from min to max and no others.", "quantifier": "all min not above max", "why_tests_cant": "All pairs of bounds.", "anchors": ["lib/std/math/random.c3:58", "lib/std/math/random.c3:60"]}
{"id": "C195", "title": "next_bytes fills a buffer", "statement": "next_bytes, where it is defined by @random_value_to_bytes, fills a buffer of any length with the bytes of consecutive values and takes as many values as are needed.", "quantifier": "all lengths, sizes of values and generators", "why_tests_cant": "All lengths.", "anchors": ["lib/std/math/random.c3:143", "lib/std/math/random.c3:151", "lib/std/math/random.c3:160"]}
{"id": "C196", "title": "The JSON parser parses every JSON text to what it denotes", "statement": "json::parse gives, for every text of the grammar of RFC 8259 without escaped surrogates and without repeated names, with white space around it, the value the text denotes; for all other bytes it ends too.", "quantifier": "all values, texts of them, white space, and all sequences of bytes", "why_tests_cant": "Texts nest without bound, and each value has infinitely many texts.", "anchors": ["lib/std/encoding/json.c3:21", "lib/std/encoding/json.c3:74", "lib/std/encoding/json.c3:98", "lib/std/encoding/json.c3:147", "lib/std/encoding/json.c3:180", "lib/std/encoding/json.c3:235", "lib/std/encoding/json.c3:329"]}
{"id": "C197", "title": "The JSON parser parses JSON texts only", "statement": "If json::parse gives a value the input is a JSON text of it with white space around it.", "quantifier": "all sequences of bytes", "why_tests_cant": "All inputs that are wrong in some way.", "anchors": ["lib/std/encoding/json.c3:28", "lib/std/encoding/json.c3:169", "lib/std/encoding/json.c3:190", "lib/std/encoding/json.c3:249", "lib/std/encoding/json.c3:252"]}
{"id": "C198", "title": "An escaped pair of surrogates is the code point", "statement": "In a string, \\u with a high surrogate and \\u with a low surrogate after it are the code point above 0xFFFF they stand for, in UTF-8.", "quantifier": "all pairs of surrogates", "why_tests_cant": "A million of pairs.", "anchors": ["lib/std/encoding/json.c3:370", "lib/std/encoding/json.c3:378"]}
{"id": "C199", "title": "An array is told from an object", "statement": "The values parsed from a text of an array and from one of an object differ.", "quantifier": "all texts", "why_tests_cant": "All texts.", "anchors": ["lib/std/encoding/json.c3:149", "lib/std/encoding/json.c3:182", "lib/std/collections/object.c3:79"]}
{"id": "C200", "title": "readline gives a line", "statement": "io::readline gives the bytes before the next line feed, or to the end of the stream, without carriage returns, and leaves the stream behind the line feed; it gives io::EOF only at the end.", "quantifier": "all streams", "why_tests_cant": "All contents of streams.", "anchors": ["lib/std/io/io.c3:56", "lib/std/io/io.c3:66", "lib/std/io/io.c3:83", "lib/std/io/io.c3:84"]}
{"id": "C201", "title": "Rows written are the rows read", "statement": "@each_row gives the rows that were written with a separator of one byte between fields and a line feed, with or without a carriage return before it, at the end of each, in order and as many as asked for; read_row gives the first and skip_row leaves the others.", "quantifier": "all rows, fields without separators and ends of lines, separators, limits", "why_tests_cant": "All rows and fields.", "anchors": ["lib/std/encoding/csv.c3:44", "lib/std/encoding/csv.c3:67", "lib/std/encoding/csv.c3:72", "lib/std/encoding/csv.c3:74", "lib/std/encoding/csv.c3:84"]}
{"id": "C202", "title": "A field in quotes may hold the separator", "statement": "A field in quotes is one field, whatever is between the quotes.", "quantifier": "all fields", "why_tests_cant": "All fields.", "anchors": ["lib/std/encoding/csv.c3:48", "lib/std/encoding/csv.c3:84"]}
{"id": "C203", "title": "A row that was read can be freed", "statement": "CsvRow.free of a row read by read_row releases memory of the allocator only.", "quantifier": "all streams and separators", "why_tests_cant": "What happens when other memory is released depends on the allocator.", "anchors": ["lib/std/encoding/csv.c3:46", "lib/std/encoding/csv.c3:60", "lib/std/encoding/csv.c3:63", "lib/std/io/io.c3:66"]}
{"id": "C204", "title": "remove_all_from of a List removes what the other list holds", "statement": "List.remove_all_from leaves the elements that are equal to none of the other list, in their order; called with the list itself it leaves none.", "quantifier": "all lists, all other lists and the list itself, all reflexive comparisons", "why_tests_cant": "All lists; no test calls it.", "anchors": ["lib/std/collections/list.c3:528", "lib/std/collections/list.c3:535", "lib/std/collections/list.c3:378", "lib/std/collections/list_common.c3:73"]}
{"id": "C205", "title": "Linear generators have the full period", "statement": "The state of Lcg128Random to Lcg16Random, of Pcg128Random to Pcg16Random and of SimpleRandom comes back first after as many calls as there are states (2^48 for SimpleRandom), and is each of them once before; in these calls the Lcg generators give each value equally often.", "quantifier": "all states, all numbers of calls", "why_tests_cant": "Up to 2^128 calls.", "anchors": ["lib/std/math/random/math.lcg.c3:28", "lib/std/math/random/math.lcg.c3:55", "lib/std/math/random/math.lcg.c3:81", "lib/std/math/random/math.lcg.c3:104", "lib/std/math/random/math.pcg.c3:32", "lib/std/math/random/math.pcg.c3:60", "lib/std/math/random/math.pcg.c3:89", "lib/std/math/random/math.pcg.c3:117", "lib/std/math/random/math.simple_random.c3:18"]}
{"id": "C206", "title": "Multiplicative generators have the longest period there is", "statement": "From a state set_seed can give, Mcg128Random to Mcg16Random come back to it first after 2^126, 2^62, 2^30 and 2^14 calls, by way of all states with the same last two bits.", "quantifier": "all odd states, all numbers of calls", "why_tests_cant": "Up to 2^126 calls.", "anchors": ["lib/std/math/random/math.mcg.c3:14", "lib/std/math/random/math.mcg.c3:29", "lib/std/math/random/math.mcg.c3:62", "lib/std/math/random/math.mcg.c3:85", "lib/std/math/random/math.mcg.c3:111"]}
{"id": "C207", "title": "Sfc generators do not get stuck", "statement": "No two states of Sfc128Random to Sfc8Random have the same next state, and a state comes back only after a multiple of 2^128, 2^64, 2^32, 2^16 or 2^8 calls.", "quantifier": "all states, all numbers of calls", "why_tests_cant": "States of up to 512 bits.", "anchors": ["lib/std/math/random/math.sfc.c3:20", "lib/std/math/random/math.sfc.c3:50", "lib/std/math/random/math.sfc.c3:79", "lib/std/math/random/math.sfc.c3:109", "lib/std/math/random/math.sfc.c3:139"]}
{"id": "C208", "title": "next_long gives every ulong", "statement": "For every ulong there is a state in which Sfc128Random.next_long gives it.", "quantifier": "all values", "why_tests_cant": "No test that looks at values it got can tell that others are not given.", "anchors": ["lib/std/math/random/math.sfc.c3:35"]}
{"id": "C209", "title": "Middle square generators do not get stuck", "statement": "A state of Msws128Random to Msws8Random comes back only after a multiple of 2^128, 2^64, 2^32, 2^16 or 2^8 calls. The sum of the two counters never changes. States that differ only in the sign of state0 have the same next state.", "quantifier": "all states, all numbers of calls", "why_tests_cant": "States of up to 512 bits.", "anchors": ["lib/std/math/random/math.msws.c3:23", "lib/std/math/random/math.msws.c3:60", "lib/std/math/random/math.msws.c3:97", "lib/std/math/random/math.msws.c3:135", "lib/std/math/random/math.msws.c3:171"]}
