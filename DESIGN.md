# Formal model of c3c: design

## What is modelled and how the model relates to the code

The model is written in Lean 4 under `lean/Verif`.  Each area of the code base has

* `Verif/<Area>/Model.lean`   – definitions that transcribe the C / C3 functions, each with a
  comment citing the file and lines in `/repo` and naming every simplification;
* `Verif/<Area>/Spec.lean`    – (when needed) the small independent specification used in statements;
* `Verif/<Area>/Lemmas*.lean` – helper lemmas;
* `Verif/<Area>/Props.lean`   – the property theorems, nothing else, each followed by an `example`
  showing a concrete non-trivial instance of its hypotheses.

Conventions

* machine integers are `BitVec n` (wrap-around is the code's wrap-around); `usz` counters that the
  code guards against overflow are `Nat` and the comment says so;
* C undefined behaviour (out-of-range shift, out-of-bounds access, reading outside a buffer) is a
  distinct outcome: functions that could reach it return `Option` with `none` = undefined
  behaviour, and the theorems prove `some` under the stated precondition;
* loops are structural recursions or take fuel together with a theorem that the fuel suffices;
* mutation through a pointer becomes returning the new value.

## Trusted base

* Lean 4.33.0's kernel, and the axioms `propext`, `Classical.choice`, `Quot.sound` (checked by
  `#print axioms`); no own axioms, no `sorry`, no `native_decide`, no `bv_decide`.
* Faithfulness of the transcription: the code is not executed here, so the tie between model and
  code is the cited reading of the source.
* Not modelled anywhere: LLVM code generation proper, the operating system, floating point
  rounding, performance, memory exhaustion (allocation is assumed to succeed unless the property is
  about it).

## Plan per property

| id | model | proof |
|----|-------|-------|
| C01–C10 | `Bigint`: `bigint.c` on pairs of `BitVec 64` with a type tag | refinement to `BitVec 128` / `Int` modulo 2^N; induction on the division loop |
| C11–C12 | `IntLiteral`: `parse_integer` on character lists | induction on digits; wrap detection analysed; negation witnesses where the detection fails |
| C13 | `ByteLiteral`: hex/base64 literal decoding and concatenation | induction; negation witness for concatenation |
| C14–C17, C30, C43–C46 | `Lexer`: cursor functions on zero-terminated arrays | induction on remaining length |
| C18–C19 | `Symtab`: chained and open addressing tables with arbitrary hash functions | invariant over histories, refinement to finite maps |
| C20 | `Vec`: vector header with size/capacity | refinement to lists over histories |
| C21 | `Json`: recursive descent parser | round-trip by induction on values; negations for negative numbers and duplicate keys |
| C22 | `TaskQueue`: interleaving semantics of worker threads | invariant over all schedules |
| C23 | `Arena`: bump pointer | invariant over request histories |
| C24 | `Layout`: struct/union member placement | induction on members |
| C25 | `Casts`: widening/narrowing rules over an expression tree | structural induction; value preservation |
| C26 | `Pratt`: precedence table and parser on tokens | structural induction on trees |
| C27 | `ConstCompare` | case analysis; negation for fault and reference constants |
| C28 | `Switch` | case analysis and induction on case lists |
| C29 | `Liveness` | induction on the traversal |
| C31–C33 | `Base64`, `Base32`, `Hex` | round-trip by induction in groups |
| C34 | `Utf`: conversions | round-trip, exact lengths, negation for overlong acceptance |
| C35–C37 | `List`, `RingBuffer`, `PriorityQueue` | refinement to sequences / multisets over histories |
| C38–C42 | `Sort` | loop invariants, permutation and sortedness, stack bound |
| C47, C49 | `Json` | the accepted texts are those of a grammar; induction on the parser |
| C48 | `Casts`: folding of operators | refinement to the run time operators |
| C50 | `Url`: percent encoding | round-trip by induction |
| C51–C53 | `Str`: searching, splitting, numbers | specification by position; induction |
| C54 | `HashMap`: chains in a heap | invariant over histories, refinement to finite maps |
| C55–C57 | `Flow`: statements, defers, jumps; basic blocks | simulation between the source, the analysed tree and the blocks, both ways |
| C58 | `ConstInit`: trees of constants in a heap | ownership of disjoint cells; every designator refines a store |
| C59–C62 | `Bitstruct` | bit by bit: every byte written is characterised by the bits it takes from the value and from the object |
| C63–C66 | `NameRes` | lists of identifiers instead of text; each search finds exactly the candidates of its tier; invariant of the passes over modules |
| C67–C69 | `Mangle` | the first word of a name tells its shape; then the parts are read one by one, by mutual induction over types, modules and arguments |
| C70–C74 | `StdMem` | invariants of the state of an allocator together with the blocks of the program, kept by every action; for the heap, the chunks of the free list and of the blocks tile the memory given |
| C75–C79 | `I128Rt` | the division loop's invariant relates the quotient so far, the carry and the remainder to the dividend shifted down; rounding is proved nearest among all floating point numbers from rounding within the binade |
| C80–C88 | `BigNum` | each loop over words has an equation between the numbers the words stand for; two's complement is passed to integers by `toInt`; the failures are proved for whole families of operands |
| C89–C92 | `Chan` | an invariant of all interleavings that counts the threads that sleep, were woken or have the mutex; the queue is a simulation; ends by a weight of the places of the threads; deadlocks are sets of states that no step leaves |
| C93–C95 | `PathStd` | the loop in place is refined to what is written and what is to be read, and that to a stack of names, by induction on what is to be read |
| C96–C99 | `Hash` | the stream is generic in the compression function: an invariant ties buffer and state to the message so far. The compression functions are compared with the standard step by step; for SHA-1 the table of calls is checked against its rule by evaluation, and the circular block by an invariant |
| C100–C103 | `Hash` | as for SHA-1; the sines by powers of a rational close to `exp i` with a bound of the error, then by evaluation. HMAC and PBKDF2 for any algorithm with an invariant as the three have |
| C104–C107 | `Checksum` | words and messages as polynomials over the field of two elements (Mathlib); the tables are remainders by evaluation over their 256 entries and one lemma for a bit of the division; detection because the generator has no root at zero |
| C108 | `Rc4` | the array of the code represents the permutation of the standard, kept by every round |
| C109–C111 | `Bits` | the sequence of all bits written or left to read as the abstract state |
| C112–C116 | `Qoi` | the bytes of both loops are those of a list of chunks; invariant of the encoder: a pending run, and the array of the specification and the palette differ only where the palette has a zero pixel |
| C117–C123 | `Fmt` | the buffer of digits is the reversed numeral, by induction on the number; the parser over the text of a directive; an induction over the pieces of a format; for C119 what a call leaves is a suffix of the format |
| C124–C130 | `Sets` | one lemma per operation about bit `i` of a list of words; an induction over the history of operations; cardinality by counting over the words |
| C131–C135 | `Inet` | invariants of the two reading loops related to a grammar of texts; printing through the theorems about `printf`; blocks by arithmetic of the leading bits |
| C136–C143 | `Time` | the calendar is a count of days (`Time/Spec.lean`); fields are unique by monotony of new years and a table of months; text through the theorems about `printf`; the `double` of the seconds is a rounded quotient |
| C144–C149 | `Abi` | the convention is stated on the list of numbers a type consists of (`Abi/Spec.lean`); the classes are a join over it, by induction over types; registers by induction over types for each of the functions that look for a type at an offset; parameters by induction over the list |
| C150–C152 | `Linked` | one invariant: the heap holds the nodes of a sequence of addresses and values and is otherwise as at the start; each function keeps it (stretches of nodes split at the place of the change), then induction over the calls |
| C153–C158 | `Pool` | the sections under the mutex as steps of a transition system; each step is a few of eight small moves; one invariant (counts of threads, of each job, no sleeper while jobs wait) kept by the moves; shutting down ends by driving one thread after the other to its end |
| C159–C170 | `Stream` | a stream is a state with functions; a specification of reading (what is to come) and of writing (what has arrived), kept by each wrapper if its inner stream keeps it; sources and sinks that follow any plan of short or failing calls; encodings by induction over the bytes |
| C171–C174 | `FmtCheck` | the loops of the check on the rest of the format; induction over the parts of a format gives the verdict; the parts are those of `Fmt`, whose model of the formatter is run on the same text |
| C175–C178 | `CallArgs` | the loop over the arguments as a function on a state; an invariant says which values the state gives to which parameters; positional and named parts by induction, both directions; splats by rewriting the rest of the list |
| C179–C184 | `DString` | each operation refined to one on lists through the bytes of the buffer; the overlapping copy shown equal to a move; `replace` by induction over the text with what has matched as invariant |
| C185–C186 | `Range` | the bit vectors read as integers; the conditions under which the difference does not overflow shown to be necessary as well |
| C187–C190 | `Elastic` | each operation refined to one on lists; loops by induction over the part of the list moved; for an array removed from itself the invariant that its second element, now the first, occurs nowhere else |
| C191–C192 | `Slice2d` | positions as numbers; rows do not meet because a product with the width is between them |
| C193–C195 | `Random` | the mask as a remainder; uniformity by an involution of the values of the generator; the bytes by induction over the values |
| C196–C199 | `StdJson` | texts as an inductive relation; the parser reads each by induction on it; tokens shorten the input, so it ends; what it accepts is a wider relation (`SpecLax`), shown both ways |
| C200–C203 | `Csv` | lines by induction on the stream; the pieces of C52 are unique, so the fields are they |
| C204 | `DynList` (`ModelRemoveAll`, `PropsRemoveAll`) | induction on the iterations left; with itself the size is at most what is left, and the index goes up |
| C205–C208 | `RandGen` | the state after n calls in a closed form; the sum of a geometric series is divisible by a power of two as the number of its terms is; functions on finite sets that are injective are onto |
| C209 | `RandGen` | the counter after n calls, with an odd step, as for C207; the square of a number is that of its negative |

Status of every property is in `MANIFEST.json`.

## Modelled code, area by area

Every definition cites its source lines; this table says which functions are covered and what is left
out.  Code not listed is not modelled.

| area | code modelled | left out or simplified |
|------|---------------|------------------------|
| `Bigint` | `src/compiler/bigint.c`: `i128_*`, `int_*` used by constant folding, `i128_to_string` | floating point conversions |
| `IntLiteral` | `parse_expr.c: parse_integer`, suffix and type selection | the lexer's own digit checks are modelled only as far as they restrict the input |
| `ByteLiteral` | `lexer.c: scan_hex_array, scan_base64`, `parse_expr.c: parse_bytes_expr` with the decoders in `utils` | source positions |
| `Base64`, `Base32`, `Hex` | `lib/std/encoding/base64.c3, base32.c3, hex.c3` incl. the allocating entry points | allocation failure |
| `Sort` | `lib/std/sort/quicksort.c3, insertionsort.c3, binarysearch.c3, sorted.c3` | `countingsort.c3`; comparison functions with side effects |
| `DynList` | `lib/std/collections/list.c3, list_common.c3` | sanitizer annotations, allocator choice, `to_format` |
| `Ring` | `lib/std/collections/ringbuffer.c3` | `to_format` |
| `PQueue` | `lib/std/collections/priorityqueue.c3` | the underlying `List` is the sequence it holds (justified by `C35_history`) |
| `Utf` | `lib/std/core/conv.c3`, `string.c3: to_utf16, to_utf32, from_utf16, from_utf32`, `string_iterator.c3: next, peek` | `StringIterator.get` and the skipping functions, `wchar` helpers |
| `Symtab` | `symtab.c: symtab_init, symtab_add, symtab_find`, `lib.h: next_highest_power_of_2` | the hash function is a parameter; the arena holding the texts is a list |
| `Tables` | `symtab.c: stable_*, htable_*, decltable.c` | a `Decl` is its name, whether it is an array of declarations, and that array; `DeclId`s are positions |
| `Vec` | `lib.h: vec_*, VECNEW, VECLAST, FOREACH_IDX` | pointer-sized elements; the block an outgrown vector leaves behind |
| `TaskQueue` | `taskqueue.c`, pthread and Windows versions, as a transition system | failing thread functions, tasks that do not return |
| `Arena` | `malloc.c: memory_init, calloc_arena, calloc_string`, `vmem.c: mmap_allocate`, `lib.h: ptrid, idptr` | `mmap` itself, the Windows commit logic, zeroing |
| `Pratt` | `parse_expr.c: parse_precedence, parse_precedence_with_left_side, parse_expr, parse_constant_expr, parse_range, parse_arg_list`, the prefix and infix functions for operators, casts, ternaries, optionals, calls, subscripts, access, and the table `rules`; `ast.c: binary_op, unary_op`; spec: `resources/grammar/grammar.y` | initialisers, generics, lambdas, strings, `$`-functions, paths, named arguments, trailing macro bodies; types are single tokens |
| `ConstCompare` | `number.c: compare_bool, compare_fps, expr_contract_array, const_is_bytes, expr_const_compare, expr_const_in_range`; `sema_expr.c: sema_constant_fold_ops` and the folding step of `sema_expr_analyse_comp`; `decl_flatten`; `strncmp`, `memcmp` and the IEEE order of doubles | conversion of both sides to one type; run-time comparisons; initializers other than of character arrays |
| `Switch` | `sema_stmts.c: sema_check_value_case`, the loops and checks of `sema_analyse_switch_body`, constant `nextcase`; `llvm_codegen_stmt.c: llvm_emit_switch_body, llvm_emit_switch_body_if_chain, llvm_emit_switch_jump_table, llvm_set_jump_table_values, llvm_emit_switch_jump_stmt`; the meaning of LLVM's `switch`, `icmp`, `indirectbr` and the index of a `getelementptr` | bodies; cases with run-time values; switches over other types, `any` and `typeid`; `$switch`; code for `nextcase` |
| `Liveness` | all of `sema_liveness.c` (`sema_trace_liveness` and the tracing of declarations, types, expressions, initializers, statements and assembly operands) | `expr_is_pure` (left open); how the analysis builds the trees; what the code generator does with `is_live`; types behind vectors, optionals and function pointers, members of structs (not traced by the code either) |
| `Layout` | `sema_decls.c: sema_analyse_struct_members, sema_analyse_union_members, sema_check_struct_holes, sema_get_max_natural_alignment`; `types.c: type_size, type_abi_alignment` of arrays, structs and unions; `llvm_codegen_type.c: llvm_type_from_decl`; the element numbers of `llvm_value_struct_gep`; LLVM's structure layout rule | analysis of the members' types; members erased by `@if`; struct members declared in place; bitstructs; constant initializers |
| `Lexer` | `lexer.c` completely: comments, names, numbers (extent only, values see `IntLiteral`), strings, raw strings, characters, byte arrays (extent only, contents see `ByteLiteral`), documentation comments, operators, `lexer_next_token`, token locations, `check_bidirectional_markers`; `lib.h: char_is_*, char_hex_to_nibble`; `file_utils.c: file_clean_buffer, file_read_all` | error messages; hashes and interning of names (see `Symtab`: here any set of keywords); `lexer_init`'s file bookkeeping |
| `src/utils/json.c` (json_skip_whitespace, json_parse_number, json_parse_string, json_lexer_advance, json_parse, json_parse_array, json_parse_object, json_map_get, json_map_set, print_json) | `Verif/Json` | Numbers are exact rationals instead of `double`; `%f` is a parameter of the writer; the line number and the messages are left out; the depth of the stack is unbounded. |
| `src/compiler/sema_casts.c` (rule_widen_narrow, recursive_may_narrow, cast_int_to_int, cast_if_valid), `src/compiler/expr.c` (expr_is_simple), `src/compiler/llvm_codegen_expr.c` (integer operators, ext_trunc) | `Verif/Casts` | Integer types only, after semantic analysis; variables, calls and accesses are leaves with arbitrary values; which branch of `?:` and `??` runs is given by the environment; bitstructs, pointers, enums, floats and vectors are left out; the emitted LLVM instructions are given their meaning by hand, with `trap_on_wrap` off. |
| `src/compiler/sema_expr.c` (constant paths of sema_expr_analyse_add, _sub, _mult, _div, _mod, _bit, _shift, _neg_plus, _bit_not) | `Verif/Casts/FoldModel` | Integer operands that already have their final types; operands analysed from the leaves up; constant conditions, vectors, floats, pointers, overloads left out. |
| `src/utils/json.c` (what is accepted) | `Verif/Json/SpecSound`, `PropsSound` | The same model as for C21; the accepted language as a grammar. |
| `lib/std/net/url_encoding.c3` (should_encode, encode_len, encode, decode_len, decode), `lib/std/ascii.c3` (character classes) | `Verif/Url` | The string builder is a list of bytes; allocation always succeeds, what the memory holds is arbitrary. |
| `lib/std/core/string.c3` (trim, starts_with, ends_with, strip, strip_end, split, join, index_of and its kin, contains, tokenize, Splitter.next, to_integer) | `Verif/Str` | Strings are lists; a slice out of range is a fault. Allocation always succeeds. |
| `lib/std/collections/hashmap.c3` | `Verif/HashMap` | Entries live in a heap of their own with null and freed addresses as faults; the address of each new entry is chosen by any allocator. The memory of tables and copied keys (`COPY_KEYS`) is left out, the load factor is any function from capacity to limit, and allocation always succeeds. |
| `src/compiler/sema_stmts.c` (break, continue, nextcase, return, defer, if, for, switch, compound, dead code), `semantic_analyser.c` 77–130 (defers), `sema_expr.c` (`!`, macro calls) | `Verif/Flow` | Statements over an arbitrary state; jumps, copies of deferred statements and `jump_end` as in the code. Expressions and types are abstract; trailing bodies of macros, compile time statements, contracts and enum exhaustiveness are left out. A bound on the rounds of loops stands for all finite parts of a run. |
| `src/compiler/llvm_codegen_stmt.c` (if, loops, switch, jumps, return), `llvm_codegen.c` (blocks), `llvm_codegen_function.c` 506–521 | `Verif/Flow/Codegen.lean` | Blocks with instructions and a terminator, and how LLVM runs them; a branch to a missing block and `unreachable` are `stuck`. Expressions are single instructions; the branches for a case of a switch are one instruction (`C28` is about them). Left out: macros with statements, debug information, emission of values. |
| `src/compiler/sema_initializers.c` (lists, designated initializers, the stores of designators), `llvm_codegen.c: llvm_emit_const_initializer` | `Verif/ConstInit` | `ConstInitializer`s are cells of a heap that are changed in place. Vectors are arrays and bitstructs structs; runtime values, anonymous members, inferred lengths, padding and the scalar constants themselves are left out. |
| Bitstructs: `llvm_codegen_expr.c` (reads, assignments, initializers, constants, operators), `sema_initializers.c: sema_invert_bitstruct_const_initializer, sema_merge_bitstruct_const_initializers`, `sema_decls.c: sema_analyse_bitstruct`, `parse_bitstruct_body` | `Verif/Bitstruct` | An object is a list of bytes, LLVM's integers are `BitVec`s; the width of a member is at most that of its type. Enum members are as their integers, but not in the operators on constants. Left out: names, attributes, and that the end of a range is not analysed. |
| Names: `src/compiler/sema_name_resolution.c` (symbols with and without a path, visibility, ambiguity), `sema_passes.c: parent_path, sema_analyse_pass_module_hierarchy, sema_analyse_pass_top`, `context.c: unit_register_global_decl, decl_register` | `Verif/NameRes` | Interned strings are compared by text, hash tables are functions, modules, files and declarations are numbers. Errors are reduced to which one is reported. Methods, names inside of types, `@if` sections and the lookup of generic templates by name are left out. |
| Mangled names: `src/compiler/types.c: type_mangle_introspect_name_to_buffer, type_append_name_to_scratch`, `module.c: scratch_buffer_append_module`, `ast.c: scratch_buffer_set_extern_decl_name`, `sema_decls.c: sema_generate_parameterized_name_to_scratch` and the lookup of instances in `sema_analyse_parameterized_identifier`, `llvm_codegen_type.c` (typeid symbols) | `Verif/Mangle` | The kinds of user defined types are one constructor with the fields that are read. Function types are given by their prototype. Integers are mathematical; their decimal text is the one of `Nat.toDigits`. Linkage and what the linker does with equal symbols are left out. |
| Allocators of the standard library: `lib/std/core/allocators/{arena_allocator,heap_allocator,temp_allocator,backed_arena_allocator,dynamic_arena,on_stack_allocator}.c3`, with `mem::aligned_offset`, `mem::ptr_is_aligned`, `allocator::@aligned_alloc/@aligned_free` of `core/mem*.c3` | `Verif/StdMem` | Memory is a function from addresses to bytes; addresses and sizes are numbers below 2^64 with the wrapping of `usz`. Headers of blocks, and those of the heap, are bytes of this memory; records of pages are not. Where the heap and the dynamic arena get their memory is a function, which may give any memory that does not overlap what it gave. Freeing of pages, and the pages of `TempAllocator` which are kept between scopes, are left out, as are the address sanitizer and the tracking allocator. |
| 128-bit arithmetic of the runtime: `lib/std/math/runtime/i128.c3` | `Verif/I128Rt` | All functions of the file, on two 64-bit words as in the code; a little endian target. The conversions are modelled for `double` and `float`, the two types they are used with; floating point numbers are their bits, and what they stand for is in `FloatSpec.lean`. |
| `BigInt` of the standard library: `lib/std/math/bigint.c3` | `Verif/BigNum` | Everything but `mod_pow`, `barrett_reduction`, `to_format`, `randomize_bits` and `less_or_equal` (a macro without a name for its parameter). Words as in the code, `MAX_LEN` any number `N`. A failed contract or assertion is `none`, and so is a loop that never ends (`gcdRun` tells the two apart). |
| Channels: `lib/std/threads/buffered_channel.c3`, `unbuffered_channel.c3` | `Verif/Chan` | `init`, `push`, `pop`, `close` by any number of threads in any interleaving. What a thread does between two lock, wait or unlock operations is one step; locks, waits and signals do not fail; a wait may end without a signal. `destroy` is not modelled. |
| Paths: `lib/std/io/path.c3` | `Verif/PathStd` | `normalize` (in place, byte by byte), `append`, `basename`, `dirname`, `parent`, `extension`, `has_extension`, `is_absolute`, for POSIX paths. WIN32 paths, `absolute` and everything that touches the file system are not modelled. |
| Hashes: `lib/std/hash/sha256.c3`, `sha1.c3` | `Verif/Hash` | `init`, `update`, `final`, `hash` and the compression functions, on a little endian machine; the 80 steps of SHA-1 are a table taken from the source. Clearing the context at the end and `print_hash` are left out. |
| Hashes: `lib/std/hash/md5.c3`, `hmac.c3` | `Verif/Hash` | MD5 (the 64 steps are a table taken from the source) on a little endian machine; `Hmac` and `pbkdf2`, generic in the algorithm as in the source and used with MD5, SHA-1 and SHA-256. Clearing of memory is left out. |
| Checksums: `lib/std/hash/crc32.c3`, `crc64.c3`, `adler32.c3`, `fnv32a.c3`, `fnv64a.c3` | `Verif/Checksum` | all functions; both tables are taken from the source |
| `lib/std/crypto/rc4.c3` | `Verif/Rc4` | init and crypt; `destroy` is left out |
| `lib/std/io/bits.c3` | `Verif/Bits` | BitReader and BitWriter over streams that take every byte and give the bytes of a list; shifts by the width or more are the panic of the safe build |
| `lib/std/compression/qoi.c3` | `Verif/Qoi` | `encode` and `decode` on a little endian machine; files (`read`, `write`) and allocation are left out |
| `lib/std/io/formatter.c3`, `formatter_private.c3` | `Verif/Fmt` | `Formatter.vprintf` and all it calls for integers, strings and byte slices; floating point, other types and failing output functions are left out |
| `lib/std/collections/bitset.c3`, `enumset.c3` | `Verif/Sets` | all operations of `BitSet`, of `GrowableBitSet` with words of at most 32 bits, of `EnumSet` for at most 32 and more than 128 elements; in between the shift `1u << ordinal` would have to be widened implicitly, which the compiler rejects, and is left out |
| `lib/std/net/inetaddr.c3` | `Verif/Inet` | reading and printing of addresses and their classes; not the functions that call the system (`addrinfo`) |
| `lib/std/time/{time,datetime,format}.c3` | `Verif/Time` | dates, offsets, differences and texts; `timegm` and `gmtime_r` of the C library are modelled as what POSIX says they compute (trusted), `double` division as the nearest 53-bit number; not `to_local` and the clocks |
| `src/compiler/abi/c_abi_x64.c` | `Verif/Abi` | classification, types of registers, parameters and results of the System V convention; types of members are lowered types; not vectors, `regcall` (unused), Windows, and what LLVM makes of the result (trusted to put one scalar in one register of its kind and `byval` on the stack) |
| `lib/std/collections/linkedlist.c3` | `Verif/Linked` | all functions; nodes on a heap of addresses, freed nodes are not live; any address an allocator returns; not running out of memory |
| `lib/std/threads/pool.c3`, `fixed_pool.c3` | `Verif/Pool` | all functions; not failing mutexes and condition variables, jobs that shut down their own pool, two threads that shut it down at once, the memory of `queue` and `pool` |
| `lib/std/io/stream.c3`, `lib/std/io/stream/*.c3` | `Verif/Stream` | `ByteReader`, `LimitReader`, `MultiReader`, `TeeReader`, `ReadBuffer`, `WriteBuffer`, `Scanner`, `MultiWriter`, `ByteWriter`, `ByteBuffer`, `copy_through_buffer`, `read_all`, `read_fully`, `read_using_read_byte`, `read_byte_using_read`, varints of two and four bytes, big endian integers, byte arrays; not `write_to`, `read_from`, `close`, `flush` of inner streams, allocation failures, files |
| `src/compiler/sema_expr.c` 1845–1938 | `Verif/FmtCheck` | the check of constant formats (`CHECK_FORMAT`); types by what the check tells apart; not formats that are no constants, nor calls with a splat |
| `src/compiler/sema_expr.c` 1246–1255, 1417–1502, 1527–1844, 5593–5612 | `Verif/CallArgs` | matching of arguments with parameters: positions, names, defaults, varargs, splats; not types and conversions of arguments, nor the test mode (`no_match_ref`), nor the range of `$vasplat` |
| `lib/std/core/dstring.c3` 7–72, 74–170, 208–217, 236–243, 266–321, 335–393, 423–453, 468–477, 574–590, 617–662 | `Verif/DString` | the string builder with its buffer; lengths do not wrap, allocations do not fail; not `Char32`, `appendf`, `reverse`, `set`, `char_at`, `copy_zstr`, `free`, reading with `available`, nor the pool around `replace` |
| `lib/std/collections/range.c3` 7–30, 37–52, 59–65 | `Verif/Range` | integer types of 32 to 64 bits with a `usz` of 64; not smaller types (computed as `int`), larger ones, floats, nor `to_format` |
| `lib/std/collections/elastic_array.c3` 16–20, 47–51, 61–89, 103–133, 207–228, 244–248, 277–280, 316–329, 402–413, `lib/std/collections/list_common.c3` 73–86 | `Verif/Elastic` | not `push`, `add_all`, `add_array`, `reverse`, `remove_if`, `compact`, the searches, copies and output (the shared loops are in `Verif/DynList`) |
| `lib/std/core/slice2d.c3` 7–59, 68–125, 154–169, `lib/std/core/array.c3` 51–57 | `Verif/Slice2d` | elements by their index in the memory; positions do not wrap; not the setters |
| `lib/std/math/random.c3` 31–61, 143–161 | `Verif/Random` | the generator is the list of its values; not the generators themselves, seeding, nor floats |
| `lib/std/encoding/json.c3` 9–386, `lib/std/core/dstring.c3` 222–232 | `Verif/StdJson` | streams are lists of bytes that do not fail; `to_double` is a parameter; not the branch of comments (nothing sets `skip_comments`), allocation, nor the depth of the stack |
| `lib/std/io/io.c3` 56–89, `lib/std/encoding/csv.c3` 5–87 | `Verif/Csv` | streams are lists of bytes that do not fail; of the memory only whether the string of a row is the allocator's; `String.split` as in `Verif/Str` |
| `lib/std/math/random/math.{lcg,pcg,mcg,simple_random,sfc,msws}.c3` | `Verif/RandGen` | the function of each generator that changes its state, and `Sfc128Random.next_long`; not seeding, nor the functions that join or cut values |

## Disagreements between code and property, proved in the model

| theorem | finding |
|---------|---------|
| `C02_min_not_wrapped` | folding `MIN / -1` for signed types below 128 bits yields a constant outside the type |
| `C03_neg_divisor` | folding `%` with a negative divisor gives a remainder of the wrong sign |
| `C11_misread_*` | three families of integer literals above 128 bits are accepted with a wrong value |
| `C12_small_suffix_aborts` | suffixes such as `i4` abort the compiler |
| `C13_uninitialised`, `C13_overread` | a base64 literal after another literal leaves its last byte uninitialised; an unpadded one reads past the closing quote |
| `C32_large_buffer`, `C32_out_of_bounds`, `C32_garbage` | `base32::decode_buffer` rejects valid text in large buffers, can write out of bounds, accepts invalid text |
| `C35_add_all_self` | `list.add_all(&list)` writes past the allocation |
| `C36_pop_full`, `C36_pop_full_wrap`, `C36_read_full_iff` | `RingBuffer.pop` on a full buffer does not remove and may return the wrong element; `read` overruns the storage when the window wraps |
| `C37_remove_at` | `PriorityQueue.remove_at` breaks the heap, a later `pop` is not minimal |
| `C39_single`, `C39_gives_up` | quickselect reports NOT_FOUND for one-element lists and for ranks from 64 on in a sorted list |
| `C42_overflow` | `is_sorted` multiplies comparison results and overflows |
| `C34_from_utf16_garbage` | `from_utf16` returns four uninitialised trailing bytes per value above 0xFFFF |
| `C34_overlong`, `C34_not_scalar`, `C34_to_utf16_garbage` | the UTF-8 decoder accepts overlong forms, surrogates and values above 0x10FFFF; `to_utf16` then returns uninitialised cells |
| `C18_long`, `C18_confused` | the symbol table keeps lengths in 16 bits: identifiers of 65536 bytes or more are interned twice, and can be confused with a shorter one on a hash collision |
| `C20_zero_capacity` | `VECNEW(T, 0)` followed by two `vec_add`s writes past the block |
| `C22_windows_many` | on Windows `taskqueue_run` with more than 64 threads returns at once |
| `C23_zero_block`, `C23_overlap` | arena requests close to 2^64 bytes are granted and make later blocks overlap |
| `C26_concat`, `C26_open_length` | the parser gives `+++` the precedence of `*`, the grammar that of `+`; `e[i:]` is in the grammar but rejected |
| `C27_fault_inequality`, `C27_string_nul` | folding `!=` on two faults gives the result of `==`; string constants of one length that agree up to a zero byte fold as equal |
| `C28_overlap_accepted`, `C28_overlap_jump` | `case 5: case 3 .. 7:` is accepted; the LLVM switch has duplicate values, the jump table is written outside its bounds |
| `C28_not_exhaustive`, `C28_exhaustive_rejected` | exhaustiveness of enum switches adds up the sizes of the cases: overlapping cases hide a missing value, and after a range above the limit a complete switch is rejected |
| `C28_inverted_accepted` | a downward range is accepted after a range above the limit |
| `C28_default_fallthrough` | a default without body before other cases falls through in an LLVM switch, but leaves the switch in a chain or jump table |
| `C28_jump_fallthrough`, `C28_jump_wraps` | `@jump`: falling through to the default only, the target is not a declared destination; over a signed type the table size wraps past the check |
| `C29_cleanup_untraced` | of the statements to be run at a `return` only the first is traced (`break`, `continue` and `nextcase` trace them all); normally hidden because the `defer` itself is traced |
| `C24_union_truncated` | `union { char[100000] a; long b; }` has 100000 bytes, but its LLVM type 34464: the padding after the representing member is a 16 bit field.  Holds for all unions whose largest member is more than 64 kB larger than the most aligned one |
| `C24_struct_truncated` | `struct @align(131072) { int x; }`: size 131072, LLVM type 65536, same cause |
| `C24_packed_align_asserts` | `struct @packed @align(16) { char a; int b; }` fails `ASSERT(!decl->strukt.padding)` |
| `C24_packed_member_moved`, `C24_packed_nested_moved`, `C24_packed_size` | the natural alignment of a packed struct is taken to be that of its members, LLVM's is 1, so members of this type are accessed at other offsets than the analysis computed: `struct { char[3] c; Q q; }` with `struct Q { short s; P p; }`, `struct P @packed { char x; int y; }` has `q` at 4 (offsetof) and 3 (access) |
| `C24_union_member_moved` | a union represented by a member aligned by attribute has alignment 1 in LLVM: `struct { char a; union { long y; char[16] x @align(8); } u; }` |
| `C24_offsets_wrap` | sizes and offsets of more than 4 GB wrap without an error |
| `C24_union_packed_given` | in a packed union `@align` on members is ignored |
| `C24_compact_array` | `@compact` lets arrays of structs with padding through, though such structs are compared with memcmp |
| `C14_open_raw`, `C14_open_char` | a raw string or character literal that is not closed makes the lexer step over the terminating NUL and read behind it |
| `C14_hex_overrun` | a byte outside ASCII in place of a hex digit of an escape is used as a negative index into the table of digits |
| `C15_open` | an unterminated block comment is accepted without an error |
| `C17_byte_escape` | in a string `\x80` to `\xff` stand for two bytes, not one |
| `C17_no_scalar_check`, `C17_escapes_collide` | `\U` escapes that denote no scalar value are accepted; from 10000 hex on, numbers that differ by 2^26 give the same bytes |
| `C44_overlong` | overlong UTF-8 is accepted in character literals |
| `C30_embedding`, `C30_mixed` | closing a bidirectional embedding does not lower the count, so files with balanced embeddings are rejected, and embeddings closed by the mark for isolates are accepted |
| `C21_negative` | The JSON reader computes `negate` and never uses it: `-7` is read as 7. |
| `C21_exponent` | The JSON reader refuses numbers with an exponent. |
| `C21_unicode` | `\uhhhh` in a JSON string is stored in one `char`: only the low byte remains, and a zero byte cuts the string. |
| `C21_overread` | `\u` within the last two bytes of a JSON file makes the reader read behind the terminating NUL. |
| `C21_trailing` | What follows the top-level JSON value is not checked. |
| `C21_lookup` | `json_map_get` returns the first of several members with the same key. |
| `C21_set_duplicates` | `json_map_set` adds another member even if it has replaced an existing one, so that the file written holds the key twice. |
| `C47_null` | `print_json` dereferences the null pointer that stands for `null` when it is an array element. |
| `C47_null_member` | A `null` member is written as nothing, which makes the file unreadable. |
| `C47_backslash`, `C47_escape` | Strings and keys are written without escapes: a path like `C:\new` comes back with a line break, one that ends in a backslash makes the file unreadable. |
| `C25_sign` | A negative number is implicitly converted to every unsigned type of at least its size and changes its value. |
| `C25_const_widen` | `uint x = -1` is refused, `ulong x = -1` is accepted: the range of a constant is not checked when the type is larger. |
| `C25_carry` | The sum of two `char`s, computed as an `int`, is implicitly narrowed back to `char` and loses its carry. |
| `C25_len` | The length of a slice is implicitly converted to `int` and `uint`. |
| `C25_plus` | The widening check does not look into `+e` (a recast), `e!!` and expression lists: `long l = +(i + j)` is accepted where `long l = i + j` is refused as ambiguous. |
| `C25_division` | In an accepted narrowing an intermediate result may wrap before a division, so that the value differs from the exact one although that fits. |
| `C48_neg_rem` | `7 % -3` folds to -1; with variables the program computes 1. |
| `C48_shift_cut` | The generated code cuts the amount of a shift to the width of the left side before checking it: `i << l` with an int `i` and a long `l` of 2^32 shifts by 0 even in safe mode, while the constant amount is refused. |
| `C48_dead_branch` | Errors in a branch that is never taken (`c ? x : y / 0`) are reported; a program that never divides by zero is refused. |
| `C49_numbers` | The JSON reader accepts `-`, `1.` and `-.` as numbers. |
| `C49_nothing` | An empty project file, or one of comments only, is read as `null`. |
| `C49_control` | Control characters inside JSON strings are accepted. |
| `C52_trailing` | a Splitter drops an empty piece behind a delimiter at the end, which `split` returns |
| `C52_ensure` | `split` with `skip_empty` returns no pieces where all are empty, though its contract ensures `return.len > 0` |
| `C53_colon` | `to_integer` accepts `:;<=>?` as hexadecimal digits |
| `C53_wraps` | `to_integer` reads some values out of range as other values, e.g. nine binary ones as the `char` 255 |
| `C54_set_after_free` | a freed HashMap still counts as initialized: `set` on it indexes an empty table, and `init` refuses it |
| `C55_labelled_constant_if` | after `if L: (true) { break L; }` the rest of the scope is dropped as unreachable and what was deferred does not run |
| `C56_labelled_constant_if` | a function with a result that consists of such an `if` is accepted without a `return`, and its end is undefined behaviour |
| `C57_while_false` | the body of `while (false) { ... }` (and the step of `for (; false; step)`) is emitted and runs once |
| `C58_blank_member_clears` | `{ .x = 5, .s = {} }` clears the whole struct: `x` is zero |
| `C58_range_shares` | `{ [0..1] = { .a = 1, .b = 2 }, [0].a = 3 }` changes `a` of both elements |
| `C58_range_too_long` | `[0..len]` is accepted; the constant has one element more than the array |
| `C58_index_after_list` | `{ .arr = { 1, 2 }, .arr[1] = 3 }` takes the elements of a full array for indexed ones |
| `C59_const_overlap` | with `@overlap` a constant has the `or` of the members, the code for the same initializer the last one |
| `C59_increment_value` | the value of `++x.a` is not truncated to the bits of `a` |
| `C59_nested_wrong` | `{ .b.x = 1 }` ignores the byte order of the bitstruct `b` |
| `C59_char_with_order` | a byte order attribute on a bitstruct of one byte: the compiler emits `bswap.i8` |
| `C60_assign_loses`, `C60_assign_wrong` | assignments to members of arrays that do not end with a byte lose the bits in the last byte (`or` is not used) |
| `C60_assign_clears`, `C60_others_wrong` | assignments to members inside of a byte of an array clear the bits above them (mask from `end_bit` rather than `end_bit % 8`) |
| `C60_init_differs` | so constants and code differ |
| `C60_elements` | bitstructs in `int[N]` are read and written outside of the object |
| `C60_big_platform`, `C60_big_platform_wrong` | on big endian platforms arrays with an attribute have the other order |
| `C60_width` | `@bigendian` members of arrays with a width above 8 that is not a power of two: the compiler fails |
| `C61_not_int_partial`, `C61_not_wrong` | `~` on a constant bitstruct clears the top bit of each integer member |
| `C61_binary_overlap` | with `@overlap`, `&` on constants is not that of the code |
| `C65_std` | The path `std` never finds anything: the table of `std_module` is never filled, so `std::x` fails even in `module std` |
| `C66_weak_order` | Whether a name with several weak aliases is ambiguous depends on the order of the modules: a preferred candidate also clears an ambiguity with others |
| `C66_public_imports_order` | Without a path, the first `@public` import that declares a name wins silently |
| `C66_public_imports_path` | With a path, a `@private` declaration of a `@public` import makes the name ambiguous, or not, depending on the order of the imports |
| `C67_local_types`, `C68_local_types` | Two `@local` types of one name in different files of a module have one mangled name: their `typeid`s are one symbol, and `List {Foo}` of the second file is the instance made for the first |
| `C67_function_types`, `C68_function_types`, `C67_slice_or_pointer`, `C67_variadic_types` | The mangled name of a function type drops the modules of its types, the difference of `[]` and `**`, and raw variadic arguments: `fn void(a::Foo)` and `fn void(b::Foo)` have one `typeid` symbol and share instances |
| `C67_extern_types`, `C67_export_types`, `C69_exported` | Exported names replace `::` by `_`, so those of `a::b` and `a_b` are the same |
| `C67_nested_types` | A generic module named `p` (or `t`, `f`, `sa`, …) is confused with the code for pointers: `p::Foo {true, T}` and `t::Foo {T}*` have one mangled name |
| `C68_module_paths` | Generic modules `a::b` and `a_b` share instances: the second gets the module of the first |
| `C68_faults` | Faults of one name of different modules share instances |
| `C68_enums` | Value `Y_Z` of enum `X` and value `Z` of enum `X_Y` share instances |
| `C68_integers` | Integers of one value but different types share instances, so the type of the constant depends on which use came first |
| `C69_slice_methods` | Methods of `a::Foo[]` and `b::Foo[]` of one name in one module have one symbol |
| `C70_writes_outside`, `C70_move_copies_old_size` | `ArenaAllocator.resize` which moves a block (because of its alignment) copies the old size, also when the new size is smaller: the block after it, or memory after the arena, is overwritten |
| `C70_full_arena_stops` | In an arena that is exactly full, `release` and `resize` of the last block fail their contract and stop the program |
| `C71_huge_as_zero`, `C71_huge_unsound`, `C71_huge_fails` | `SimpleHeapAllocator` takes the last fifteen sizes of `usz` as 0 and returns a block |
| `C72_page_iff`, `C72_page_too_small` | `TempAllocator` and `BackedArenaAllocator` make the page of a large block too small for alignments above 16: 32 bytes aligned to 64 can be entirely outside of their page |
| `C72_huge`, `C72_fails` | Sizes near 2^64 wrap and are taken from the arena |
| `C72_resize_alignment` | `TempAllocator.resize` of the last block ignores the alignment |
| `C72_resize_copies_old_size` | `BackedArenaAllocator.resize` copies the old size also into a smaller block |
| `C73_grow_overlaps`, `C73_fails` | A page of `DynamicArenaAllocator` remembers only the block it was made for as its last block. Making that block larger grows it over the blocks acquired after it |
| `C73_release_reuses` | Releasing that block frees all blocks after it: the next block overlaps them |
| `C73_shrink_reuses` | Making that block smaller frees it: the next block gets the same address |
| `C73_move_copies_old_size`, `C74_resize_copies_old_size` | `DynamicArenaAllocator.resize` and `OnStackAllocator.resize` copy the old size also into a smaller block |
| `C74_zero_ignored`, `C74_fails` | `OnStackAllocator.acquire` ignores `ZERO` for blocks on the stack |
| `C74_huge` | Sizes near 2^64 wrap, are served from the stack, and make its used part smaller |
| `C77_shift_left_fails` | `__ashlti3` clears the low word before it reads it: left shifts of a 128-bit integer by 64 or more give 0 |
| `C77_shift_right_signed_fails` | `__ashrti3` shifts the high word as unsigned: a right shift of any negative `int128` gives a number that is not negative |
| `C78_signed_fails` | `float_from_i128` shifts the magnitude as signed: the smallest `int128`, -2^127, becomes -1.5 * 2^128 |
| `C79_signed_fails` | `fixint` saturates from magnitude 2^128 on, but numbers between 2^127 and 2^128 come out with the opposite sign |
| `C82_fails` | `BigInt.mult` stops at products that have room: `0 * min`, `1 * min`, `-1 * 2^8191` |
| `C84_same_bits`, `C84_fails` | `BigInt` division with a divisor of more than one word loses the first digit: for `x`, `y` of equally many bits, `x / y` is 0 and `x % y` is `x`, also for `x = y`. (Besides, `multi_byte_divide` compares with the words of the dividend in reverse order.) |
| `C84_stops` | `min / y` and `min % y` stop, though there is room for the result |
| `C85_shl_loses`, `C85_shl_32` | `BigInt.shl` loses what leaves the words in use: `1 << 32` is 0 |
| `C85_shr_same`, `C85_shr_wrong` | `BigInt.shr` and `shr_this` do nothing, as `shr_this` has its `self` by value |
| `C86_gcd_runs` | `BigInt.gcd(x, x)` never returns for `x` of more than one word |
| `C87_fails`, `C87_parse_neg` | `BigInt.init_string_radix` returns `INTEGER_OVERFLOW` for `-0`, `-00`, `-` |
| `C87_parse`, `C87_zeros_stop`, `C87_empty_stops` | `BigInt.init_string_radix` stops the program where a fault would be expected: for numbers without room, for the empty string, and for zeros in front of any number if there are enough of them |
| `C87_to_string_min` | the smallest `BigInt` cannot be written: `to_string` stops |
| `C88_zero` | `BigInt.sqrt` of 0 has length 0, so that `is_zero` and `==` say it is not zero |
| `C88_large_stops` | `BigInt.sqrt` stops for all numbers from 2^8190 on |
| `C90_size_zero` | a `BufferedChannel` of size 0, which `init` accepts, lets nothing through |
| `C91_two_senders`, `C91_two_receivers`, `C91_fails` | `UnbufferedChannel`: a thread keeps `send_mu` while it waits for the receiver, and the next sender waits for `send_mu` with `mu` held; no call on the channel ends any more. Likewise with two receivers |
| `C92_lost_and_twice`, `C92_fails` | `UnbufferedChannel.push` waits without a loop: a wait that ends without a signal loses the value and lets the next one be received twice |
| `C92_closed_but_received` | `UnbufferedChannel.push` may return `CHANNEL_CLOSED` though its value was received |
| `C92_init_closed` | `UnbufferedChannel.init` takes memory that is not cleared and does not set `closed` |
| `C93_hidden_stays`, `C93_above_root`, `C93_fails` | `normalize` tests the same byte twice (line 485), so `..` does not take away a name of a dot and one more byte: `.a/..` stays, and `/.a/../..` is not refused |
| `C94_append_root`, `C94_append_fails` | `Path.append` on the path `/` fails its assertion |
| `C95_parent_below_root`, `C95_parent_fails` | `Path.parent` of `/a` is the empty path, not `/` |
| `C95_extension_fails` | `Path.extension` says that `.foo` has no extension, `has_extension` that it has `foo` |
| `C97_long_piece`, `C97_fails` | `Sha256.update` adds `(ulong)(len * 8)`, which wraps in 32 bits: data of 2^29 bytes in one piece are hashed with another count than in two pieces |
| `C99_long_piece`, `C99_fails` | `Sha1.update` tests `j + len > 63` in 32 bits: a piece of 2^32-1 bytes (which the contract allows) after one byte is copied into the 64 bytes of the buffer |
| `C103_endless`, `C103_fails` | `pbkdf2` counts its iterations, a `uint`, with an `int`: for 2^31 or more it never ends |
| `C109_exact`, `C109_fails` | `BitWriter.write_bits` of 32 bits when 24 are kept shifts a `uint` by 32: a panic in the safe build, an undefined value otherwise |
| `C114_fails` | `qoi::decode` does not put the pixel of a run (or of a reference) in its palette, as the format has it: a stream that starts with a run of black and refers to black later is decoded to a transparent pixel |
| `C115_panics`, `C115_fails` | `qoi::decode` indexes its data without a check: a truncated file, or a header with too many pixels, is a panic (an out of bounds read without safety) instead of `INVALID_DATA` |
| `C116_fails`, `C116_unreadable` | `qoi::encode` computes the number of pixels in 32 bits: 65536 × 65536 pixels are taken for none, and a stream is written that `decode` refuses |
| `C117_fails` | `printf("%-.3d", 5)` prints `5`: with the flag `-` the precision is not used |
| `C117_alt_fails` | `printf("%#06x", 255)` prints eight characters, `0x0000ff`: no room is made for the prefix (the code that would is dead); `%5.0d` of 0 prints nothing |
| `C117_long_fails` | a precision above 256, or a width with the flag `0`, is `INTERNAL_BUFFER_EXCEEDED` |
| `C118_fails` | `printf("%5d", 7)` prints five bytes and returns 1: `ntoa_format` returns the length without the padding; `%c` counts characters |
| `C119_fails` | `printf("%5")` and `printf("%.2")` index the format behind its end: a panic instead of `INVALID_FORMAT` |
| `C120_fails` | `%c` of U+007F, U+07FF and U+FFFF prints an overlong encoding (`<` instead of `<=`) |
| `C120_width_fails` | `%5c` is not padded, `%-5c` is padded on both sides |
| `C125_fails` | `foreach` over a `BitSet` whose size is not a multiple of 32 aborts: `len` counts whole words |
| `C127_fails` | `GrowableBitSet.len` counts empty words at the end: adding and removing 20 leaves a length of 16 |
| `C129_fails` | `EnumSet.has` of an enum with more than 128 elements shifts left instead of right: only ordinals divisible by eight are found or removed |
| `C131_fails` | `ipv4_from_str` accepts `4294967296.0.0.1` as 0.0.0.1: the number wraps around |
| `C133_fails`, `C133_accepts_wrong` | `ipv6_from_str` rejects `1:2:3:4:5:6:7::`, accepts a single colon at either end, groups of more than four digits, and drops a group `ffffffff` |
| `C135_fails`, `C135_never` | the IPv6 classes compare the first 16 bits with a byte: `ff02::1` is not multicast, `fe80::1` not link-local |
| `C136_fails`, `C136_sign_fails`, `C136_zeros_fail` | a negative `NanoDuration` is printed without its sign, 1.05 s is printed `1.5s`, the smallest as nothing |
| `C137_fails`, `C137_early_fails`, `C137_late_fails` | `from_date` before 1970 with microseconds gives negative microseconds and the next second; in 2600 the last microsecond of a second gives the next second |
| `C138_fails` | `from_time(-1)` has -1 microseconds |
| `C139_fails`, `C139_spill_fails` | a month after 31 January is in March |
| `C140_fails`, `C140_zero_fails` | `add_months(0)` and `add_years(0)` of a `TzDateTime` move its time by its offset |
| `C141_fails` | `diff_years` from 2000-03-01 to 2001-03-01 is 0: days of the year are compared across leap years |
| `C142_fails`, `C142_west_fails` | offset -03:30 is printed `-03:-30`, -00:30 is printed `+00:-30` |
| `C143_fails`, `C143_other_fails` | `UNIXDATE` prints local time as GMT; seven microseconds are printed `.7`; the day of `RUBYDATE` is filled with a space |
| `C144_fails`, `C148_fails`, `C149_fails` | with AVX, `union @align(32) { float128 q; }` is passed in a register though it has 32 bytes |
| `C145_fails` | `union { double d; float f; }` is passed as a `float`: the upper half of the `double` is lost, because `x64_get_member_at_offset` takes the last member of a union |
| `C147_fails`, `C147_fails_nested` | `struct { int a; int b @align(8); }` fails an assertion of `x64_get_argument_pair_return`; `struct { double d; struct { float x; } a; }` makes `x64_get_fp_type_at_offset` use a null member |
| `C156_fails` | `ThreadPool.destroy` does not drop pending work: a thread that comes from a job does not look at `stop_now` and goes on until the queue is empty |
| `C157_init_fails` | if a thread can not be made, `init` of both pools does not return: it calls `destroy`, which waits for `num_threads`, set to the number of threads wanted, to become 0 |
| `C157_fails`, `C157_deadlock` | when the jobs of all threads of a `ThreadPool` call `push` while the queue is full, nothing happens any more; the comment says that `push` ignores the job then |
| `C159_available_fails` | `ByteReader.available` is huge after a `seek` past the end, as the difference is unsigned; `LimitReader.available` is the limit, even if the stream is shorter, so that `read_fully` fails |
| `C160_fails` | a `ReadBuffer` delivers its last bytes again when it is read after `EOF`: `refill` sets `read_idx` but leaves `write_idx` |
| `C161_fails`, `C161_panics` | a `MultiReader` panics when it is read after `EOF`, or without readers: the index is not checked |
| `C162_fails` | `Scanner.read` returns `EOF` and drops the bytes of its buffer when the inner stream has ended |
| `C163_first_fails` | `Scanner.scan` passes over a pattern that begins in the buffer and ends in what is read next, as only the new bytes are searched |
| `C163_flush_fails`, `C163_fails` | after `NOT_FOUND` at the end of the stream `flush` returns bytes twice: they were moved to the front, but `read_idx` was not changed |
| `C164_all_fails`, `C170_array_fails` | `read_all` makes one read, so that a stream that delivers its bytes in pieces gives `UNEXPECTED_EOF`; so do the byte arrays |
| `C165_fails` | if the inner stream takes a part of the pending bytes, a `WriteBuffer` keeps the first bytes, which have been written, instead of the others |
| `C166_fails`, `C166_fixed` | an empty write to a `ByteWriter` that is just full panics, and one with a buffer of n bytes takes n - 1 only, as `ensure_capacity` asks for more than is needed |
| `C167_fails`, `C167_grow` | `ByteBuffer.write` grows the buffer to the size of the data written, not to that of all data: it panics in most cases |
| `C167_pushback_fails` | `ByteBuffer.pushback_byte` after a `seek` to the start panics |
| `C169_fails` | `read_varint` gives `OVERFLOW` for `ushort` values from 2^15 on and `uint` values from 2^29 on, which `write_varint` writes: the last byte may be 1 at most, whatever the size of the type |
| `C169_signed_fails` | `read_varint` of signed types undoes a zigzag that `write_varint` does not do; a negative value is written as one byte |
| none | the contract of `write_short_bytearray` is `data.len < 0x1000`, its message says 65535 |
| `C172_fails`, `C172_width_argument` | `io::printf("%*d", 5)` is accepted and fails at run time, as the check does not count the argument of the width; `"%5 d"` is accepted, as it goes over any character to a letter that is a conversion |
| `C173_star` | the compiler reads behind the end of the vector of arguments for `io::printf("%.*s", x)`: the bound is checked before `idx++` only |
| `C173_point` | the compiler reads behind the zero at the end of a format ending in `%.` |
| `C174_refused`, `C174_fails` | `io::printf("%*d", 5, x)`, `"%.d"`, `"%O"` and `%h` of a `char[]` slice are refused, though the formatter prints them |
| `C176_fails`, `C176_empty` | a splat of length zero is refused even if it is constant: `expr_is_const(arg)` is asked of the splat, not of what is splatted |
| `C176_vasplat_fails` | `f(...slice, $vasplat)` with an empty `$vasplat` is refused, as the slice is not taken for the last argument |
| `C180_prefix`, `C180_grow`, `C180_fails` | `insert_at` ignores a view that begins where the string begins, and reads freed memory if the string has to grow |
| `C181_fails`, `C181_empty` | `replace` of `ab` in `aab` finds nothing: a character that ends a partial match is not looked at as the beginning of another; an empty needle is an index out of bounds |
| `C182_fails`, `C182_empty`, `C182_same_first` | `less` asks all characters to be smaller: `ab` and `ac` are not comparable, two empty strings are less than each other |
| `C183_fails`, `C183_owner` | `copy` copies the header with the allocator: memory of one allocator is given back to another |
| `C184_fails`, `C184_returns_zero`, `C184_short` | `read_from_stream` without `available` returns zero always and stops at the first read of less than 16 bytes |
| `C185_fails`, `C185_iff`, `C185_length_overflow`, `C186_fails`, `C186_iff` | the length of a range is the difference in the type of the bounds: for the `int` from -2000000000 to 2000000000 it overflows and, cast to `usz`, is above 2^63; a `Range` of all values of 64 bits has the length zero |
| `C188_fails`, `C188_beyond`, `C188_stale` | `get`, `[]` and `[]=` of an `ElasticArray` check the index against `MAX_SIZE`, not the size: removed elements are given, and what is set there is not in the array |
| `C189_fails`, `C189_too_large` | `add_all_to_limit` of an array to itself computes the number from the size it has by then |
| `C190_fails`, `C190_self` | `remove_all_from` of an array from itself leaves elements: it goes on in entries that have moved |
| `C191_fails`, `C191_default`, `C191_array_default` | `slice` and `slice2d` with a start and without a length take the whole length from there: the last row goes on behind the slice, or the array; lengths that are given are not checked either |
| `C193_fails`, `C193_negative` | `next` takes a `uint` and returns an `int`: for ranges above 2^31 it gives negative values |
| `C194_fails`, `C194_all` | `next_in_range(int.min, int.max)` violates the contract of `next`: the number of values overflows to 0 |
| `C195_fails`, `C195_empty` | `next_bytes` with an empty buffer reaches `unreachable` |
| `C197_fails`, `C197_slash` | `json::parse` skips slashes like white space: the `break` in the case of `'/'` leaves the `switch`, not the loop |
| `C197_trailing` | `json::parse` does not look at what is after the value: `[] x` is parsed |
| `C197_comma_array`, `C197_comma_object` | `json::parse` allows a comma after the last element or member |
| `C198_fails`, `C198_pair` | `json::parse` encodes escaped surrogates one by one: the string is not UTF-8 |
| `C199_fails` | `json::parse` makes the same object of `[]` and of `{}`: neither `is_array` nor `is_map` |
| `C202_fails`, `C202_split` | the CSV reader knows no quotes: a separator in a quoted field splits it |
| `C203_fails`, `C203_empty` | `readline` returns the literal `""` for an empty line, `CsvRow.free` then releases the literal |
| `C204_fails`, `C204_self` | `List.remove_all_from` of a list of two or more elements from itself reads out of bounds: `foreach` keeps the first length while elements go |
| `C208_fails`, `C208_half` | `Sfc128Random.next_long` casts to `uint`: the upper half of every value is zero |

## How to read seeded/LOG.jsonl

`theorems_failed` lists the declarations that failed to compile after the edit. If a helper lemma fails, Lake does not go on to the
files that use it, so the property theorems behind it were not tried. Such a line shows that the proof does not go through for the
edited model; it does not show on its own that the statement of the property is false of it. Where a property theorem, an `example`
or a `_fails` theorem is listed, that one was reached and failed. Edits said to be equivalent leave the claim true: there only the
proof script of the lemma about the edited definition broke.
A line with no theorem in `theorems_failed` is an edit that survived; `tightened` says why it was left or what was added. Until
late, the script that wrote the log left out edits that survived. Its kept output was compared with the log afterwards: seven were
missing, four of these were in the log in other words, the other three (`backtrack`, `lowZero`, `decTail`) were tried again and
added at the end. An empty `instance_refuted` means that no concrete failing case was checked for that edit, or that `decide` could
not evaluate it. Two edits (`removeAt`, `draw`) are there twice, the second time with a case that was refuted.
