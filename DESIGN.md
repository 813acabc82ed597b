# A formal model of mollusc in Lean 4

Source: woodruffw/mollusc, read from `/repo` (never built or run). Everything here is in `lean/Verif`.

## 1. How the code is modelled

* One Lean definition per Rust function, same branch order, each with a comment citing file and lines.
* `&mut self` methods are functions `σ → Out ε α × σ`: the state after an *error* is kept, because the
  Rust caller can go on using the cursor after an error.
* `Out ε α = ok a | err e | panic site | diverge`. A Rust panic is an explicit value that names its site
  (index out of range, arithmetic overflow, `unimplemented!()`, capacity overflow ...). Loops or
  recursions whose termination is not structural take fuel and return `diverge` when it runs out;
  theorems then show `diverge` is never returned (termination) or always is (non-termination).
* Build profile: `Profile.debug` (overflow checks on) and `Profile.release` (wrapping arithmetic, masked
  shifts) is a parameter of every function whose behaviour depends on it. Theorems hold for both unless
  they say otherwise.
* `u64`/`u32`/`u8` values are `BitVec 64/32/8`. `usize` is 64 bits: as a *data value* (counts, offsets coming
  from the input) it is a `BitVec 64` or a `Nat` below 2^64; as a *buffer position* it is a `Nat`
  (a buffer of 2^61 bytes, needed for `len * 8` to overflow, cannot exist).
* Strings: bytes for data that comes from records (validity of UTF-8 is Lean's own
  `String.fromUTF8?`/`ByteArray.IsValidUTF8`), `List Char` for text that is parsed (datalayout).
* `HashMap`/`IndexMap` are association lists / functions with insert-overwrites semantics; `Vec` is `List`;
  `Box` is transparent; `Rc`/lifetimes vanish.
* Error payload strings are kept in `llvm-support/src/align.rs` and `record/datalayout.rs`; in `llvm-bitstream` and `llvm-mapper`
  each message is a constructor that keeps what is quoted, except for errors of the standard library (UTF-8, integers). The text (`Display`) of some errors is modelled, see section 5.

## 2. Layout

| directory | contents |
|---|---|
| `Verif/Base` | outcome type, little lemmas |
| `Verif/Cursor` | `llvm-bitcursor`: model, bit-level specification, lemmas |
| `Verif/Bitstream` | `llvm-bitstream`: abbreviations, parser, container; the *writer* used as specification |
| `Verif/Support` | `llvm-support`: alignments, types, opcodes, code tables |
| `Verif/Mapper` | `llvm-mapper`: unroll, records, tables, datalayout, attributes, type table, module |
| `Verif/Props` | the property theorems, one file per area, with a non-vacuity `example` beside each |
| `Verif/Tests` | the unit tests of `/repo`, run on the model by the kernel: tests that the model behaves like the code, not proofs of any property |

Specifications are separate from the model: a bit string read LSB first (`Cursor/Spec`), a bitstream writer
following the LLVM bitstream format document (`Bitstream/Writer`), lists/maps for the tables.

## 3. Plan per property

| id | modelled as | proved by |
|---|---|---|
| C01, C02 | `Cursor.read` over a concrete 64-bit block state vs. the bit string of the buffer | representation invariant over all operation sequences, case split on block straddling |
| C03 | same; the property is **false** (Short read drops bits): counterexample theorem + partial theorem | witness, invariant |
| C04, C05, C07 | `seekBit`, `seek`, `streamPosition`, `tellBit`, `exhausted` | invariant; exact success conditions |
| C06 | `align32`; **false** in general, true for word-aligned histories | stronger invariant `8*byte_pos ≡ 0 mod 32`; witness |
| C08 | two runs of the same operation list | state equality up to the buffer suffix |
| C09 | relational corollary of C01 | value split |
| C10 | `readAs` at every integer type; **false** for 64-bit `read_exact` | case split |
| C11–C13 | `readVbr`, `readSvbr` with fuel, both profiles; C12 **false** (shift overflow) | induction on chunks; witnesses; `Props/Vbr.lean` determines the outcome on all bits (`Spec.IsVbr`, `Spec.NoVbr`) |
| C14–C17 | `Abbrev.new`, `AbbrevOp.parse`, `parseUnabbrev` vs. writer | induction on operands / fields |
| C18, C19 | `advance` iterated vs. writer of nested streams | induction on the stream tree with a generalised position and scope stack |
| C20–C24, C27 | `advance` on arbitrary bytes | invariants; C23, C24 **false**: witnesses, and a theorem listing exactly the panic sites that remain |
| C25, C26 | container functions | exact conditions; simulation between two cursors with equal remaining bits |
| C28, C29 | unroll on entry sequences | induction on trees; invariant of the partial-module list |
| C30–C32 | record helpers, string table | exact characterisations; C31, C32 **false** as stated: witnesses |
| C33–C36 | `Align`, tables, spec parsers; C35, C36 **false** for pointers | list/sortedness induction |
| C37, C38 | `DataLayout.fromStr` over `List Char` | induction over split pieces; decimal round trip |
| C39–C42 | `Ty`, type table; C41, C42 **false** | fuel + acyclicity (rank) argument; witnesses |
| C43–C46 | attribute groups; C44 **false** | encoder round trip by induction |
| C47, C48 | opcode and function mapping; **false** | case analysis |
| C49, C50 | record mapping, code tables | case analysis, whole-table enumeration lifted by a lemma |
| C51 | composition of C18, C28, C29 and the mappers | composition |
| C52 | identification, string table, symbol table mapping | exact characterisation as equivalences |
| C53 | every error value a mapping can return, against a separate list of input faults (`ErrorSpec`) | inversion of each mapper; for type blocks an equivalence, by induction over the recursion of `resolve`; **false** for the operand error of binary operators (witness) |
| C54 | number of fields delivered by iteration over any bytes | invariant bounding literals per abbreviation by bits already read |
| C55 | every function taking the profile, run in both | simulation carried through sequencing, by induction on loops |
| C56 | every panic and divergence of the mapping model, against a separate list of causes (`StopSpec`) | inversion of each mapper; for type blocks an equivalence; the types of records without forward references are shown to refer back only |
| C57 | `==`, `<`, `cmp` of alignments, address spaces, aligned types, specs and tables, against the contract of `Ord` (`OrderSpec`) | each order sorts by a number; witness for pointer specs |
| C58 | mapping of two files side by side; what is looked at (`ContentSpec`: `SameModule`, `SameTop`, `Unseen`) | relation `OutRel` carried through every mapping function and the unrolling loop; reading back of writers (C18) |
| C59 | all of the datalayout parser, numbers and tables; grammar and meaning in `LayoutSpec` (`Numeral`, `Pieces`, `SpecSays`, `LayoutSays`, `LayoutFault`) | equivalence of each parsing function with its part of the grammar, tables by their sortedness |
| C60 | opening, iteration, unrolling and mapping together; `observe` is what a consumer sees | the entries before the stop decompose into blocks, unrolling is a function of those; `Sim` for the cursors |
| C61 | the example program `dump-bitstream`: what it prints and how it ends | the loop over entries that are nested, by induction; the entries decompose into a tree; lines are separated by newlines, numbers end where the digits do, so texts can be read back |
| C62 | all cursor operations as one machine, against a tape of bits, and against one that is fetched in pieces | a simulation: the cursor's invariant ties its block to the bits at the position; one lemma per operation, then induction on the history |
| C63 | the whole stream reader against a grammar of bit strings | each cursor action is paired with the language it accepts (`Exact`: sound and complete, closed under sequencing), then one lemma per item kind, then induction on items and on bits left; all of it over a `Grid`, the positions padding goes to, which for a wrapper is counted from the stream's start |
| C64 | `advance`, `enter_block` and type resolution with a limited call stack (`Mapper/Within.lean`) | expected to fail; the exact need is proved by the grammar's items (reader), by the forest of blocks (unrolling) and by the height of the type (types), then families of inputs for every limit |
| C65 | the size and height of the types of a table | expected to fail; exact sizes by induction on what an entry denotes, heights by counting entries of each height, then a family of tables that reaches the bound |
| C66 | the errors and panics of the whole stream reader against a specification of what is wrong with the bits | as for C63, each action is paired with the relation between bits and failures it has (`Fails`: exact, closed under sequencing after the language of what was read), then one lemma per item kind; that every stream has one verdict by induction on the bits left |
| C67 | the whole mapper against an ordered list of checks for each kind of block and record (Mapper/VerdictSpec) | each action is paired with the check that decides how it ends (`Judges`: exact, closed under sequencing, mapping over lists, folding and error wrapping), so that a function is paired with the list of checks of its parts, in order; at the top with what C51 and C61 say about the contents of the parts |
| C68 | opening, reading, unrolling, mapping and dumping together, against a specification that mentions none of them (Mapper/BytesSpec) | C25 made exact, then C63 and C66 for the stream, C26 to pass from a wrapper to its payload, and C51, C61 and C67 for the rest |
| C69 | mapping and dumping of what the writer of C18 writes; trees and the plain writer for them (Mapper/TreeSpec) | what a written stream delivers is the tree of its items (induction over the writer); what is looked at does not depend on lengths and ids (C58), so C51, C61 and C67 apply to the tree itself; the plain writer never fails (induction over the tree, with a bound on the bits) |
| C70 | what `Bitcode::try_from` can return (Mapper/RangeSpec: rules, and a plain file for each value) | the rules follow from what a file says (C51); the plain file says the value (induction over the modules), can be written and is mapped (C69) |
| C71 | what a type block can give (Mapper/TypeRangeSpec: rules, and records for each table) | the rules are invariants of building the table (induction over the records) and of following references (C40); the records declare the table (induction over it) and each entry stands for its type (induction over the size of the type) |
| C72 | the texts of errors (Support/Display, Mapper/Display), and what it means that a text claims a comparison of two numbers (Mapper/MessageSpec) | case analysis on why a call fails, from C31, C33 and C49; that a text claims one comparison only, by the digits and signs around it |
| C73 | lists of errors (Bitstream/ReportSpec) | a logic of actions that keep the invariant and whose errors are in a list, applied to every function of the reader; for the converse one stream per error, for all codes and ids by C66 |
| C74 | lists of errors and stops of every part of a file (Mapper/MapReportSpec) | only these: by C67 the outcome is given by the verdicts of the specification, whose errors are traced to the list part by part; each of them: a file that is right but for one thing, written by C69 for the errors that hold values, concrete for the others |
| C75 | the example program `unroll-bitstream`: what `{:#?}` prints for a mapped file | each value against its lines (depth and text), a combinator at a time; string literals can be read from the front; lines do not begin with spaces, and items are deeper than the line that closes the list, so the lines can be read back |
| C76 | sizes of mapped files, of their print-outs and of the types in between | upper bound: the fields of all records are bounded by a square (C54), each block belongs to one module, tables are shared; lower bounds: files that share one table among `n` modules, and towers of types (C65), written by the writer and mapped (C69) |
| C77 | the error reports of both example programs (messages of all errors and their causes, `Debug` of types, anyhow's layout) | the lines of a report (StderrSpec) can be read back into messages; the messages of an error can be read back into the error: first by their beginnings, which differ for different constructors, then by their parts; alignments in errors are small by C74 |
| C78 | the same | no literal, number or escaped string has a control character; by C74 the errors of datalayouts are known, and which quote a character. False: see section 6 |
| C79 | two files one after the other (Mapper/JoinSpec), as the LLVM tools and linkers put them | by C68 the outcome is given by the grammar: items and streams can be shifted to a later place with the same padding, so the second file consists of the same blocks if the first one registers nothing; string and symbol tables are then followed across the seam. False: see section 6 |
| C80 | a file and its beginnings, as after a transfer that was interrupted | what is read of a stream is given by beginnings that are streams (C63), so also of the longer one; complete blocks can be read back from entries, so the blocks of the cut file are the first of the whole; then as for C79. In a wrapper by C68. False for symbol tables: see section 6 |
| C81 | the calls of `Vec::with_capacity` of both crates, in bytes, for each function in order (`Mapper/Reserve.lean`), beside the model | with the invariant of C21/C22 for each call of `next`: each element announced and read takes at least a bit; for the mapper, a type table that maps has as many types as it announces, and no function body maps. False for files that are refused: see section 6 |
| C82 | nothing new: `Block::len` as reported by the reader, and whole files | by the grammar (C63, C66) what is read from a place on depends on the definitions in force there, the bits that follow and the place in the word; entries that differ in lengths only map alike (C58). Lengths: by induction on what is written, each block with the positions of the reader at its start and end. The first sentence is false of streams in general: see section 6 |
| C83 | the `log::debug!` messages of `llvm-bitstream`'s reader, for each function in order (`Bitstream/Log.lean`), beside the model; what they should be, item by item of the grammar (`Bitstream/LogSpec.lean`) | a round that reads an item logs what the specification says (with C63's lemmas), calls of `next` are rounds, and a round that fails begins with where it is; then C63 and C66 |
| C84 | the scope stack and the registry, which the model has (`Bitstream/Parser.lean`); what is counted is in `Bitstream/KeptSpec.lean` | an invariant of every round: each scope and the registry have at most as many operands as bits were read (a definition takes a bit for each operand), and a block takes 44 bits; for the converse a family of streams, from the grammar (C63) |
| C85 | attribute groups and lists, which the model has (`Mapper/Attributes.lean`); what is counted is in `Mapper/AttrSizeSpec.lean` | the exact size of a list in terms of its groups (C46); an attribute takes as many fields as it has characters, a record has fewer fields than the file has bits (C54), so a cube bounds the lists; a family of files with a group of `n` attributes and `n` lists of `n` literals reaches it |
| C86 | the `log::debug!` messages of `llvm-mapper`: the functions that log, or call one that does, written again with their messages beside their outcome (`Mapper/MapLog.lean`); what the messages should be (`Mapper/MapLogSpec.lean`) | the outcomes are those of the model (`C86_same`); messages about types by induction on the references that are followed, for tables that are accepted, refused or go in a circle; the others by the steps of the mapper and the theorems of C51 about what a module says; where the log ends by which step can give which error |
| C87 | the reader once more, with a count of steps beside its outcome and state (`Bitstream/Work.lean`): one for each `BitCursor::read`, each `AbbrevOp::parse`, each operand of an abbreviation that is copied, each round of `advance` | the outcomes are those of the model (`C87_same`); every part takes at most two steps for each bit it consumes and a constant, but for copies and interpretation of abbreviations, which C54 and C84 bound by the length of the input; then by induction on the rounds of a call and on calls; a step for each field, with C54, shows that the bound is reached; from below, each successful action has consumed at most 64 bits for each of its steps (`C87_bits`) and counts the operands it copies (`C87_copies`), by the same induction |
| C88 | the blocks of the modules as `unroll` leaves them; what a block holds is counted by recursion over the nested blocks (`Mapper/HeldSpec.lean`) | a block holds the fields of its entries (induction on its contents); the modules and tables are those of `pairs` (C29), so by induction on the top-level blocks, with C54 for the number of fields read; files of literals in a shared string table, read back with C69, show that the cube is reached |
| C89 | how deep the blocks of an unrolled file are nested, and types (`Mapper/NestSpec.lean`, `height`) | that the derived code calls itself once for each level is read off the types, not modelled; unrolling with a limit (C64) adds a block only where there was room for it, by induction on its rounds; the bound by bits from C29 and C64; the nested files and types of C64 show that it is met |
| C90 | the type constructors and the table as in C39 and C40; LLVM's rules as a second predicate (`Mapper/LlvmTypeSpec.lean`) | expected to fail; induction on types for the exact difference of the two sets of rules, then C40 for tables that map the first fault of a table (C53) for those that do not, and C51 and C69 for files |
| C91 | the messages of each operation of the cursor beside the operation (`Cursor/Log.lean`), and of `Bitstream::from`; what they should be, on the tape of C62 (`Cursor/LogSpec.lean`) | the tape that the cursor stands on (C62) gives the messages by cases of `read`, then induction on the chunks and on the history; that they tell the result by following the two reads side by side |
| C92 | `read_as` and `read_exact` at `f32` and `f64` (`Cursor/Float.lean`); rounding as nearness among the numbers `m * 2 ^ e` (`Cursor/FloatSpec.lean`); **false** from 25 bits (`f32`) or 54 bits (`f64`) on | no floating point number lies between neighbouring multiples of the last digit kept; the rest is by linear arithmetic |
| C93 | nothing new; the datalayout specs of LLVM's manual, which of them LLVM allows and what they mean (`Mapper/LlvmLayoutSpec.lean`); **false** for alignments of 0 (as in `a:0:32` of 32-bit ARM), for numbers of 24 bits, for GOFF mangling, for the empty text, for the defaults of four types, and for lists stated twice | acceptance by translation to the specs of C38, refusal by inversion of the grammar of C59; the tables by C34 and C35, the rest by induction on the specs; files with such modules by C51 and C69 |
| C94 | nothing new; the record that LLVM's writer makes of a function (`Mapper/LlvmGlobalSpec.lean`); **false** for functions without a name, for names that are not UTF-8 and for calling conventions that are not listed | the fields of the record one by one, by C49 and C50; files by C51 and C69 |
| C95 | nothing new; the records that LLVM's writer makes of attribute groups (`Mapper/LlvmAttrSpec.lean`); **false** for attributes with a type (`sret(T)`), for `align` of more than 64 bytes, for attributes that are not listed and for strings that are empty or not UTF-8 | induction on the attributes of a record, strings ending at their first NUL; then C43; files by C51 and C69 |
| C96 | nothing new; the records that LLVM's writer makes of aliases and COMDATs (`Mapper/LlvmAliasSpec.lean`); **false** for all aliases but those with nothing but defaults, and for all COMDATs | the fields of the records one by one, by C49 and C50; files by C51 and C69 |
| C97 | nothing new; the blocks and records that LLVM's writer makes of a module (`Mapper/LlvmModuleSpec.lean`); **false** for every module that defines a function | C51 says what a file means; the parts of the module by C90 and C93 to C96 |
| C98 | nothing new; the blocks that LLVM's writer makes of several modules (`Mapper/LlvmModulesSpec.lean`); **false** if one of the modules defines a function | induction on the modules for how blocks are grouped; each of them by C97 |
| C99 | nothing new; the text that a report must have (`Mapper/NumberSpec.lean`) | the checks before the wrong number pass, as they do with the number replaced or the record left out |

"False" rows get a theorem refuting the full statement with a concrete witness and a `_partial` theorem
saying what does hold.

## 4. Trusted base

* Lean 4.33.0's kernel. Every theorem named in `MANIFEST.json` depends on at most the three axioms
  `propext`, `Classical.choice` and `Quot.sound` (many on fewer); the project declares no axiom and uses
  no `sorry`, `admit`, `native_decide`, `bv_decide`, `unsafe`, `implemented_by` or `extern`.
* The reading of Rust semantics of section 1. In particular: which operations panic in which profile; that
  `usize` has 64 bits; that third-party code behaves as documented (`num_enum`'s `TryFromPrimitive` and
  `IntoPrimitive`, `num`'s `NumCast`/`FromPrimitive`, `IndexMap`/`HashMap` insert and lookup, `thiserror`'s
  `From` conversions, `std`'s `Vec::with_capacity` panicking above `isize::MAX` bytes, `str::parse`,
  `str::split`, `String::from_utf8`, sorting and `binary_search` on slices).
* The specification files (`*Spec.lean`, `Bitstream/Writer.lean`): they are what the theorems are about, and
  they are short enough to be read. Two of them (`Mapper/LlvmTypeSpec.lean`, `Mapper/LlvmLayoutSpec.lean`) state rules of LLVM itself, as of its
  language reference at version 14; no copy of it was at hand to compare them with.

## 5. What is modelled, and what is not

Modelled, function by function:

| source | model |
|---|---|
| `llvm-bitcursor/src/lib.rs` | `Cursor/Model.lean`, `Cursor/Float.lean` (`read_as` at floating point types), `Cursor/Log.lean` (the `log` calls); everything except the doc tests. `num::cast` at user-defined types is not modelled |
| `llvm-bitstream/src/abbrev.rs` | `Bitstream/Abbrev.lean` |
| `llvm-bitstream/src/parser.rs`, `lib.rs`, `record.rs`, `error.rs` | `Bitstream/Parser.lean`, `Bitstream/Open.lean` |
| `llvm-support/src/align.rs` | `Support/Align.lean` (with parsing, tables, orderings) |
| `llvm-support/src/ty.rs` | `Support/Ty.lean` |
| `llvm-support/src/opcode.rs` | `Support/Opcode.lean` (unary and binary operators; the other enums are declarations nothing constructs) |
| `llvm-support/src/bitcodes.rs`, `attribute.rs`, `lib.rs` | `Support/Enums.lean`, `Support/Globals.lean`, `Mapper/EnumAttribute.lean` |
| `llvm-mapper/src/unroll.rs` | `Mapper/Unroll.lean`, the end of `Mapper/Module.lean` (`Bitcode::try_from`, reify) |
| `llvm-mapper/src/map.rs`, `error.rs`, `record/mod.rs`, `block/mod.rs` | `Mapper/MapCtx.lean`, `Mapper/MapError.lean`, `Mapper/Unroll.lean` |
| `llvm-mapper/src/block/{identification,strtab,symtab}.rs` | `Mapper/Tables.lean` |
| `llvm-mapper/src/block/{vst,module}.rs` | `Mapper/Module.lean` |
| `llvm-mapper/src/block/attributes.rs` | `Mapper/Attributes.lean` |
| `llvm-mapper/src/block/type_table.rs` | `Mapper/TypeTable.lean` |
| `llvm-mapper/src/block/function/mod.rs` | `Mapper/FunctionBlock.lean` |
| `llvm-mapper/src/record/{comdat,function,alias}.rs` | `Mapper/GlobalRecords.lean` |
| `llvm-mapper/src/record/datalayout.rs` | `Mapper/DataLayout.lean` |
| `log::debug!` in `llvm-bitstream/src/{parser,abbrev}.rs` | `Bitstream/Log.lean` (which messages, with which values; not how these are formatted) |
| `log::debug!` in `llvm-mapper/src/{map,block/module,block/attributes,block/type_table}.rs` | `Mapper/MapLog.lean` (which messages, with which values; not how these are formatted) |
| the steps of the reader (cursor, abbreviations, parser) | `Bitstream/Work.lean` (counted beside the outcomes; `C87_same` says these are the same) |
| `Vec::with_capacity` in both crates | `Mapper/Reserve.lean` (what is asked for, in order, up to the outcome) |
| `llvm-bitstream/examples/dump-bitstream.rs` | `Bitstream/Dump.lean` |
| both example programs, their error reports (with all error types and `anyhow`'s report) | `Mapper/Stderr.lean` (what the standard library says about bytes that are not UTF-8 is a parameter) |
| `llvm-mapper/examples/unroll-bitstream.rs` | `Mapper/Print.lean` (with the parts of `core::fmt` that it uses; which characters are printable is a parameter) |

Modelled as well, in `Support/Display.lean` and `Mapper/Display.lean`: the texts (`Display`) of the errors of alignments, widths,
address spaces, alignment specs, datalayouts, record strings and blobs, COMDAT, function and alias records,
attribute groups and function bodies, where they do not quote a
text of the standard library about UTF-8 or one of `num_enum`. `Mapper/Stderr.lean` has the others too.

Not modelled: how log messages are formatted; `Debug` output of other types than those in a mapped file and in error messages; backtraces; memory exhaustion other than `Vec` capacity
overflow (how much is asked for in advance is modelled, see C81); how many bytes of stack a call takes (how deep calls nest is modelled, see C64; that dropping and printing nested
values recurses once for each level is taken from the types, see C89); threads (the library has none); buffers whose `as_ref` gives different bytes at different calls; the command line and file access of both example programs; build scripts;
`llvm-constants`, which the workspace comments out as subsumed; types nothing constructs
(`block/function/instruction.rs`, `basic_block.rs`, `TermOp`, `MemOp`, `CastOp`, `FuncletPadOp`, `OtherOp`);
trivial accessors.

## 6. What the model shows to be wrong in the code

Each item is a theorem with a concrete witness unless marked (model), which means it is a branch of the model
that a characterisation theorem exposes. These are properties of the pinned commit.

* Cursor. A read that fails with `Short` has already dropped the bits left in the current word (C03). A relative
  byte seek whose sum overflows panics in debug builds (C05). `align32` aligns relative to the last loaded word,
  which is wrong after a byte seek to an unaligned place (C06). `read_exact` for integers of 64 or 128 bits always fails (C10). `read_as` at a floating point type never fails with
  `BadCast`: it rounds, so that different numbers become the same; `read_exact::<f32>` converts the 32 bits as a number instead of decoding them, and
  `read_exact::<f64>` always fails (C92). A VBR of
  more than 64 bits panics in debug builds and gives a wrong value in release builds (C12).
* Abbreviations. `Abbrev::new` on an operand list of just an array underflows in debug builds (C15). Widths
  `Fixed(0)`, `Vbr(0)`, `Fixed(>=64)`, `Vbr(>32)` are accepted and fail at the first record that uses them (model).
* Parser. Five panic sites can be reached by bytes alone (C23): no operands in SETBID, an abbreviated record with
  no fields, capacity overflow of the operand counts, and the two arithmetic overflows above. A block whose
  abbreviation width is 64 or more makes iteration yield errors for ever (C24). A stream cut inside a block ends
  as cleanly as a complete one; a stream with trailing zero padding ends with `BadScope` (C20, C22). A three-bit
  record can have arbitrarily many fields by literal operands; the total is bounded by a square (C54).
* Container. `from_wrapped` takes `size + 20` as length whatever the offset is, so an offset other than 20 cuts the
  end of the stream (C26, C60). An offset that is not a multiple of 4 gives a stream that is not of whole words, which
  bare would be refused; in it padding before the end goes to the end of the last, shorter piece (C63). The magic number of a bare file is never checked, also not by the mapper (C60).
* Records. `try_string`/`try_blob` never accept the last field alone, so one-byte texts are rejected, and panic on
  records without fields (C31). String table references whose end overflows 64 bits panic in both profiles (C32);
  `read_name` panics on records with fewer than two fields (model).
* Alignment and data layout. `Align::bit_align` overflows for shifts 61 to 63 (C33). Pointer specs are not checked
  for preferred >= ABI when parsed (C36), and updating a pointer spec duplicates its address space (C35). Texts
  whose first character is not ASCII panic (C36). An `a` spec does not update the aggregate alignment, "a:0:64" is
  rejected, "m:eXYZ" and "efoo" are accepted, "ni" skips an arbitrary character (C37, model). `cmp` of pointer
  specs looks at the address space only and disagrees with `==`; `==` of type specs and of whole tables looks at the
  types only, so tables with different alignments are "equal" (C57). Of the
  layouts LLVM allows those with an alignment of 0 (32-bit ARM's `a:0:32`, `S0`), with address spaces or widths of 24 bits and with `m:l` are refused; integers of
  64 bits, vectors of 64 and 128 bits and aggregates have other default alignments than in LLVM's manual, or none; a second `n` or `ni` spec replaces the first (C93).
  Files with such a datalayout do not map, nor do those whose datalayout is `e` or `E` alone (`C93_files`).
* Types. Recursive types never finish mapping (C41). A named structure directly after a structure is rejected or
  merged with it, one-letter structure names are rejected (C42). Merging can turn a reference into one to the structure
  itself, so that a table without circles does not finish mapping either (C56). Integer widths are truncated to 32 bits (C40).
* Attributes. A group record cut off inside a key panics, a PARAMATTR record of the old format panics (C44).
  `vscale_range` swaps its bounds, alignments are read as `log2 + 1` although LLVM writes bytes (C45). Group ids
  are truncated to 32 bits (C46). `NoSanitizeBounds` is rejected (model). No file maps that has an attribute with a type, such as `sret(T)`,
  `byval(T)` or `elementtype(T)`, nor one with `align` or `alignstack` of more than 64 bytes (C95).
* Operators and functions. No binary operator is ever constructed: the type check requires a type to be
  floating-point and integer at once, and the table behind it is inverted for the bit operators (C47). So no error
  about the operand type says anything about the input (C53). No function block maps (C48), hence no module with
  function bodies.
* Globals. Function alignment is truncated to 8 bits, COMDAT selection kinds are numbered from 0 where LLVM starts
  at 1, alias records are read in the old field order (C49). A file with a function that has no name (`@0`) does not map, nor one whose calling
  convention is not listed (`tailcc`, or a bare number) (C94). No file maps that has an alias with another linkage than `external`, or a COMDAT of the
  kind `samesize`; of the other aliases only those with nothing but defaults come back as they were written, and no COMDAT does (C96).
* Whole modules. Put together (C97): a file that LLVM writes for a module with a function that is defined, not just declared, never maps, because the block of the body
  is refused (`C97_definitions`). Nor does a file with a module that has recursive types, a structure with a name of one byte, or a named structure right after a
  structure (`C97_types`). Of the others it is said exactly which ones map. One such
  module in a file is enough for none of its modules to be reported (C98).
* Module. A module-level value symbol table is required though its contents are ignored; one-byte triples,
  sections, gc names and assembly texts are rejected, empty ones panic in debug builds (C51, model).
* Resources. Every item that shows nothing, every open block and every level of a type is a nested call, so small
  inputs overflow any stack (C64). Types are copied into each other, so a table of `n` entries can map to a type of
  `2 ^ n - 1` values (C65), also in a file of `500 + 60 n` bytes that maps (C76). Each module gets its own copy of the tables after it,
  so a file of `400 n` bytes can map to, and be printed as, more than `n ^ 2` bytes; never more than a square (C76).
* Messages (C72). Width 0 is refused as "too large (0 > 8388607 bits)"; the variant for zero is never used. A type spec whose preferred
  alignment alone is too large is refused by "impossible ABI alignment for type: 8 > 32768". `try_string(0)` of a record with one field
  says "impossible string index: 0 >= 1 (field count)". A COMDAT record with 4 fields "doesn't have enough fields (4 < 3)".
  `from_bit_align(24)` calls the supplied value 3; section and GC indices are quoted one less than they are in the record.
  A record of `n` fields of a group whose last string is cut off has "n + 1 fields, n consumed": the two are swapped. A pointer
  spec with 2 parts is told that 4 are expected though 3 are enough (C59).
* Reports (C77, C78). Different errors have different reports, but a character of the datalayout text that is not expected is quoted as it
  is, so a file can put control characters (escape sequences for the terminal, or ends of lines) into the report. Errors of the symbol
  table say "invalid string table"; the type table's say "mapping error in string table"; "unsupported: unsupported: " is said twice.
* Files one after the other (C79). A symbol table of the second file becomes that of modules of the first that have none. Abbreviations
  registered by a BLOCKINFO block of the first file stay in front of those of the second, so its records are read with the wrong
  abbreviation. A second magic number is read as an abbreviation definition, and is always an error.
* Files that are cut off (C80). If a bare file is cut off after the string table of a module and before its symbol table, then it maps, to
  a module without a symbol table. In a wrapper every cut is noticed.
* Memory (C81). Room for operands, types and basic blocks is reserved as soon as their number is read, before any of them is. Files of
  24, 84 and 96 bytes ask for 2^63 - 8 bytes at once, so that the program aborts where the model (which has no limit but that of `Vec`) goes
  on to refuse them. Files that map ask for at most 512 times their size.
* Memory of the reader (C84). Entering a block copies the abbreviations registered for its id. With `n` registered abbreviations and
  `n` blocks in each other the reader keeps `n * n` of them, for a stream of about `10 * n` bytes.
* Attribute lists (C85). A list gets a copy of each group it refers to. A file of `420 + 30 n` bytes maps, but on the way `n * n * n`
  attributes are built: thirty kilobytes are enough for a thousand million of them.
* Shared tables (C88). A module that comes before a string table gets a copy of the whole block, with records that are never looked at.
  A file of `60 + 261 n` bytes maps, but on the way its modules hold `n * n * n` fields.
* Vectors (C90). A vector of opaque pointers is rejected, so a file in which `<2 x ptr>` occurs does not map. A vector without elements,
  which LLVM rejects, is accepted.
* Lengths of blocks (C82). The announced length is reported as it is and never compared with where the block ends, so it says nothing
  about a stream that one has not written oneself. It is not used for anything either: no block is skipped by it.
