{"id": "C01", "title": "Fixed-width read returns exactly the next n bits", "statement": "On any cursor reached by any sequence of public operations, read(n) with 1 <= n <= 63 and at least n bits left returns the unsigned little-endian value of the n bits that follow tell_bit() (least significant bit of the lowest byte first) and advances tell_bit() by exactly n.", "quantifier": "all buffers, all length limits, all operation histories (including failed operations, seeks and aligns), all n", "why_tests_cant": "The value is assembled from up to two 64-bit blocks; whether a read straddles a block, and how the block was left by earlier operations, depends on the whole history. Tests only exercise a few positions.", "anchors": ["llvm-bitcursor/src/lib.rs: BitCursor::read, load_current_block, tell_bit"]}
{"id": "C02", "title": "Read failures are classified exactly", "statement": "read(n) fails iff n is 0, n >= 64 or fewer than n bits remain; the error is InvalidReadSize in the first two cases, Eof when the cursor is exactly at the end, and Short otherwise. It never panics and never indexes outside the buffer.", "quantifier": "all buffers, histories and n", "why_tests_cant": "The failure branch depends on the block state left by earlier operations and on how the buffer length relates to multiples of 8 bytes.", "anchors": ["llvm-bitcursor/src/lib.rs: BitCursor::read, load_current_block", "llvm-bitcursor/src/error.rs"]}
{"id": "C03", "title": "A failed read leaves the cursor where it was", "statement": "If read(n) returns an error then tell_bit() and all later reads are as if the call had not been made.", "quantifier": "all buffers, histories and n", "why_tests_cant": "Needs every straddling position and every tail length; the existing tests never read after a failure.", "anchors": ["llvm-bitcursor/src/lib.rs: BitCursor::read, load_current_block, clear_block_state"]}
{"id": "C04", "title": "seek_bit reaches every in-range bit position and only those", "statement": "seek_bit(p) succeeds iff p <= bit_len(); afterwards tell_bit() = p and every later read gives the bits at p, whatever the cursor did before. If it fails, the error is Short if there are bits after the last multiple of 64 that is not after p and Eof otherwise, and the cursor stands at that multiple of 64 unless it is behind the end, in which case it has not moved.", "quantifier": "all buffers, all previous histories, all target positions", "why_tests_cant": "Seeking re-enters the block loader; correctness depends on p mod 64, the buffer tail and the state before the seek.", "anchors": ["llvm-bitcursor/src/lib.rs: BitCursor::seek_bit"]}
{"id": "C05", "title": "Byte seeks are exact, and failed byte seeks change nothing", "statement": "io::Seek::seek moves to the requested byte iff the target lies in 0..=byte_len() (End only with a negative offset) and returns the new byte offset, which tell_byte() then reports; otherwise it returns an error and the cursor is unchanged. stream_position() is the byte that holds the next bit, and what a successful seek returned.", "quantifier": "all buffers, histories, SeekFrom variants and 64-bit offsets, including ones that wrap", "why_tests_cant": "The code relies on wrapping signed-to-unsigned conversions for negative targets; all 2^64 offsets matter.", "anchors": ["llvm-bitcursor/src/lib.rs: impl Seek for BitCursor"]}
{"id": "C06", "title": "align32 moves to the next 32-bit boundary", "statement": "align32() moves forward to the least multiple of 32 that is not before tell_bit(), without failing and without passing the end.", "quantifier": "all buffers whose length is a multiple of 4, all operation histories that only byte-seek to multiples of 4; and the unrestricted form over all buffers and histories", "why_tests_cant": "The implementation never looks at tell_bit(): it works off the bits left in the current block, so it is right only by an invariant over the whole history.", "anchors": ["llvm-bitcursor/src/lib.rs: BitCursor::align32"]}
{"id": "C07", "title": "Position stays in bounds and exhausted() means exactly at the end", "statement": "After any sequence of operations 0 <= tell_bit() <= bit_len(), byte_len() never changes, and exhausted() is true iff tell_bit() = bit_len().", "quantifier": "all buffers and all finite sequences of operations, successful or not", "why_tests_cant": "It is an invariant over unbounded histories including error paths.", "anchors": ["llvm-bitcursor/src/lib.rs: tell_bit, tell_byte, exhausted, bit_len"]}
{"id": "C08", "title": "A length-limited cursor cannot see past its limit", "statement": "new_with_len(buf, n) behaves exactly like new(&buf[..n]): every sequence of operations gives the same results and positions, so bytes past n are never observable; it is rejected iff n exceeds the buffer.", "quantifier": "all buffers, limits and operation sequences", "why_tests_cant": "Non-interference over all suffixes and histories cannot be sampled.", "anchors": ["llvm-bitcursor/src/lib.rs: BitCursor::new_with_len, load_current_block"]}
{"id": "C09", "title": "Splitting a read does not change what is read", "statement": "Reading a bits and then b bits yields the low a and high b bits of the single (a+b)-bit read from the same state, and ends at the same position.", "quantifier": "all states, all a, b >= 1 with a+b <= 63", "why_tests_cant": "Relational property over all positions relative to block boundaries.", "anchors": ["llvm-bitcursor/src/lib.rs: BitCursor::read"]}
{"id": "C10", "title": "read_as / read_exact return the value unchanged or fail", "statement": "read_as::<I>(n) returns the n-bit value iff it is representable in I, otherwise BadCast; read_exact::<I>() reads exactly the bit size of I. In particular read_exact works for every primitive integer type.", "quantifier": "all states, all integer types, all widths", "why_tests_cant": "Needs all values at the representability edge of each type.", "anchors": ["llvm-bitcursor/src/lib.rs: BitCursor::read_as, read_exact"]}
{"id": "C11", "title": "VBR encode/decode round trip", "statement": "For every width w in 2..=32 and every 64-bit value v, reading the canonical VBR-w encoding of v placed anywhere in a stream returns v, consumes exactly the encoding, and never panics in any build profile.", "quantifier": "all widths, all 2^64 values, all positions and surrounding bits", "why_tests_cant": "2^64 values times all alignments.", "anchors": ["llvm-bitcursor/src/lib.rs: BitCursor::read_vbr"]}
{"id": "C12", "title": "read_vbr terminates and never panics on arbitrary input", "statement": "read_vbr(w) on any stream terminates, rejects w outside 2..=32 with InvalidVbrWidth without moving, and for every chunk sequence returns the mathematical value of the chunks (mod 2^64) or an error; it never panics.", "quantifier": "all streams, widths and chunk sequences of any length, canonical or not, in debug and release builds", "why_tests_cant": "The chunk count is unbounded and the overflow occurs only for long continuation runs.", "anchors": ["llvm-bitcursor/src/lib.rs: BitCursor::read_vbr"]}
{"id": "C13", "title": "Signed VBR round trip", "statement": "For every width in 2..=32 and every signed value of magnitude below 2^63, reading its sign-in-low-bit VBR encoding returns that value; the negation inside never overflows.", "quantifier": "all widths, all values, all positions", "why_tests_cant": "2^64 values; edge cases at the sign boundary.", "anchors": ["llvm-bitcursor/src/lib.rs: BitCursor::read_svbr"]}
{"id": "C14", "title": "Abbreviation definitions round trip", "statement": "Reading a DEFINE_ABBREV body written per the bitstream format returns exactly the operand list that was written.", "quantifier": "all operand lists of any length allowed by the format: literals, Fixed, VBR, Char6 in any order, optionally ended by an Array with element type or a Blob; any 64-bit literal or width", "why_tests_cant": "Unbounded operand lists and values, any bit position.", "anchors": ["llvm-bitstream/src/abbrev.rs: Abbrev::new"]}
{"id": "C15", "title": "Accepted abbreviations are well formed", "statement": "Whatever the input, an accepted abbreviation has at least one operand, Array or Blob occur only as the last operand, and array elements are Fixed, VBR or Char6; no input makes definition parsing panic.", "quantifier": "all byte streams and positions, both build profiles", "why_tests_cant": "Quantifies over all adversarial inputs.", "anchors": ["llvm-bitstream/src/abbrev.rs: Abbrev::new"]}
{"id": "C16", "title": "Abbreviated records round trip", "statement": "For every abbreviation and every field list that fits it, parsing the record written with that abbreviation gives back the fields, in order, with literals restored, arrays and blobs flattened, and consumes exactly the written bits.", "quantifier": "all abbreviations, all fitting operand values, arrays and blobs of any length, any bit position", "why_tests_cant": "Unbounded arrays, blobs and operand lists with alignment-dependent layout.", "anchors": ["llvm-bitstream/src/abbrev.rs: AbbrevOp::parse, Abbrev::parse, decode_char6"]}
{"id": "C17", "title": "Unabbreviated records round trip", "statement": "Parsing an UNABBREV_RECORD written for (code, operands) returns that code and those operands in order.", "quantifier": "all codes, operand lists of any length, any enclosing block and position", "why_tests_cant": "Unbounded lists and 64-bit values.", "anchors": ["llvm-bitstream/src/parser.rs: StreamParser::parse_unabbrev"]}
{"id": "C18", "title": "Whole-stream round trip", "statement": "For every well-formed logical stream (nested blocks, abbreviation definitions, BLOCKINFO blocks, records in any encoding) the entries obtained by iterating over its written form are exactly its block starts, records and block ends, in order, then the end of iteration.", "quantifier": "all well-formed streams of any size and nesting depth", "why_tests_cant": "Unbounded nesting, sizes and interactions between abbreviation scopes.", "anchors": ["llvm-bitstream/src/parser.rs: StreamParser::advance", "llvm-bitstream/src/lib.rs: Bitstream::from_raw, next"]}
{"id": "C19", "title": "Records mean the same however they are encoded", "statement": "Two streams that differ only in how records are encoded (which abbreviation, abbreviation-ID width, abbreviation definitions, BLOCKINFO contents) yield the same sequence of block ids, record codes and fields.", "quantifier": "all pairs of such streams", "why_tests_cant": "Relational property over pairs of unbounded streams.", "anchors": ["llvm-bitstream/src/parser.rs: StreamParser::advance", "llvm-bitstream/src/abbrev.rs: Abbrev::parse"]}
{"id": "C20", "title": "Blocks are properly nested", "statement": "In the entries produced by any stream, valid or not, before the first error, every EndBlock closes the latest open SubBlock: no prefix has more EndBlocks than SubBlocks, and records occur only inside a block.", "quantifier": "all byte sequences, all prefixes of the iteration", "why_tests_cant": "Invariant of the scope stack over all inputs.", "anchors": ["llvm-bitstream/src/parser.rs: enter_block, exit_block, advance"]}
{"id": "C21", "title": "Abbreviations are scoped to their block", "statement": "Leaving a block restores exactly the abbreviations (and ID width) in force before it was entered; entering a block gives it exactly the abbreviations registered for its id by BLOCKINFO so far, in order; using an id outside the defined range is BadAbbrev.", "quantifier": "all states reachable on any input", "why_tests_cant": "State-machine invariant over unbounded histories.", "anchors": ["llvm-bitstream/src/parser.rs: Scope, enter_block, exit_block, define_abbrev, get_abbrev"]}
{"id": "C22", "title": "Parsing always makes progress and terminates", "statement": "Every call of advance() returns; a call that yields an entry has consumed at least one bit; hence iteration up to the first error yields at most bit_len() entries, and the position never moves back or past the end.", "quantifier": "all byte sequences and all reachable parser states", "why_tests_cant": "Termination on adversarial input with internal recursion and loops driven by counts in the data.", "anchors": ["llvm-bitstream/src/parser.rs: StreamParser::advance", "llvm-bitstream/src/lib.rs: Iterator for Bitstream"]}
{"id": "C23", "title": "Parsing never panics", "statement": "No byte sequence makes opening or iterating a bitstream panic.", "quantifier": "all byte sequences, debug and release builds", "why_tests_cant": "Needs all adversarial inputs.", "anchors": ["llvm-bitstream/src/parser.rs: parse_unabbrev, parse_with_abbrev, get_abbrev", "llvm-bitstream/src/abbrev.rs: Abbrev::new, AbbrevOp::parse", "llvm-bitcursor/src/lib.rs: read_vbr"]}
{"id": "C24", "title": "Iteration ends: after an error or the end the iterator finishes", "statement": "Iteration returns None iff the input is fully consumed, and a loop that skips errors always ends.", "quantifier": "all byte sequences", "why_tests_cant": "Infinite behaviour cannot be observed by a finite test.", "anchors": ["llvm-bitstream/src/lib.rs: Iterator for Bitstream::next", "llvm-bitstream/src/parser.rs: advance"]}
{"id": "C25", "title": "Container recognition is exact", "statement": "Opening bytes succeeds iff the stream length is a multiple of 4 and a 4-byte magic is present at the stream start; a leading wrapper magic selects wrapper handling, and the wrapper fields and stream magic reported are the little-endian words of the input; a wrapper whose size or offset exceeds the data is rejected.", "quantifier": "all byte sequences", "why_tests_cant": "All lengths, sizes and offsets, including overflow edges.", "anchors": ["llvm-bitstream/src/lib.rs: Bitstream::from, from_raw, from_wrapped, from_cursor"]}
{"id": "C26", "title": "Wrapping is transparent", "statement": "A bitstream embedded at any 4-aligned offset behind a wrapper header yields the same entries and the same first error as the bare bitstream, whatever follows it.", "quantifier": "all payloads (valid or not), all paddings and trailers", "why_tests_cant": "Relates two runs whose internal 64-bit block boundaries differ, over all inputs.", "anchors": ["llvm-bitstream/src/lib.rs: Bitstream::from_wrapped", "llvm-bitcursor/src/lib.rs: read, align32"]}
{"id": "C27", "title": "Abbreviation metadata never surfaces", "statement": "Definitions of abbreviations, BLOCKINFO blocks and their SETBID/name records are never delivered as entries, wherever they occur.", "quantifier": "all byte sequences and reachable states", "why_tests_cant": "Invariant over all inputs.", "anchors": ["llvm-bitstream/src/parser.rs: advance, enter_block, parse_unabbrev, parse_with_abbrev"]}
{"id": "C28", "title": "Unrolling reconstructs the block tree", "statement": "Unrolling a stream of entries gives back each block with all its records in order and, for each block id, all its sub-blocks in order; nothing is lost, duplicated or attached to another parent, and a stream that ends inside a block is an error.", "quantifier": "all block trees of any depth and width", "why_tests_cant": "Unbounded trees.", "anchors": ["llvm-mapper/src/unroll.rs: TryFrom<Bitstream> for Bitcode (enter_block)"]}
{"id": "C29", "title": "Each module is paired with the right tables", "statement": "Every module gets the first string table (and symbol table) that follows its identification block, shared by all modules since the previous one; a module without identification, a second module for the same identification and any other top-level block are errors; modules are returned in order.", "quantifier": "all sequences of top-level blocks", "why_tests_cant": "Unbounded sequences; pairing depends on the whole history.", "anchors": ["llvm-mapper/src/unroll.rs: TryFrom<Bitstream> for Bitcode, PartialBitcodeModule::reify"]}
{"id": "C30", "title": "Record and block lookups by code are exact", "statement": "by_code / by_id return all and only the matching elements in order; one returns the first; exactly_one succeeds iff there is exactly one; one_or_none fails iff there are two or more.", "quantifier": "all record lists, block collections and codes", "why_tests_cant": "All multiplicities and interleavings.", "anchors": ["llvm-mapper/src/unroll.rs: Records, Blocks"]}
{"id": "C31", "title": "Strings and blobs in records are decoded faithfully", "statement": "try_string(i)/try_blob(i) return the bytes of fields i.. iff i is in range and each is a byte (and they are valid UTF-8 for strings), and otherwise an error; they never panic.", "quantifier": "all records and indices", "why_tests_cant": "All field values and boundary indices.", "anchors": ["llvm-mapper/src/unroll.rs: Record::try_string, try_blob"]}
{"id": "C32", "title": "String table lookups are exact and safe", "statement": "A string table lookup returns the bytes [offset, offset+size) iff the range is non-empty and inside the table and valid UTF-8, and otherwise an error; it never panics or reads outside.", "quantifier": "all tables, 64-bit offsets and sizes, including sums that overflow", "why_tests_cant": "All 2^128 offset/size pairs.", "anchors": ["llvm-mapper/src/block/strtab.rs: Strtab::try_get, get, read_name"]}
{"id": "C33", "title": "Alignments are powers of two and convert faithfully", "statement": "Align::from_byte_align/from_bit_align accept exactly the powers of two (bit form: multiples of 8), from_shift exactly 0..=63, and byte_align, bit_align and shift return what was put in, without overflow.", "quantifier": "all 64-bit inputs", "why_tests_cant": "2^64 inputs including overflow at the top.", "anchors": ["llvm-support/src/align.rs: Align::from_shift, from_byte_align, from_bit_align, byte_align, bit_align"]}
{"id": "C34", "title": "Type alignment tables behave like sorted maps", "statement": "After any sequence of updates to the default table, the table is strictly sorted with one entry per aligned type, looking up an updated type gives the last update, and other entries are untouched.", "quantifier": "all update sequences", "why_tests_cant": "Unbounded histories with binary search.", "anchors": ["llvm-support/src/align.rs: TypeAlignSpecs::default, update, AlignedType Ord"]}
{"id": "C35", "title": "Pointer alignment tables behave like sorted maps", "statement": "After any sequence of updates the table has exactly one entry per address space, sorted, holding the last update.", "quantifier": "all update sequences", "why_tests_cant": "Unbounded histories.", "anchors": ["llvm-support/src/align.rs: PointerAlignSpecs::default, update, PointerAlignSpec Ord/PartialEq"]}
{"id": "C36", "title": "Alignment specs satisfy their invariants however they are made", "statement": "Every type or pointer alignment spec obtainable through the API (constructor or parser) has preferred >= ABI alignment and, for types, alignments of at most 2^15 bytes; parsing never panics.", "quantifier": "all constructor arguments and all input strings", "why_tests_cant": "All strings and values.", "anchors": ["llvm-support/src/align.rs: TypeAlignSpec::new, FromStr; PointerAlignSpec::new, FromStr"]}
{"id": "C37", "title": "Parsed datalayout is independent of panics and complete", "statement": "DataLayout::from_str never panics, rejects non-ASCII input, and its result is the default layout updated by each '-'-separated spec from left to right: parsing a-b equals applying b to the result of a, and the last spec for a scalar property wins.", "quantifier": "all strings", "why_tests_cant": "Unbounded strings.", "anchors": ["llvm-mapper/src/record/datalayout.rs: DataLayout::from_str"]}
{"id": "C38", "title": "Printed datalayout specs are read back", "statement": "For each spec kind, the text LLVM documents for given numbers parses to exactly those numbers: stack alignment, address spaces, native integer widths, non-integral address spaces, function pointer alignment, integer/float/vector/aggregate and pointer alignments.", "quantifier": "all numeric values in range", "why_tests_cant": "All numbers and list lengths.", "anchors": ["llvm-mapper/src/record/datalayout.rs: DataLayout::from_str", "llvm-support/src/align.rs: FromStr impls"]}
{"id": "C39", "title": "Types are valid by construction", "statement": "Every type value obtained from the type constructors or the type table satisfies LLVM's structural rules at every depth: integer widths in 1..=2^24-1, valid pointee, array, vector, struct-field, return and parameter types.", "quantifier": "all constructor arguments, all type-table blocks", "why_tests_cant": "Unbounded nesting.", "anchors": ["llvm-support/src/ty.rs: IntegerType::new, PointerType::new, ArrayType::new, VectorType::new, StructType::new, FunctionType::new", "llvm-mapper/src/block/type_table.rs: PartialType::resolve"]}
{"id": "C40", "title": "The type table maps records to types faithfully", "statement": "For an acyclic TYPE_BLOCK, the i-th type is the one described by the i-th type-defining record with references resolved through the table; the number of types equals the declared count; dangling references are errors.", "quantifier": "all type blocks", "why_tests_cant": "Unbounded tables and reference graphs.", "anchors": ["llvm-mapper/src/block/type_table.rs: TypeTable, PartialTypeTable::reify, PartialType::resolve"]}
{"id": "C41", "title": "Type table mapping terminates", "statement": "Mapping any TYPE_BLOCK terminates, including recursive types.", "quantifier": "all type blocks, in particular all reference graphs", "why_tests_cant": "Divergence is not observable by a test, and graphs are unbounded.", "anchors": ["llvm-mapper/src/block/type_table.rs: PartialType::resolve"]}
{"id": "C42", "title": "Named structs keep their names", "statement": "Each named struct record takes exactly the name given by the STRUCT_NAME record before it, and any sequence of named and anonymous structs is accepted.", "quantifier": "all sequences of struct records", "why_tests_cant": "Depends on the preceding records.", "anchors": ["llvm-mapper/src/block/type_table.rs: TryFrom<&Block> for TypeTable (StructNamed / Opaque)"]}
{"id": "C43", "title": "Attribute groups round trip", "statement": "Mapping an attribute group record written for (group id, parameter index, attributes) returns that id, disposition and attribute list in order; every supported attribute kind is read back with its values.", "quantifier": "all attribute lists of any length and strings of any length", "why_tests_cant": "Unbounded lists and strings.", "anchors": ["llvm-mapper/src/block/attributes.rs: AttributeGroups, Attribute::from_record, AttributeGroup::disposition"]}
{"id": "C44", "title": "Attribute mapping never panics", "statement": "No PARAMATTR or PARAMATTR_GROUP block content makes attribute mapping panic; it terminates consuming every field.", "quantifier": "all records", "why_tests_cant": "All adversarial records.", "anchors": ["llvm-mapper/src/block/attributes.rs: Attribute::from_record, Attributes::try_map"]}
{"id": "C45", "title": "Packed integer attributes unpack exactly", "statement": "allocsize, vscale_range, alignment and dereferenceable attributes report the parameters that were packed, in the documented order.", "quantifier": "all 64-bit attribute values", "why_tests_cant": "2^64 values.", "anchors": ["llvm-mapper/src/block/attributes.rs: IntAttribute::try_from"]}
{"id": "C46", "title": "Attribute lists refer to the right groups", "statement": "Each PARAMATTR entry maps to the listed groups in order; a reference to an undefined group is an error.", "quantifier": "all blocks and group tables", "why_tests_cant": "All id values including ones above 32 bits.", "anchors": ["llvm-mapper/src/block/attributes.rs: Attributes::try_map"]}
{"id": "C47", "title": "Binary opcodes map to operators", "statement": "Constructing a binary operator from an opcode and an operand type succeeds exactly for integer or floating-point (vector) types and gives the operator of that opcode for that type class.", "quantifier": "all opcodes and types", "why_tests_cant": "All types, unbounded nesting.", "anchors": ["llvm-support/src/opcode.rs: BinaryOp::try_from"]}
{"id": "C48", "title": "Modules with function bodies map", "statement": "A module containing valid function blocks maps successfully; in general mapping a function block returns (a value or an error) and never panics.", "quantifier": "all function blocks", "why_tests_cant": "All inputs.", "anchors": ["llvm-mapper/src/block/function/mod.rs: TryFrom for FunctionBlock", "llvm-mapper/src/block/module.rs"]}
{"id": "C49", "title": "Global records refer to module tables correctly", "statement": "Function, alias and comdat records that map successfully carry the name at their string-table range, the type at their type index, the section/gc/attribute entry their 1-based index names (0 meaning none), and the listed enum values; any index out of range is an error.", "quantifier": "all records, tables and module versions", "why_tests_cant": "All field values and tables.", "anchors": ["llvm-mapper/src/record/function.rs: Function::try_map", "llvm-mapper/src/record/alias.rs: Alias::try_map", "llvm-mapper/src/record/comdat.rs: Comdat::try_map"]}
{"id": "C50", "title": "Enumerations decode consistently", "statement": "Each numeric code decodes to at most one enumerator and each enumerator is produced by exactly its own code; block ids are partitioned into reserved (0..7), IR (8..26) and unknown with no information lost.", "quantifier": "all 64-bit codes", "why_tests_cant": "2^64 codes.", "anchors": ["llvm-support/src/bitcodes.rs", "llvm-mapper/src/block/mod.rs: BlockId", "llvm-support/src/lib.rs: Linkage, CallingConvention, Visibility, DllStorageClass"]}
{"id": "C51", "title": "End to end: written module bytes map to the described module", "statement": "For every module description without function bodies, mapping the bytes written for it returns exactly one module with the described identification, version, triple, datalayout, tables and global records.", "quantifier": "all module descriptions, any record encoding", "why_tests_cant": "Unbounded contents through every layer.", "anchors": ["llvm-mapper/src/unroll.rs: TryFrom<&[u8]> for Bitcode", "llvm-mapper/src/block/module.rs: Module"]}
{"id": "C52", "title": "Identification, string table and symbol table blocks are read exactly", "statement": "A string table or symbol table holds exactly the bytes of the first blob record of its block; an identification holds the text of the first producer record and the first field of the first epoch record. Records after those and records with other codes do not matter.", "quantifier": "all blocks, both build profiles", "why_tests_cant": "Blocks hold arbitrarily many records with arbitrary fields.", "anchors": ["llvm-mapper/src/block/strtab.rs: TryFrom<&Block>", "llvm-mapper/src/block/symtab.rs: TryFrom<&Block>", "llvm-mapper/src/block/identification.rs: TryFrom<&Block>"]}
{"id": "C53", "title": "Every error names a fault the input really has", "statement": "Whenever mapping bytes returns an error, the input has the fault that the error reports: the stream ends inside a block, a module has no identification, a record that must occur once is missing or repeated, a text is no UTF-8, a type refers past the end of the table, an attribute list refers to an undefined group, and so on for every variant; indices, counts and codes in the error are those of the input.", "quantifier": "all byte strings, both build profiles, every error value", "why_tests_cant": "A test checks one malformed input; misleading errors show on inputs nobody thought of.", "anchors": ["llvm-mapper/src/unroll.rs", "llvm-mapper/src/error.rs", "llvm-mapper/src/block/", "llvm-mapper/src/map.rs"]}
{"id": "C54", "title": "What a stream makes its consumer hold is bounded by its size", "statement": "Whenever a call of next gives a record, the record has fewer fields than bits have been read from the input so far; all records together have at most as many fields as the square of the number of bits of the input.", "quantifier": "all byte strings, all sequences of calls of next, also after errors, both build profiles", "why_tests_cant": "Element counts in the input are arbitrary 64-bit numbers, and abbreviations multiply literal operands.", "anchors": ["llvm-bitstream/src/abbrev.rs: AbbrevOp::parse, Abbrev::new, Abbrev::parse", "llvm-bitstream/src/parser.rs: parse_unabbrev, parse_with_abbrev", "llvm-bitstream/src/lib.rs: Iterator for Bitstream"]}
{"id": "C55", "title": "Debug and release builds give the same results", "statement": "Opening, iterating, seeking and reading, and mapping a whole file give the same result and the same observable state in a debug and in a release build, except when the debug build panics reporting an arithmetic overflow.", "quantifier": "all byte strings, all sequences of cursor operations, all sequences of calls of next", "why_tests_cant": "Tests run in one profile; differences show only on inputs that wrap some intermediate value.", "anchors": ["llvm-bitcursor/src/lib.rs", "llvm-bitstream/src/parser.rs", "llvm-bitstream/src/abbrev.rs", "llvm-mapper/src/unroll.rs", "llvm-mapper/src/block/", "llvm-mapper/src/record/"]}
{"id": "C56", "title": "Every panic and endless recursion while mapping has a listed cause", "statement": "If mapping a file (or a module, type table or function body) panics or never ends, the input has one of a short list of features: a text or name record without fields (debug builds), a count too large to reserve memory for, a type that refers to itself or to a later type or a named structure directly after another structure, an attribute record cut off in a key, an attribute list of the old kind, a name whose offset and size overflow, a function body, or one of five faults of the stream. The place of the panic is the one that belongs to the feature.", "quantifier": "all byte strings of up to 2^61 bytes, all module blocks and string tables, both build profiles", "why_tests_cant": "Absence of further panics is a statement about all inputs; fuzzing can only find them.", "anchors": ["llvm-mapper/src/unroll.rs: TryFrom for Bitcode", "llvm-mapper/src/block/module.rs: Module::try_from", "llvm-mapper/src/block/type_table.rs", "llvm-mapper/src/block/function/mod.rs", "llvm-mapper/src/record/"]}
{"id": "C57", "title": "Comparing alignments, types and specs obeys the contract of Ord", "statement": "cmp of alignments, address spaces, aligned types and alignment specs is a total order that agrees with the == of the same type. Alignments are ordered by their size in bytes, address spaces by number, aligned types by kind (aggregate, float, integer, vector) and then by width. == on specs and tables of specs means that they say the same.", "quantifier": "all pairs and triples of values of each type", "why_tests_cant": "Transitivity and agreement with == range over all pairs and triples of values.", "anchors": ["llvm-support/src/align.rs: Ord for AlignedType", "llvm-support/src/align.rs: PartialEq and Ord for TypeAlignSpec", "llvm-support/src/align.rs: Ord for PointerAlignSpec", "llvm-support/src/align.rs: Align, AddressSpace"]}
{"id": "C58", "title": "A mapped file depends only on the contents that are looked at, not on how they are encoded", "statement": "Mapping two files with the same records and blocks gives the same outcome (modules, error or panic), however they are encoded: abbreviations, field encodings, abbreviation id widths, block lengths and BLOCKINFO do not matter. Within a module, records with codes the mapper does not use, blocks with ids it does not use, the contents of the value symbol table, and the order among records with different codes and blocks with different ids do not matter either.", "quantifier": "all pairs of bitstreams, all ways of writing the same contents, and all places where an unseen record or block is put", "why_tests_cant": "Ranges over all pairs of encodings of all contents, including those that fail to map.", "anchors": ["llvm-mapper/src/unroll.rs: UnrolledBlock, UnrolledRecord", "llvm-mapper/src/block/module.rs: Module::try_map_mut", "llvm-mapper/src/unroll.rs: TryFrom for Bitcode"]}
{"id": "C59", "title": "Which texts are datalayouts, what they mean, and why others are rejected", "statement": "A text is accepted as a datalayout exactly if it is ASCII and consists of specs of the known forms separated by dashes; the result is the default layout changed by the specs from left to right. Numbers are decimal, may have leading zeros and a plus sign and must fit; alignments are a power-of-two number of bytes given in bits; preferred alignments of types are at least the required ones; entries of the type table are replaced, those of the pointer table are added. Every text that is not of this form is rejected with the error and message that name the first fault it has, in the first faulty spec, and no other; every text has exactly one meaning or exactly one fault.", "quantifier": "all texts", "why_tests_cant": "Ranges over all texts, including those with unusual numerals, missing or extra parts and non-ASCII characters.", "anchors": ["llvm-mapper/src/record/datalayout.rs: DataLayout::from_str", "llvm-support/src/align.rs: TypeAlignSpec::from_str", "llvm-support/src/align.rs: PointerAlignSpec::from_str", "llvm-support/src/align.rs: TypeAlignSpecs::update", "llvm-support/src/align.rs: PointerAlignSpecs::update"]}
{"id": "C60", "title": "Mapping sees only the entries of a stream; a wrapped file maps like the file in it", "statement": "Two opened streams that deliver the same entries and stop in the same way map with the same outcome (modules, error or panic), wherever they lie in their inputs. So a file in a wrapper maps like the file on its own, whatever the version and CPU fields and the bytes after it are. The magic number of a bare file does not matter, as long as it is not that of a wrapper.", "quantifier": "all pairs of streams, all files, wrappers, trailing bytes and magic numbers, including files that fail to map", "why_tests_cant": "Ranges over all pairs of inputs, and over errors and panics at any place in them.", "anchors": ["llvm-mapper/src/unroll.rs: TryFrom for Bitcode", "llvm-bitstream/src/lib.rs: Bitstream::from", "llvm-bitstream/src/lib.rs: Bitstream::from_wrapped"]}
{"id": "C61", "title": "The dump program prints the tree of a stream's blocks, and its text determines what the stream delivers", "statement": "dump-bitstream prints nothing and fails if its input cannot be opened. Otherwise it prints the wrapper, if there is one, the magic number in base 16, and one line for each block opened, block closed and record, each indented by the number of blocks around it, and ends as the stream does. Its indentation counter never underflows. For a stream as written by a bitstream writer it prints exactly the tree that was written. Two inputs with the same printed text have the same wrapper, magic, blocks and records (up to recorded block lengths and abbreviations, which are not printed).", "quantifier": "all inputs below 2^60 bytes, including malformed and truncated ones; all written streams; all pairs of inputs", "why_tests_cant": "Ranges over all inputs, any nesting depth and all pairs of inputs; that no stream closes more blocks than it opens is an invariant of the parser over all its runs.", "anchors": ["llvm-bitstream/examples/dump-bitstream.rs: main", "llvm-bitstream/src/lib.rs: Bitstream::from", "llvm-bitstream/src/lib.rs: Bitstream::advance"]}
{"id": "C62", "title": "A cursor is a tape of bits, over every history of operations", "statement": "Any sequence of cursor operations (reads of all kinds, bit and byte seeks, align32), successful or failing, on any buffer shows exactly what the same sequence shows on a plain list of bits with a position: results, errors, panics, positions, and whether the end is reached. Cursors over the same data at the same position therefore behave alike from then on, however they got there. After a read of more bits than are left, a failed seek_bit, or align32 on data that is not made of 4-byte words the position depends on the history, namely on how far the data has been fetched; a list of bits with a position and the end of what has been fetched shows exactly what the cursor shows there, too.", "quantifier": "all buffers below 2^63 bytes, all finite sequences of operations and arguments, both build profiles", "why_tests_cant": "Ranges over all histories: the code keeps a cached block whose state depends on everything done before.", "anchors": ["llvm-bitcursor/src/lib.rs: BitCursor"]}
{"id": "C63", "title": "The streams that can be read are exactly those of a grammar, and are read as it says", "statement": "There is a grammar of bitstreams, written without reference to the reader, that covers every encoding (superfluous chunks in integers, any padding and recorded block length, unclosed blocks, definitions anywhere). A stream is read to its end without an error if and only if its bits are a word of the grammar, and then gives exactly the entries the grammar assigns. The entries that can be got from any input are those of its prefixes in the grammar, and reading fails exactly where there are bits left but no item of the grammar fits. The grammar is unambiguous.", "quantifier": "all inputs, well-formed or not; all bit strings; both build profiles", "why_tests_cant": "An equivalence over all bit strings: it also says that nothing else is accepted and nothing is read in two ways.", "anchors": ["llvm-bitstream/src/parser.rs: StreamParser::advance", "llvm-bitstream/src/parser.rs: enter_block, exit_block, define_abbrev, parse_unabbrev, parse_with_abbrev", "llvm-bitstream/src/abbrev.rs: Abbrev::new, Abbrev::parse", "llvm-bitcursor/src/lib.rs: read_vbr"]}
{"id": "C64", "title": "Calls do not nest deeper than a fixed limit", "statement": "Reading a stream, unrolling it into blocks and resolving its types need only a bounded number of nested calls (so a bounded stack), whatever the input. As the code is, this is false, and the exact need is: the reader nests one call for each item in a row that shows nothing, unrolling one for each block open at the same time, and type resolution one for each level of the type; the result never depends on the limit as long as it is not reached. 8 bytes, 12 bytes and one table entry for each call are enough to go over any limit.", "quantifier": "all limits, all streams and type tables, both build profiles", "why_tests_cant": "A test can only show that some input fits a given stack; the claim is about every limit, and the exactness about every input.", "anchors": ["llvm-bitstream/src/parser.rs: StreamParser::advance", "llvm-mapper/src/unroll.rs: enter_block", "llvm-mapper/src/block/type_table.rs: PartialType::resolve, PartialTypeTable::get"]}
{"id": "C65", "title": "Mapped types are not larger than the records that declare them", "statement": "The size of the types that a type table maps to (the number of Type values they consist of) is bounded by the size of the table. As the code is, this is false: references are expanded to copies, so a type counts everything it refers to as often as it refers to it. No type is higher than the table is long, and none is larger than the full tree of that height with as many branches as an entry has references; this bound is reached, so n entries of two references each give 2^n - 1 values. With at most one reference in each entry the size is at most the number of entries.", "quantifier": "all type blocks, all numbers of entries and references, both build profiles", "why_tests_cant": "Bounds over all tables of all sizes, and a family of tables for every size.", "anchors": ["llvm-mapper/src/block/type_table.rs: PartialType::resolve, PartialTypeTable::reify", "llvm-support/src/ty.rs: Type"]}
{"id": "C66", "title": "How a stream that cannot be read on fails", "statement": "For every input it is determined, without reference to the reader, after which entries reading fails and with which error or panic: the first thing in the order of the bits that is not as the grammar says decides, and each kind of mistake has its own error (data that ends, is cut off, an unknown abbreviation or encoding, a definition that is not allowed, a value that does not fit, a block that is closed but not open, ...) or panic (a count that cannot be a size, an integer that is too long where overflow is checked). Every stream that can be opened is either read to its end or fails once, never both, and the failure is unique.", "quantifier": "all inputs, wrapped or not; all bit strings; both build profiles", "why_tests_cant": "An equivalence over all bit strings that are not bitstreams, with the exact error for each.", "anchors": ["llvm-bitstream/src/parser.rs: StreamParser::advance", "llvm-bitstream/src/parser.rs: enter_block, exit_block, define_abbrev, parse_unabbrev, parse_with_abbrev", "llvm-bitstream/src/abbrev.rs: Abbrev::new, Abbrev::parse, AbbrevOpEnc", "llvm-bitstream/src/error.rs: Error", "llvm-bitcursor/src/lib.rs: read, read_as, read_vbr, align32"]}
{"id": "C67", "title": "Which fault is reported if several are there", "statement": "For every input it is determined which error or panic mapping it ends in, also if many things are wrong with it: there is a fixed order of checks (the stream is read first, with the order of its top-level blocks; then module by module the string table, the identification, the version, the datalayout, sections, collectors, types, symbols, attribute groups, attribute lists, COMDATs, the triple, assembly, libraries, functions, bodies, aliases and the symbol table, each with its own order of checks), and mapping ends in what the first check finds that finds anything. It succeeds exactly if none does, and the target has no influence.", "quantifier": "all inputs of up to 2^61 bytes, all blocks of each kind, all records; both build profiles", "why_tests_cant": "An equivalence over all inputs with any combination of faults, for every error and every panic.", "anchors": ["llvm-mapper/src/unroll.rs: Bitcode::try_from, UnrolledBitstream", "llvm-mapper/src/block/module.rs: Module::try_map", "llvm-mapper/src/block/{strtab,symtab,identification,attributes,type_table,function/mod}.rs", "llvm-mapper/src/record/{function,alias,comdat,datalayout}.rs", "llvm-mapper/src/map.rs: PartialMapCtx::reify"]}
{"id": "C68", "title": "From bytes to modules, or to the reason why not", "statement": "What mapping, or dumping, gives is a function of the bytes that can be described without the reader: the container (a wrapper or none) is as declared; the bits of the stream follow the grammar of bitstreams down to the point where they end or are wrong; the blocks and records they stand for say the modules. All bytes say one thing, which mapping then returns, or one thing is wrong with them, which it then reports; never both and never neither. Dumping prints the container, the tree of blocks as far as it goes, and ends as the stream does.", "quantifier": "all inputs of up to 2^61 bytes (2^60 for dumps), bare or wrapped at any offset; both build profiles", "why_tests_cant": "An equivalence between a program and a description of its input, over all byte strings.", "anchors": ["llvm-bitstream/src/lib.rs: Bitstream::from, from_wrapped, from_raw, from_cursor", "llvm-bitstream/src/parser.rs: StreamParser::advance", "llvm-mapper/src/unroll.rs: Bitcode::try_from", "llvm-mapper/src/block/module.rs: Module::try_map", "llvm-bitstream/examples/dump-bitstream.rs: main"]}
{"id": "C69", "title": "Contents can be written in any way, and all contents can be written", "statement": "What mapping and dumping give for a file that was written depends on the contents that were written (the tree of blocks and records, without definitions and BLOCKINFO) and on nothing else: mapping gives what the contents say or reports the first thing that is wrong with them, dumping prints them. All contents can be written: for every tree of blocks and records, whatever the ids, codes and fields, there are bytes that map to what it says, or fail for what is wrong with it. Without abbreviations they take at most ten bytes per field and thirty per record or block.", "quantifier": "all item sequences a writer can write, all magic numbers but the wrapper's; all trees of blocks and records without block 0 and with up to 2^30 fields, records and blocks; both build profiles", "why_tests_cant": "Ranges over all contents and over all encodings of each.", "anchors": ["llvm-mapper/src/unroll.rs: Bitcode::try_from, UnrolledBitstream", "llvm-bitstream/src/parser.rs: StreamParser::advance, parse_unabbrev, parse_with_abbrev", "llvm-bitstream/examples/dump-bitstream.rs: main"]}
{"id": "C70", "title": "What mapping can give", "statement": "A mapped file keeps these rules: no text or table in it has just one byte (nor none in a debug build) unless it is the triple that is used when the file names none, no line of assembly has a line feed in it, and the modules before one with a symbol table have one as well. Nothing else restricts it: each list of modules that keeps the rules is the result of mapping some bytes, whatever the strings, tables and epochs.", "quantifier": "all byte strings of up to 2^61 bytes; all values of the result type whose plain file has up to 2^30 fields, records and blocks; both build profiles", "why_tests_cant": "The range of a function: a claim about all inputs in one direction and about all values in the other.", "anchors": ["llvm-mapper/src/unroll.rs: Bitcode::try_from, UnrolledBitstream", "llvm-mapper/src/block/module.rs: Module::try_map", "llvm-mapper/src/block/identification.rs", "llvm-mapper/src/block/strtab.rs", "llvm-mapper/src/block/symtab.rs", "llvm-mapper/src/record.rs"]}
{"id": "C71", "title": "Which tables of types there are", "statement": "The types in a mapped type table keep the rules for types, and the table is closed: with a type, everything it is made of is in the table. Address spaces have 23 bits and no name has just one byte. Nothing else restricts a table: each one that keeps these rules, in any order, with repetitions and with structures next to each other, is the result of mapping some type block.", "quantifier": "all type blocks; all lists of types; both build profiles", "why_tests_cant": "The range of a function: a claim about all inputs in one direction and about all values in the other.", "anchors": ["llvm-mapper/src/block/type_table.rs: TypeTable, PartialTypeTable", "llvm-support/src/ty.rs: Type"]}
{"id": "C72", "title": "What error messages say is true", "statement": "When an alignment, a width, an address space, an alignment spec, a string or blob of a record, a function, alias or COMDAT record, or a record of an attribute group is refused with a message that compares two numbers, the comparison holds; and the numbers in the message are those that were given and the limits that apply. The same holds for the numbers in messages about instructions in function bodies.", "quantifier": "all arguments of the constructors; all records, indices and contexts; both build profiles", "why_tests_cant": "Tests compare a few messages literally; whether a message is true depends on every value that leads to it, above all on the boundary cases.", "anchors": ["llvm-support/src/align.rs: Align::from_shift, from_byte_align, from_bit_align, MaybeAlign, AlignedTypeWidth, AddressSpace, TypeAlignSpec::new, PointerAlignSpec::new and the Display of their errors", "llvm-mapper/src/unroll.rs: Record::try_string, try_blob", "llvm-mapper/src/record/mod.rs: RecordStringError, RecordBlobError", "llvm-mapper/src/record/function.rs, alias.rs, comdat.rs", "llvm-mapper/src/block/attributes.rs: AttributeError, AttributeGroups::try_from", "llvm-mapper/src/block/function/mod.rs: FunctionError, Function::try_from"]}
{"id": "C73", "title": "Which errors a stream can be refused with", "statement": "Opening a stream reports one of seven errors, and each happens: data that ends before or inside a word of the container, a wrapper that declares more than there is or puts the stream behind its end, a stream that is not of whole words, or has no or only part of a magic; for bare streams two of them. Reading an open stream, after any history of calls, reports only: data that ends before or inside something, a number of 0 or of 64 and more bits, a VBR width out of range, an unknown BLOCKINFO code (any but 1, 2, 3), an unknown encoding (0, 6, 7), the five mistakes in definitions, definitions and records in places where they cannot be, an abbreviation that is not defined (any id from 4 to 2^63 - 1), a block whose ids have no bits, and the end of a block that was not opened. Each of these happens. No other error of the crate is ever returned by reading: not the end of the stream, no failed cast, no error about the container.", "quantifier": "all inputs for opening; all streams and all histories of calls, failed ones included, for reading; all errors; both build profiles", "why_tests_cant": "That an error is never returned is a statement about all streams and histories; that every id and every code can be blamed is one about 2^63 and 2^64 values.", "anchors": ["llvm-bitstream/src/error.rs: Error", "llvm-bitstream/src/lib.rs: Bitstream::from, from_raw, from_wrapped, advance, next", "llvm-bitstream/src/parser.rs: StreamParser::advance, Scope::get_abbrev, Scope::extend_abbrevs, Scope::set_blockinfo_block_id", "llvm-bitstream/src/abbrev.rs: Abbrev::new, AbbrevOp::parse"]}
{"id": "C74", "title": "Which errors a file can be refused with, and how else mapping can end", "statement": "Whatever the file, the error that mapping it reports is one of a list that gives, for each error, the values it can hold: those of opening and reading (C73); a file that ends inside a block, a module without identification or two after one, any top-level block but the four of a file, no string table, no module; a table without contents or whose contents are one field or hold something that is no byte; the three of identification; and for modules no or an empty version, too many of four kinds of records and four kinds of blocks, no types, no symbols, texts, and the errors of the datalayout, of types, attributes, COMDATs, functions, aliases and function bodies, with their numbers: a code that is in no table, an alignment of 64 to 254, a reference to any type but the first, a type that can be in a table and breaks a rule, and so on. Each error of the list, as long as what it holds is not over a million of anything, is reported for some file. Mapping fails to return in exactly ten ways: an endless loop, six panics in every build, and three in debug builds only.", "quantifier": "all inputs up to 2^61 bytes; all errors with all values they can hold; both build profiles; all targets", "why_tests_cant": "That an error is never reported, or never with some value, is a statement about all files. That each is reported for each value ranges over all types, texts and 64-bit numbers.", "anchors": ["llvm-mapper/src/error.rs: Error", "llvm-mapper/src/unroll.rs: TryFrom<&[u8]> for Bitcode", "llvm-mapper/src/block/module.rs: ModuleError", "llvm-mapper/src/block/type_table.rs: TypeTableError", "llvm-mapper/src/block/attributes.rs: AttributeError", "llvm-mapper/src/block/function/mod.rs: FunctionError", "llvm-mapper/src/record/comdat.rs: ComdatError", "llvm-mapper/src/record/function.rs: FunctionError", "llvm-mapper/src/record/alias.rs: AliasError", "llvm-mapper/src/record/datalayout.rs: DataLayoutError"]}
{"id": "C75", "title": "What is printed for a mapped file determines the file's contents", "statement": "The example program that maps a file prints exactly the pretty text of the result, one line for each opening, closing and value, indented by four spaces for each level, and prints nothing and ends with the same error or stop if the file does not map. Strings are printed as string literals that stand for them, whatever characters they have, so that no text in a file can look like the structure around it. Two files with the same print-out map to the same modules, down to the last byte of each table.", "quantifier": "all inputs; all mapped files, with any number of modules and any strings; whichever characters count as printable; both build profiles", "why_tests_cant": "That no string with quotes, newlines or escapes can be confused with the structure around it, and that no two results print alike, is about all strings and all pairs of results.", "anchors": ["llvm-mapper/examples/unroll-bitstream.rs: main", "llvm-mapper/src/unroll.rs: Bitcode, BitcodeModule", "llvm-mapper/src/block/identification.rs: Identification", "llvm-mapper/src/block/module.rs: Module", "llvm-mapper/src/block/strtab.rs: Strtab", "llvm-mapper/src/block/symtab.rs: Symtab"]}
{"id": "C76", "title": "A file maps to a result in proportion to its size", "statement": "What a file maps to (all its strings and tables together), the text the example program prints for it, and the types that mapping builds on the way are no larger than a constant times the number of bytes of the file; so a small file cannot use up the memory of who maps it.", "quantifier": "all inputs that map; all numbers of modules and of types; both build profiles; all target platforms", "why_tests_cant": "A bound on the growth is a statement about files of all sizes, and so is its failure: that there is no constant needs a family of files without end, each of which maps.", "anchors": ["llvm-mapper/src/unroll.rs: TryFrom<Bitstream<T>> for Bitcode, PartialBitcodeModule::reify", "llvm-mapper/src/block/type_table.rs: PartialTypeTable::reify", "llvm-bitstream/src/abbrev.rs: Abbrev::parse", "llvm-mapper/examples/unroll-bitstream.rs: main"]}
{"id": "C77", "title": "An error report tells the error", "statement": "If one of the example programs fails, it writes the message of the error and those of its causes, from the outside in, each on its own line or lines, a single cause without and several with numbers from 0; and the report determines the error: two failures with the same report, of whatever files, are the same error with the same values in it (codes, ids, types, quoted texts), so that no distinction the library makes is lost on the way to the user.", "quantifier": "all inputs up to 2^61 bytes; both example programs; all errors; whichever characters count as printable and whatever the standard library says about text that is not UTF-8; both build profiles; all target platforms", "why_tests_cant": "That no two of the errors, with arbitrary numbers, types and texts in them, are reported alike is a statement about all pairs of errors.", "anchors": ["llvm-mapper/examples/unroll-bitstream.rs: main", "llvm-bitstream/examples/dump-bitstream.rs: main", "llvm-bitstream/src/error.rs: Error", "llvm-mapper/src/error.rs: Error", "llvm-mapper/src/block/mod.rs: BlockMapError", "llvm-mapper/src/block/module.rs: ModuleError"]}
{"id": "C78", "title": "Error reports have no control characters", "statement": "Whatever a file contains, the report of the error that mapping it ends with has no control characters but the ends of its lines, so that it can be shown on a terminal or written to a log.", "quantifier": "all inputs up to 2^61 bytes; all errors; all control characters of Unicode; whichever other characters count as printable; both example programs; both build profiles", "why_tests_cant": "Which of the texts in a file reach a message unescaped depends on the path of every error through the code, for all texts.", "anchors": ["llvm-mapper/examples/unroll-bitstream.rs: main", "llvm-mapper/src/record/datalayout.rs: DataLayoutError", "llvm-support/src/align.rs: AlignSpecError", "llvm-mapper/src/block/type_table.rs: TypeTableError"]}
{"id": "C79", "title": "Files put one after the other", "statement": "The contents of two files, put one after the other under one magic number, map to the modules of the first followed by the modules of the second; if the second is refused on its own, then the whole is refused for the same reason. With the second magic number left in place, the whole is refused.", "quantifier": "all pairs of files without a wrapper, together up to 2^61 bytes, the first of which maps; both build profiles", "why_tests_cant": "Whether the state that the first file leaves behind (abbreviations, padding, modules waiting for tables) can be seen by the second depends on both files, for all of their contents.", "anchors": ["llvm-mapper/src/unroll.rs: Bitcode::try_from", "llvm-bitstream/src/parser.rs: StreamParser", "llvm-bitstream/src/lib.rs: Bitstream::from"]}
{"id": "C80", "title": "Files that are cut off", "statement": "If the end of a file is missing, then either mapping it is refused, or the result is the first modules of the whole file, each as it is in the whole file. A file in a wrapper is refused if anything of what the wrapper declares is missing. What can be read of a stream that is cut off are the first entries of the whole stream.", "quantifier": "all files up to 2^61 bytes and all places to cut them; all streams; both build profiles", "why_tests_cant": "There is a cut at every byte of every file, and what a cut makes of padding, abbreviations and open blocks depends on all that is before it.", "anchors": ["llvm-mapper/src/unroll.rs: Bitcode::try_from", "llvm-bitstream/src/lib.rs: Bitstream::from, Bitstream::from_wrapped, Bitstream::advance", "llvm-bitcursor/src/lib.rs: BitCursor::new_with_len"]}
{"id": "C81", "title": "Memory is not reserved in advance beyond what the input has", "statement": "The memory that reading or mapping asks of the allocator in advance, by announced numbers of elements, is in proportion to the input: for a call of next to the bits it consumes, for a file to its size. Reading and mapping end for want of room only if 2^63 bytes or more are asked for at once.", "quantifier": "all files; all streams and all calls of next on them; both build profiles", "why_tests_cant": "The numbers are 64-bit integers that the input chooses freely, in any record of any block, and the bound is over the sum of all requests of a run.", "anchors": ["llvm-bitstream/src/parser.rs: parse_unabbrev", "llvm-bitstream/src/abbrev.rs: AbbrevOp::parse", "llvm-mapper/src/block/type_table.rs: TypeTable::try_from", "llvm-mapper/src/block/function/mod.rs: Function::try_from"]}
{"id": "C82", "title": "Announced lengths and padding", "statement": "The length that is reported for a block is the number of bytes from the start of its contents to its end. What a file maps to does not depend on the lengths that blocks announce, on the bits of padding, or on how a beginning of it is written, as long as the same records in the same blocks are written and the same abbreviations are left in force.", "quantifier": "all streams and all blocks in them, at any depth; all pairs of bare files that begin with different forms of the same records and go on with the same bits, whatever those are; both build profiles", "why_tests_cant": "The lengths and paddings occur at every block of every file, and what follows is arbitrary: the two files have to behave the same even where they are refused or panic.", "anchors": ["llvm-bitstream/src/record.rs: Block::len", "llvm-bitstream/src/parser.rs: StreamParser::enter_block, StreamParser::exit_block", "llvm-bitcursor/src/lib.rs: BitCursor::align32", "llvm-mapper/src/unroll.rs: Bitcode::try_from"]}
{"id": "C83", "title": "The log tells where reading stopped and what was read", "statement": "With debug messages on, the messages of the reader are those of the items of the stream, one after the other, and nothing else: in which scope and at which bit each begins, its abbreviation id, and what it is (a block with its id, width, length and the bit its contents begin at; a definition; a record). If reading fails, the last message that says where an item begins gives the bit at which the bits stop being a stream, all items before it having been read and shown, and no block is said to be entered or left after it. The blocks reported are those entered by the log, in order, apart from BLOCKINFO, which the log shows as well.", "quantifier": "all inputs, wrapped or not, read to the end or failing anywhere; both build profiles", "why_tests_cant": "It is about the sequence of messages for every stream and every place and way to fail; a test sees one sequence.", "anchors": ["llvm-bitstream/src/parser.rs: StreamParser::advance, enter_block, exit_block, define_abbrev, parse_unabbrev, parse_with_abbrev (log::debug!)", "llvm-bitstream/src/abbrev.rs: Abbrev::new (log::debug!)", "llvm-bitcursor/src/lib.rs: BitCursor::tell_bit"]}
{"id": "C84", "title": "The reader keeps no more than a multiple of what it has read", "statement": "What the reader keeps between two calls of next (the abbreviations in force in the open blocks and those registered for block ids, counted in operands) is at most a fixed multiple of what it has read. As the code is, this is false: every block that is entered gets its own copy of what is registered for its id, so blocks in blocks keep up to the square of what has been read, and no more than that.", "quantifier": "all byte strings, all sequences of calls of next, also after errors, both build profiles", "why_tests_cant": "It is a bound for every stream; a test sees what is kept for one stream, and the streams in use stay far below the worst case.", "anchors": ["llvm-bitstream/src/parser.rs: StreamParser, Scope, enter_block, define_abbrev, exit_block", "llvm-bitstream/src/abbrev.rs: Abbrev"]}
{"id": "C85", "title": "Attribute lists are not larger than the records that declare them", "statement": "The attribute lists of a module (the attributes in them and the characters of their strings) are no larger than a constant times the records that declare groups and lists. As the code is, this holds for the groups but is false for the lists: a list gets a copy of each group it refers to, as often as it refers to it. With abbreviations made of literals the lists of a file can be as large as the cube of its length, and they are never larger than that.", "quantifier": "all attribute blocks and all files; all numbers of attributes, references and lists; both build profiles", "why_tests_cant": "It is a bound for every file; the files in use are far from the worst case, and a test that reaches it does not finish.", "anchors": ["llvm-mapper/src/block/attributes.rs: TryFrom for AttributeGroups, TryFrom for Attributes, AttributeEntry", "llvm-mapper/src/block/module.rs: TryFrom for Module"]}
{"id": "C86", "title": "The mapper's log tells what was mapped and where mapping stopped", "statement": "With debug messages on, the messages of the mapper are these and no others, in this order: for each module of the file, up to the first that does not map, which type references are followed and where they lead; the number of each attribute group that a list refers to; the tables of the module; its functions, as its records say; its aliases. Nothing is logged before the whole file is read and its blocks are in order. If a module is refused, the log ends where that happened: for a type, with the references that led to it; for a group that is not there, with its number; for a function, with the tables; for an alias, with the functions. The number of references followed is the number of types in the table, counted with everything inside them, less the entries.", "quantifier": "all files, mapped or refused, with any number of modules, types, lists, functions and aliases; both build profiles", "why_tests_cant": "It is about the sequence of messages for every file and every way to refuse it; the order and the number of messages for types depend on how they are nested, without bound. Functions and aliases of a module can be observed in no other way than by the log.", "anchors": ["llvm-mapper/src/block/type_table.rs: PartialTypeTable::resolve, PartialType::resolve (log::debug!)", "llvm-mapper/src/block/attributes.rs: TryFrom for Attributes (log::debug!)", "llvm-mapper/src/map.rs: PartialMapCtx::reify (log::debug!)", "llvm-mapper/src/block/module.rs: TryFrom for Module (log::debug!)", "llvm-mapper/src/unroll.rs: TryFrom for Bitcode"]}
{"id": "C87", "title": "Reading takes no more steps than the square of the input", "statement": "The steps that reading an input takes, to its end or to the first failure, are bounded by a constant times the square of its length, whatever counts, widths and lengths the input announces: a call of next takes at most twice as many steps as the input has bits, and one, for each bit it consumes and for itself. A step is a read of the bit cursor, an operand of an abbreviation that is interpreted or copied, or an item of the stream. The count leaves nothing out: a call that gives an item takes a step at least for each 64 bits it consumes, one for each operand of the abbreviations in force in a block it enters, and two for each operand of the abbreviation by which it reads a record. The bound is reached: there are inputs of every size that take the square of their length, but for a constant.", "quantifier": "all byte sequences that open as a bitstream, all numbers of calls, all announced counts, widths and lengths; both build profiles", "why_tests_cant": "It is a bound for every input; an input that makes the reader loop for longer than its length explains would have to be guessed, and a test that reaches the bound on a large input does not finish.", "anchors": ["llvm-bitcursor/src/lib.rs: BitCursor::read, BitCursor::read_vbr", "llvm-bitstream/src/abbrev.rs: AbbrevOp::parse, Abbrev::new, Abbrev::parse", "llvm-bitstream/src/parser.rs: StreamParser::enter_block, StreamParser::parse_unabbrev, StreamParser::parse_with_abbrev, StreamParser::advance"]}
{"id": "C88", "title": "An unrolled file holds what was read once", "statement": "The blocks that are kept for the modules of a file while it is mapped hold, counted in fields of records at any depth, no more than was read. As the code is, this holds if no table is shared: if a string table, and a symbol table unless none comes later, comes before the next identification block. In general it is false: every module before a string or symbol table that has none gets a copy of all of its block, also of records that are never looked at. Apart from the tables the modules together hold at most what was read, and the tables at most twice that for each module, so all together at most the cube of the length of the file; and there are files that map and reach the cube.", "quantifier": "all files that unroll, with any number of modules and tables in any order; both build profiles", "why_tests_cant": "It is a bound for every file; files in use have one module or small tables, and a test that reaches the cube does not finish.", "anchors": ["llvm-mapper/src/unroll.rs: TryFrom<Bitstream> for Bitcode (enter_block), PartialBitcodeModule"]}
{"id": "C89", "title": "What was read can be copied, printed and released with no more nested calls than it took to read it", "statement": "Copying, printing and dropping blocks and types calls itself for each block in a block and each type in a type. A file that unrolls with room for so many calls inside each other gives modules whose blocks are nested no deeper than that; so no deeper than blocks are open at the same time, nor than the file has bits. Types that map with room for so many calls are no higher than one more than that. So whoever has read a file can dispose of it; but there is no fixed limit, and the bound is met: 12 bytes for each block give a file that is nested as deep as one likes and takes as many calls to unroll, and types can be as high as one likes.", "quantifier": "all files that unroll, all limits on nested calls, all blocks of types that map; both build profiles", "why_tests_cant": "It is about the depth of any file; a test that goes over the limit ends the process of the test, and one that does not says nothing about deeper files.", "anchors": ["llvm-mapper/src/unroll.rs: Block (derived Debug, Clone and drop), TryFrom<Bitstream> for Bitcode (enter_block)", "llvm-mapper/src/block/type_table.rs: PartialTypeTable::get", "llvm-support/src/ty.rs: Type (derived Debug, Clone and drop)"]}
{"id": "C90", "title": "A table of types that LLVM allows maps", "statement": "The type constructors and the type table accept exactly the types that LLVM allows. As the code is, this is true but for vectors: a vector of opaque pointers, which LLVM allows, is rejected, and a vector without elements, which LLVM rejects, is accepted. Apart from these, what can be obtained is what LLVM allows, at every depth; and a table whose entries all stand for types that LLVM allows maps to them if none is a vector of opaque pointers, and otherwise gives the error that names the opaque pointer as an element of a vector, so one such type makes the whole file unusable.", "quantifier": "all types, of any depth; all type blocks whose records list entries that stand for types, of any number and order; both build profiles", "why_tests_cant": "It compares two sets of types that are closed under nesting; a test has the types its author thought of, and a file with a vector of opaque pointers was not among them.", "anchors": ["llvm-support/src/ty.rs: Type::is_vector_element, VectorType::new, Type::new_vector, Type::new_scalable_vector", "llvm-mapper/src/block/type_table.rs: TypeTable (TryFrom<&Block>)"]}
{"id": "C91", "title": "The cursor's log tells what every operation read", "statement": "With logging on, each operation of a bit cursor logs what the bits and its position say, whatever was done before and whether it succeeds or fails: a read logs its size, the bits that have been fetched and not been read as a number and how many they are, then that they suffice, or the up to 64 bits that it fetches and what is left of them after the read; a VBR read logs each chunk with and without its top bit; a seek to a bit logs where it goes and how far that is from the last multiple of 64. So the messages of an operation, other than a byte seek, which logs nothing, determine its result, value or error. Opening a stream logs that it begins, and then whether the input looks like a wrapper or a raw stream, by its first four bytes, or nothing if there are none.", "quantifier": "all buffers, all sequences of operations of the cursor with any arguments, successful or not; all pairs of cursors reachable in any way; all inputs of Bitstream::from; both build profiles", "why_tests_cant": "The messages show the state of the cursor, which depends on the whole history of operations; that nothing is missing from them is a statement about all pairs of histories.", "anchors": ["llvm-bitcursor/src/lib.rs: BitCursor::read, BitCursor::load_current_block, BitCursor::read_vbr, BitCursor::seek_bit, BitCursor::align32", "llvm-bitstream/src/lib.rs: Bitstream::from"]}
{"id": "C92", "title": "Numbers read as floating point are the numbers that the bits denote", "statement": "read_as::<f32>(n) and read_as::<f64>(n) return the number that the next n bits denote, or fail with BadCast if the type cannot represent it. If they change a number then to the nearest one of the type, and they never change the order of two numbers. They fail and move as read does. read_exact::<f32>() and read_exact::<f64>() read as many bits as the type has.", "quantifier": "all buffers, all reachable cursor states, all widths, all values of 64 bits, both floating point types", "why_tests_cant": "Which values are changed depends on where the first and the last one of their bits are; nearness is a statement about all other floating point numbers.", "anchors": ["llvm-bitcursor/src/lib.rs: BitCursor::read_as, BitCursor::read_exact"]}
{"id": "C93", "title": "A datalayout that LLVM allows parses, and means what it means in LLVM", "statement": "Every list of specs that LLVM's manual allows, written as a datalayout, parses; the alignments of every type and the pointers of every address space are then those that LLVM has: the last ones that are stated, else the default of the manual; and so are endianness, stack alignment, address spaces, function pointer alignment, mangling, native widths and non-integral address spaces.", "quantifier": "all lists of specs of LLVM's manual with all numbers LLVM allows; all types and address spaces looked up in the result", "why_tests_cant": "The layouts of all targets, those to come included, are to be read; what a layout means depends on all specs and on what is not stated.", "anchors": ["llvm-mapper/src/record/datalayout.rs: DataLayout::from_str, DataLayout::default", "llvm-support/src/align.rs: TypeAlignSpecs, PointerAlignSpecs, TypeAlignSpec::from_str, PointerAlignSpec::from_str"]}
{"id": "C94", "title": "A function that LLVM writes maps to that function", "statement": "Whatever function LLVM writes into a module, its record maps, and to that function: the name that was written, the type, attributes, section and garbage collector it refers to, and the same calling convention, linkage, alignment, visibility, unnamed_addr, storage class and kind (declaration or definition).", "quantifier": "all functions LLVM allows (names of any bytes, calling conventions of 10 bits, alignments up to 2^32), all tables of the module, all places of the name in the string table", "why_tests_cant": "A test has some functions; the numbers that LLVM writes for every combination of properties have to be read back as the same properties.", "anchors": ["llvm-mapper/src/record/function.rs: Function::try_map", "llvm-mapper/src/block/strtab.rs: Strtab::read_name", "llvm-support/src/lib.rs: Linkage, Visibility, DllStorageClass, UnnamedAddr, CallingConvention", "llvm-support/src/align.rs: MaybeAlign"]}
{"id": "C95", "title": "Attribute groups that LLVM writes map to those groups", "statement": "Whatever attribute groups LLVM writes into a module, they map, and to those groups: each under its number, for the return value, function or parameter it was written for, and with the attributes that were written, in order: the same attributes, the same strings, the same keys and values.", "quantifier": "all lists of groups with different numbers, all non-empty lists of attributes in them: without and with a value, strings of any bytes, with and without a value, and attributes with a type", "why_tests_cant": "Groups are written one attribute after the other without lengths, so each attribute has to be taken apart from whatever follows it; tests have some sequences.", "anchors": ["llvm-mapper/src/block/attributes.rs: AttributeGroups, Attribute::from_record", "llvm-support/src/attribute.rs: AttributeId, AttributeKind"]}
{"id": "C96", "title": "Aliases and COMDATs that LLVM writes map to those aliases and COMDATs", "statement": "Whatever alias LLVM writes into a module, its record maps, and to that alias: the name, type and aliasee that were written, and the same linkage, visibility, storage class, thread-local mode, unnamed_addr and preemption. Whatever COMDAT LLVM writes maps to a COMDAT with the same name and selection kind.", "quantifier": "all aliases LLVM allows (the linkages aliases can have, all combinations of the other properties, names of any bytes), all COMDATs, all tables of the module, all places of the names in the string table", "why_tests_cant": "A test has some aliases, and one with all properties at their default comes back by accident; that every combination is read back takes a proof, or a proof of which ones are not.", "anchors": ["llvm-mapper/src/record/alias.rs: Alias::try_map", "llvm-mapper/src/record/comdat.rs: Comdat::try_map, SelectionKind", "llvm-support/src/lib.rs: Linkage, Visibility, DllStorageClass, ThreadLocalMode, UnnamedAddr, RuntimePreemption"]}
{"id": "C97", "title": "A module that LLVM writes maps", "statement": "Whatever module LLVM writes into a file, in whatever encoding, the file maps to one module, with the identification and the string table that were written, the module's target triple and its assembly, line by line.", "quantifier": "all modules LLVM allows (triple, datalayout, assembly, sections, garbage collectors, types, attributes, COMDATs, functions, aliases, names of any bytes), all orders of their records, all encodings as a bitstream, with and without a symbol table, both builds", "why_tests_cant": "Tests have a few files. Whether a file maps depends on each of its records and on how they refer to each other, so which modules map cannot be seen from any number of files.", "anchors": ["llvm-mapper/src/unroll.rs: Bitcode::try_from", "llvm-mapper/src/block/module.rs: Module::try_map", "llvm-mapper/src/block/strtab.rs", "llvm-mapper/src/block/identification.rs", "llvm-mapper/src/block/type_table.rs", "llvm-mapper/src/block/attributes.rs"]}
{"id": "C98", "title": "A file with several modules that LLVM writes maps to these modules", "statement": "Whatever modules LLVM writes into one file, with their common string table and symbol table, the file maps to these modules, in order: each with its own identification, triple and assembly, and with the tables of the file.", "quantifier": "all lists of modules LLVM allows, of any length, all producers and epochs, all string tables, with any symbol table or none, all encodings as a bitstream, both builds", "why_tests_cant": "The number of modules is not bounded, and whether a file maps depends on all of them.", "anchors": ["llvm-mapper/src/unroll.rs: Bitcode::try_from, PartialBitcodeModule::reify", "llvm-mapper/src/block/module.rs: Module::try_map", "llvm-mapper/src/block/strtab.rs", "llvm-mapper/src/block/symtab.rs"]}
{"id": "C99", "title": "Reports name the enumeration and the number", "statement": "If just one number in a file's tables or records is wrong because it is none of its enumeration, the error's messages say what is wrong, and the last one names the enumeration and the number, as it was written. For a function, alias or COMDAT record that would map with 0 in the place of its calling convention, visibility, storage class or selection kind; for a table of types, attribute groups or attribute lists that maps without the record with the unknown code; for an attribute of unknown kind or number after attributes that are well-formed; for an instruction with an unknown code, or an unknown operator, after instructions that are read; and for the stream itself, where the numbers reported so are exactly the record codes that BLOCKINFO does not have, and the operand encodings of three bits that do not exist.", "quantifier": "all records, tables, function bodies and contexts; all numbers that are none of the enumeration; all places in the table; both build profiles; whatever the standard library says about text that is not UTF-8", "why_tests_cant": "Which of the many checks finds something first, and that the number is not changed on the way to the report, is a statement about all records, tables and numbers.", "anchors": ["llvm-mapper/src/record/function.rs: FunctionError", "llvm-mapper/src/record/alias.rs: AliasError", "llvm-mapper/src/record/comdat.rs: ComdatError", "llvm-mapper/src/block/type_table.rs: TypeTableError", "llvm-mapper/src/block/attributes.rs: AttributeError", "llvm-mapper/src/block/function/mod.rs: FunctionError", "llvm-support/src/opcode.rs: UnaryOpError, BinaryOpError", "llvm-bitstream/src/error.rs: Error"]}
