import Verif.Bitstream.Records
import Verif.Cursor.History

/-!
# Properties C14–C19: reading back what was written

The specification is the bitstream writer of `Verif/Bitstream/Writer.lean`, which follows the LLVM document and does not
mention the reader. `Delivers` (`Verif/Bitstream/Deliver.lean`) says what repeated calls of `next` give.
-/

set_option linter.unusedSimpArgs false

namespace Verif.Props
open Verif.Spec Verif.Cursor Verif.Parser

/-! ## C14 -/

/-- C14. Where the bits of a definition stand, `Abbrev::new` returns the operands that were written and consumes exactly
those bits. -/
theorem C14_definition_roundtrip (pf pf' : Profile) {c : Cursor} (h : WordReachable pf' c) (d : Def) (hd : d.Valid)
    {tail : List Bool} (hbits : (bitsOf (c.inner.take c.byteLen)).drop c.tellBit = d.bits ++ tail) :
    ∃ c', Abbrev.new pf c = (.ok d.abbrev, c') ∧ c'.tellBit = c.tellBit + d.bits.length ∧
      (bitsOf (c'.inner.take c'.byteLen)).drop c'.tellBit = tail := by
  obtain ⟨c', e, -, -, hr, ht⟩ := reads_abbrevNew pf d hd c.tellBit c tail h.winv rfl hbits
  exact ⟨c', e, ht, hr⟩

/-- `[literal 7, fixed(3), array of char6]`. -/
def exDef : Def := { scalars := [.lit 7, .enc (.fixed 3)], tail := .array .char6 }

/-- The definition above, 5 bits into a buffer, with something after it. -/
def exDefCursor : Cursor :=
  (Cursor.apply .debug (.read 5) (Cursor.new (pack 8 ([true, false, true, true, false] ++ exDef.bits ++
    List.replicate 40 true)))).2

example : WordReachable .debug exDefCursor ∧ exDef.Valid ∧ exDefCursor.tellBit = 5 ∧
    (bitsOf (exDefCursor.inner.take exDefCursor.byteLen)).drop exDefCursor.tellBit =
      exDef.bits ++ List.replicate 28 true ∧
    (Abbrev.new .debug exDefCursor).1 = .ok { operands := [.literal 7, .fixed 3, .array .char6] } := by
  refine ⟨.step _ (by simp) (.new (by decide)), by decide, by decide, by decide +kernel, by decide +kernel⟩

/-! ## C15 -/

/-- C15, first half. Whatever the input, an accepted abbreviation is well formed (`OpsWF`,
`Verif/Bitstream/EffectSpec.lean`): it has an operand, an array or blob comes last, arrays hold Fixed, VBR or Char6. -/
theorem C15_accepted_wellformed (pf : Profile) (c c' : Cursor) (a : Abbrev) (h : Abbrev.new pf c = (.ok a, c')) :
    OpsWF a.operands := abbrevNew_wf h

/-- C15, second half, as far as it holds: parsing a definition returns, consumes forward and stays within the buffer, and
in release builds never panics. Missing: in debug builds two arithmetic overflows panic, see `C15_debug_panic`. -/
theorem C15_no_panic_partial (pf pf' : Profile) {c : Cursor} (h : Reachable pf' c) :
    (Abbrev.new pf c).1 ≠ .diverge ∧ c.tellBit ≤ (Abbrev.new pf c).2.tellBit ∧
    (Abbrev.new pf c).2.tellBit ≤ c.bitLen ∧ (Abbrev.new pf c).2.bitLen = c.bitLen ∧
    ∀ s, (Abbrev.new pf c).1 = .panic s → pf = .debug ∧ (s = .abbrevArraySub ∨ s = .vbrShift) := by
  have hg := good_abbrevNew' (pf := pf) c h.inv
  have hb := tellBit_le hg.inv
  have hl : (Abbrev.new pf c).2.byteLen = c.byteLen := hg.same.2
  rw [hl] at hb
  refine ⟨hg.nodiv, hg.mono, hb, by simp [bitLen, hl], fun s hs => ?_⟩
  rcases hg.panics s hs with ⟨rfl, h⟩ | ⟨rfl, h⟩
  · exact ⟨h, .inr rfl⟩
  · exact ⟨h, .inl rfl⟩

/-- C15 is false in debug builds: a definition that announces one operand and then gives an array panics; a release build
rejects it. -/
theorem C15_debug_panic :
    ∃ c, Reachable .debug c ∧ (Abbrev.new .debug c).1 = .panic .abbrevArraySub ∧
      (Abbrev.new .release c).1 = .err (.abbrevParse .arrayIndex) :=
  ⟨Cursor.new [0xC1, 0], .new _, by decide, by decide⟩

/-! ## C16 -/

/-- C16. Where the values of a record stand, written with an abbreviation, parsing with that abbreviation returns exactly
those values: literals restored, arrays and blobs in place, in order; and consumes exactly those bits. -/
theorem C16_abbreviated_roundtrip (pf pf' : Profile) {c : Cursor} (h : WordReachable pf' c) (d : Def) (vals : List U64)
    {bits tail : List Bool} (hv : d.valBits c.tellBit vals = some bits)
    (hbits : (bitsOf (c.inner.take c.byteLen)).drop c.tellBit = bits ++ tail) :
    ∃ c', Abbrev.parse pf d.abbrev c = (.ok vals, c') ∧ c'.tellBit = c.tellBit + bits.length ∧
      (bitsOf (c'.inner.take c'.byteLen)).drop c'.tellBit = tail := by
  obtain ⟨c', e, -, -, hr, ht⟩ := reads_abbrevParse pf d vals c.tellBit hv c tail h.winv rfl hbits
  exact ⟨c', e, ht, hr⟩

/-- C16 at the level of iteration: a record written with abbreviation id `a` in any block that has it is delivered by the
next call, with its code and fields. -/
theorem C16_abbreviated_record (pf : Profile) {b : Bitstream} (h : ReachAligned pf b)
    {w id : U64} {bid : Option U64} {l : List Abbrev} {rest : List Scope} (hs : b.parser.scopes = .block w id bid l :: rest)
    (hid : id ≠ 0) (h1 : 1 ≤ w.toNat) (h2 : w.toNat ≤ 63) {a : U64} (ha : 4 ≤ a.toNat) (haw : a.toNat < 2 ^ w.toNat)
    {d : Def} (hd : l[a.toNat - 4]? = some d.abbrev)
    {code : U64} {fields : List U64} {u tail : List Bool}
    (hu : d.valBits (b.pos + w.toNat) (code :: fields) = some u)
    (hr : b.remaining = bitsOfNat w.toNat a.toNat ++ u ++ tail) :
    ∃ b', Bitstream.next pf b = (.item (.record { abbrevId := some a, code := code, fields := fields }), b') ∧
      b'.remaining = tail ∧ b'.pos = b.pos + w.toNat + u.length ∧ b'.parser.scopes = b.parser.scopes ∧
      b'.parser.blockinfo = b.parser.blockinfo ∧ b'.magic = b.magic :=
  next_abbrev pf h.inv.1 h.inv.2 hs hid h1 h2 ha haw hd hu hr

/-- A blob of three bytes after a literal and a VBR. -/
def exBlobDef : Def := { scalars := [.lit 9, .enc (.vbr 6)], tail := .blob }

example : exDef.valBits 0 [7, 5, 0x61, 0x5F] =
      some (bitsOfNat 3 5 ++ encVbr 6 2 ++ bitsOfNat 6 0 ++ bitsOfNat 6 63) ∧
    (exBlobDef.valBits 3 [9, 1000, 1, 2, 255]).isSome ∧
    exDef.valBits 0 [8, 5] = none := by decide +kernel

/-- A cursor three bits into a buffer with such a record. -/
def exBlobCursor : Cursor :=
  (Cursor.apply .debug (.read 3) (Cursor.new (pack 16 ([true, true, true] ++
    (exBlobDef.valBits 3 [9, 1000, 1, 2, 255]).getD [] ++ List.replicate 64 true)))).2

example : WordReachable .debug exBlobCursor ∧ exBlobCursor.tellBit = 3 ∧
    (bitsOf (exBlobCursor.inner.take exBlobCursor.byteLen)).drop exBlobCursor.tellBit =
      (exBlobDef.valBits 3 [9, 1000, 1, 2, 255]).getD [] ++ List.replicate 64 true :=
  ⟨.step _ (by simp) (.new (by decide)), by decide +kernel, by decide +kernel⟩

/-! ## C17 -/

/-- C17. An unabbreviated record in any block (other than BLOCKINFO) is delivered by the next call, with its code and
operands; exactly its bits are consumed, and nothing else changes. -/
theorem C17_unabbreviated_roundtrip (pf : Profile) {b : Bitstream} (h : ReachAligned pf b)
    {w id : U64} {bid : Option U64} {l : List Abbrev} {rest : List Scope} (hs : b.parser.scopes = .block w id bid l :: rest)
    (hid : id ≠ 0) (h1 : 2 ≤ w.toNat) (h2 : w.toNat ≤ 63) {code : U64} {fields : List U64} {u tail : List Bool}
    (hu : unabbrevBits code fields = some u) (hr : b.remaining = bitsOfNat w.toNat 3 ++ u ++ tail) :
    ∃ b', Bitstream.next pf b = (.item (.record { abbrevId := none, code := code, fields := fields }), b') ∧
      b'.remaining = tail ∧ b'.pos = b.pos + w.toNat + u.length ∧ b'.parser.scopes = b.parser.scopes ∧
      b'.parser.blockinfo = b.parser.blockinfo ∧ b'.magic = b.magic :=
  next_unabbrev pf h.inv.1 h.inv.2 hs hid h1 h2 hu hr

/-! ## C18 -/

/-- C18. The bytes of any stream that can be written open, report the stream's magic, and iterate to exactly the entries
that were written — block starts with id and length, records with abbreviation id, code and fields, block ends — and then
to the end of iteration. -/
theorem C18_stream_roundtrip (pf : Profile) {magic : U32} {its : Items} {bytes : List U8} {es : List Entry}
    (h : streamBytes magic its = some (bytes, es)) :
    ∃ b, Bitstream.fromRaw bytes = .ok b ∧ b.magic = magic.setWidth 64 ∧ Delivers pf b (es.map Entry.toStream) :=
  delivers_written pf h

/-- C18, continued. The entries are those the stream means: `Items.events` does not depend on how it was encoded. -/
theorem C18_entries_meaning {magic : U32} {its : Items} {bytes : List U8} {es : List Entry}
    (h : streamBytes magic its = some (bytes, es)) : es.map Entry.event = its.events false := by
  obtain ⟨w, hw, rfl, -⟩ := open_written h
  have := write_events hw
  simpa [Ctx.start] using this

/-- C18, continued: the same through `Bitstream::from`, for streams whose magic is not that of a wrapper. -/
theorem C18_stream_roundtrip_from (pf : Profile) {magic : U32} {its : Items} {bytes : List U8} {es : List Entry}
    (h : streamBytes magic its = some (bytes, es)) (hm : magic ≠ 0x0B17C0DE) :
    ∃ b, Bitstream.from pf bytes = .ok (none, b) ∧ b.magic = magic.setWidth 64 ∧
      Delivers pf b (es.map Entry.toStream) := by
  obtain ⟨b, hb, hmag, hd⟩ := delivers_written pf h
  refine ⟨b, ?_, hmag, hd⟩
  obtain ⟨w, hw, rfl, h4, hbits, c, hread, -⟩ := open_written h
  unfold Bitstream.from
  rw [show cur (Cursor.readExact .u32) (Cursor.new bytes) = (.ok (magic.setWidth 64), c) by
    simp [cur, StM.mapErr, hread]]
  simp only [Out.ok_bind]
  rw [if_neg, hb]
  · rfl
  · intro hc
    apply hm
    have h1 := congrArg BitVec.toNat hc
    rw [BitVec.toNat_setWidth] at h1
    have := magic.isLt
    refine BitVec.eq_of_toNat_eq ?_
    rw [Nat.mod_eq_of_lt (by omega)] at h1
    exact h1

/-- C18, for prefixes: what was written is delivered first whatever follows it, be it garbage. -/
theorem C18_prefix_roundtrip (pf : Profile) {magic : U32} {its : Items} {bytes junk : List U8} {es : List Entry}
    (h : streamBytes magic its = some (bytes, es)) (h4 : junk.length % 4 = 0) :
    ∃ b, Bitstream.fromRaw (bytes ++ junk) = .ok b ∧ b.magic = magic.setWidth 64 ∧
      (iterate pf es.length b).1 = es.map (fun e => .item e.toStream) :=
  prefix_delivered pf h h4

/-- A stream with a BLOCKINFO block that registers an abbreviation for block 8, then block 8 with an unabbreviated
record, a record using the registered abbreviation, a definition of its own and a record using that, and a nested block
with another id width. -/
def exItems : Items :=
  .block 0 3 (.unabbrev 1 [8] (.define { scalars := [.lit 2], tail := .array (.vbr 6) } .nil)) <|
  .block 8 3 (
    .unabbrev 1 [2] <|
    .abbrev 4 2 [100, 200] <|
    .define { scalars := [.enc (.fixed 4), .enc .char6], tail := .blob } <|
    .abbrev 5 11 [0x7A, 1, 2, 3] <|
    .block 17 5 (.unabbrev 3 [] .nil) .nil) <|
  .nil

/-- The same contents, all unabbreviated and with other widths. -/
def exItems' : Items :=
  .block 8 4 (
    .unabbrev 1 [2] <|
    .unabbrev 2 [100, 200] <|
    .unabbrev 11 [0x7A, 1, 2, 3] <|
    .block 17 2 (.unabbrev 3 [] .nil) .nil) <|
  .nil

example : ((streamBytes 0xdec04342 exItems).map Prod.snd) = some
    [.start 8 36, .record none 1 [2], .record (some 4) 2 [100, 200], .record (some 5) 11 [0x7A, 1, 2, 3],
      .start 17 4, .record none 3 [], .finish, .finish] := by decide +kernel

/-! ## C19 -/

/-- C19. Two streams with the same meaning, however encoded, deliver the same block ids, codes and fields in the same
order. -/
theorem C19_encoding_irrelevant (pf : Profile) {magic magic' : U32} {its its' : Items} {bytes bytes' : List U8}
    {es es' : List Entry} (h : streamBytes magic its = some (bytes, es)) (h' : streamBytes magic' its' = some (bytes', es'))
    (heq : its.events false = its'.events false) :
    ∃ b b' out out', Bitstream.fromRaw bytes = .ok b ∧ Bitstream.fromRaw bytes' = .ok b' ∧
      Delivers pf b out ∧ Delivers pf b' out' ∧ out.map erase = out'.map erase := by
  obtain ⟨b, hb, -, hd⟩ := C18_stream_roundtrip pf h
  obtain ⟨b', hb', -, hd'⟩ := C18_stream_roundtrip pf h'
  refine ⟨b, b', _, _, hb, hb', hd, hd', ?_⟩
  have key : ∀ l : List Entry, (l.map Entry.toStream).map erase = l.map Entry.event := by
    intro l
    rw [List.map_map]
    refine List.map_congr_left fun e _ => ?_
    cases e <;> rfl
  rw [key, key, C18_entries_meaning h, C18_entries_meaning h', heq]

example : exItems.events false = exItems'.events false ∧ exItems ≠ exItems' ∧
    (streamBytes 0xdec04342 exItems).isSome ∧ (streamBytes 0xdec04342 exItems').isSome ∧
    exItems.events false = [.start 8, .record 1 [2], .record 2 [100, 200], .record 11 [0x7A, 1, 2, 3], .start 17,
      .record 3 [], .finish, .finish] := by decide +kernel

end Verif.Props
