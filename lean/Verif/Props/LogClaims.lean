import Verif.Props.Log
import Verif.Props.JoinCases

/-! C83: the claims. -/

set_option linter.unusedSimpArgs false

namespace Verif
open Spec Cursor Parser

variable {gr : Grid} {pf : Profile}

theorem log_none {p : Parser} (hp : PInv p) (hx : p.cursor.exhausted = true) (m : U64) (n : Nat) : Log.calls pf n ⟨m, p⟩ = [] := by
  induction n with
  | zero => rfl
  | succ n ih =>
    have e : Log.next pf ⟨m, p⟩ = [] := by
      rw [log_last (by rw [step_exhausted hx]; intro p' h; cases h)]
      unfold Log.step
      rw [if_pos hx]
    rw [Log.calls, e, next_exhausted hp hx, ih]
    rfl

/-- The log of a stream that is read to the end. -/
theorem at_log {b : Bitstream} {k : Ctx} {outer : List Ctx} (hm : At gr k outer b.parser) {base : Nat}
    (hb : b.parser.cursor.tellBit = base + gr.pos b.parser.cursor) {es : List StreamEntry} (h : Delivers pf b es) :
    ∃ ms lines k' outer', LogsAll pf gr.pad base k outer (gr.pos b.parser.cursor) b.remaining lines ms k' outer' ∧
      es = ms.map Entry.toStream ∧ ∀ n, es.length < n → Log.calls pf n b = lines := by
  obtain ⟨ms, k', outer', hs, rfl⟩ := (at_accepts hm es).1 h
  obtain ⟨lines, hl⟩ := hs.logs base
  refine ⟨ms, lines, k', outer', hl, rfl, fun n hn => ?_⟩
  rw [List.length_map] at hn
  obtain ⟨q, e, ha, hr, -⟩ := log_calls (tail := []) hl hm rfl hb (by rw [remaining_eq, List.append_nil]) b.magic (n - ms.length - 1)
  rw [show ms.length + 1 + (n - ms.length - 1) = n by omega] at e
  rw [show b = ⟨b.magic, b.parser⟩ from rfl, e,
    log_none ha.toMatch.pinv ((exhausted_iff_rest (gr.inv ha.on)).2 hr), List.append_nil]

/-- The log of a stream that fails. -/
theorem at_log_fails {b : Bitstream} {k : Ctx} {outer : List Ctx} (hm : At gr k outer b.parser) {base : Nat}
    (hb : b.parser.cursor.tellBit = base + gr.pos b.parser.cursor) {es : List StreamEntry} {f : Failure}
    (h : ∃ b', Gives pf b es b' ∧ (Bitstream.next pf b').1 = f.asNext) :
    ∃ pre tail ms lines k' outer' more, b.remaining = pre ++ tail ∧
      LogsAll pf gr.pad base k outer (gr.pos b.parser.cursor) pre lines ms k' outer' ∧ es = ms.map Entry.toStream ∧
      NoItem pf gr.pad k' outer' (gr.pos b.parser.cursor + pre.length) tail f ∧
      Log.calls pf (es.length + 1) b = lines ++ .advancing (topScope k') (base + gr.pos b.parser.cursor + pre.length) :: more ∧
      ∀ l ∈ more, (∀ s n, l ≠ .advancing s n) ∧ (∀ id width len n, l ≠ .entered id width len n) ∧ ∀ s, l ≠ .exited s := by
  obtain ⟨pre, tail, ms, k', outer', hr, hs, rfl, hno⟩ := (at_faults hm es f).1 h
  obtain ⟨lines, hl⟩ := hs.logs base
  obtain ⟨q, e, ha, hrq, hp, ht⟩ := log_calls (tail := tail) hl hm rfl hb (by rw [← remaining_eq]; exact hr) b.magic 0
  have hfail : (Parser.step pf q).1.Failing f := (step_fails ha f).2 (.inr (by rw [hrq, hp]; exact hno))
  have hx : q.cursor.exhausted = false := by
    rw [Bool.eq_false_iff, ne_eq, exhausted_iff_rest (gr.inv ha.on), hrq]
    rintro rfl
    rcases noItem_iff.1 hno with ⟨h, -⟩ | ⟨id, i, t, hb, hi, -⟩
    · exact h rfl
    · obtain ⟨h1, -, -, rfl⟩ := idBits_iff.1 hi
      have := congrArg List.length hb
      simp at this
      omega
  obtain ⟨more, e', hmore⟩ := log_step (pf := pf) ha hx
  refine ⟨pre, tail, ms, lines, k', outer', more, hr, hl, rfl, hno, ?_, fun l h => ⟨hmore l h, log_step_fails ha hfail l (by rw [e']; exact .tail _ h)⟩⟩
  rw [List.length_map, show b = ⟨b.magic, b.parser⟩ from rfl]
  rw [Nat.add_zero] at e
  rw [e, Log.calls, log_last (by intro p' h; rw [h] at hfail; exact failing_ok hfail), e', ht]
  simp [Log.calls]

/-! ## Bare streams and streams in a wrapper -/

/-- C83. If a bare stream is read to the end, then the log is what it should be for the items of the stream, one after the other: where
each begins and in which scope, its id, and what it is. The positions are in bits from the start of the data. -/
theorem C83_reads (pf : Profile) {bytes : List U8} {b : Bitstream} (h : Bitstream.fromRaw bytes = .ok b) {es : List StreamEntry}
    (hd : Delivers pf b es) :
    ∃ ms lines k outer, LogsAll pf toWord 0 Ctx.start [] 32 ((bitsOf bytes).drop 32) lines ms k outer ∧ es = ms.map Entry.toStream ∧
      ∀ n, es.length < n → Log.calls pf n b = lines := by
  obtain ⟨ht, hr⟩ := raw_start h
  have := at_log (raw_at pf h) (base := 0) (by rw [Nat.zero_add]; rfl) hd
  rw [raw_pos h, hr] at this
  exact this

/-- C83, continued. If it fails after some entries, then the log is what it should be for the items up to there; then it says in
which scope and at which bit the item begins that cannot be read; after that no other item is begun, and no block is entered or left. -/
theorem C83_fails (pf : Profile) {bytes : List U8} {b : Bitstream} (h : Bitstream.fromRaw bytes = .ok b) {es : List StreamEntry}
    {f : Failure} (hf : ∃ b', iterate pf es.length b = (es.map .item, b') ∧ (Bitstream.next pf b').1 = f.asNext) :
    ∃ pre tail ms lines k outer more, (bitsOf bytes).drop 32 = pre ++ tail ∧
      LogsAll pf toWord 0 Ctx.start [] 32 pre lines ms k outer ∧ es = ms.map Entry.toStream ∧
      NoItem pf toWord k outer (32 + pre.length) tail f ∧
      Log.calls pf (es.length + 1) b = lines ++ .advancing (topScope k) (32 + pre.length) :: more ∧
      ∀ l ∈ more, (∀ s n, l ≠ .advancing s n) ∧ (∀ id width len n, l ≠ .entered id width len n) ∧ ∀ s, l ≠ .exited s := by
  obtain ⟨ht, hr⟩ := raw_start h
  have := at_log_fails (raw_at pf h) (base := 0) (by rw [Nat.zero_add]; rfl)
    (by obtain ⟨b', h1, h2⟩ := hf; exact ⟨b', gives_of_iterate h1, h2⟩ : ∃ b', Gives pf b es b' ∧ _)
  rw [raw_pos h, hr, Nat.zero_add] at this
  exact this

theorem wrapped_tell (pf : Profile) {bytes : List U8} {w : BitcodeWrapper} {b : Bitstream}
    (h : Bitstream.fromWrapped pf bytes = .ok (w, b)) : b.parser.cursor.tellBit = 8 * w.offset.toNat + 32 := by
  rcases fromWrapped_spec pf bytes with ⟨w', -, hs, ho, e⟩ | ⟨w', -, -, e⟩ | ⟨w', -, -, -, e⟩ | ⟨-, e⟩
  · rw [e] at h
    obtain ⟨b', h1, h2⟩ := Out.bind_eq_ok.1 h
    cases h2
    rcases fromCursor_spec (inv_window hs ho) with ⟨-, -, v, c', e, -, -, -, hr, ht, -⟩ | ⟨-, e⟩
    · rw [e] at h1
      cases h1
      rw [show (Bitstream.mk v (Parser.new c')).parser.cursor = c' from rfl, ht]
      simp [windowCursor, Cursor.atByte, Cursor.clearBlockState, Cursor.tellBit]
      omega
    · rw [e] at h1; cases h1
  · rw [e] at h; cases h
  · rw [e] at h; cases h
  · rw [e] at h; cases h

/-- C83, for streams in a wrapper: the positions are in bits from the start of the wrapper. -/
theorem C83_wrapped_reads (pf : Profile) {bytes : List U8} {w : BitcodeWrapper} {b : Bitstream}
    (h : Bitstream.fromWrapped pf bytes = .ok (w, b)) {es : List StreamEntry} (hd : Delivers pf b es) :
    ∃ ms lines k outer, LogsAll pf (toPiece (8 * (wrappedBytes bytes w).length)) (8 * w.offset.toNat) Ctx.start [] 32
        ((bitsOf (wrappedBytes bytes w)).drop 32) lines ms k outer ∧ es = ms.map Entry.toStream ∧
      ∀ n, es.length < n → Log.calls pf n b = lines := by
  obtain ⟨gr, hp, hm, h0, hr⟩ := wrapped_at pf h
  have := at_log hm (base := 8 * w.offset.toNat) (by rw [h0]; exact wrapped_tell pf h) hd
  rw [hp, h0, hr] at this
  exact this

/-- C83, continued: streams in a wrapper that fail. -/
theorem C83_wrapped_fails (pf : Profile) {bytes : List U8} {w : BitcodeWrapper} {b : Bitstream}
    (h : Bitstream.fromWrapped pf bytes = .ok (w, b)) {es : List StreamEntry} {f : Failure}
    (hf : ∃ b', iterate pf es.length b = (es.map .item, b') ∧ (Bitstream.next pf b').1 = f.asNext) :
    let pad := toPiece (8 * (wrappedBytes bytes w).length)
    ∃ pre tail ms lines k outer more, (bitsOf (wrappedBytes bytes w)).drop 32 = pre ++ tail ∧
      LogsAll pf pad (8 * w.offset.toNat) Ctx.start [] 32 pre lines ms k outer ∧ es = ms.map Entry.toStream ∧
      NoItem pf pad k outer (32 + pre.length) tail f ∧
      Log.calls pf (es.length + 1) b = lines ++ .advancing (topScope k) (8 * w.offset.toNat + 32 + pre.length) :: more ∧
      ∀ l ∈ more, (∀ s n, l ≠ .advancing s n) ∧ (∀ id width len n, l ≠ .entered id width len n) ∧ ∀ s, l ≠ .exited s := by
  obtain ⟨gr, hp, hm, h0, hr⟩ := wrapped_at pf h
  have := at_log_fails hm (base := 8 * w.offset.toNat) (by rw [h0]; exact wrapped_tell pf h)
    (by obtain ⟨b', h1, h2⟩ := hf; exact ⟨b', gives_of_iterate h1, h2⟩ : ∃ b', Gives pf b es b' ∧ _)
  rw [hp, h0, hr] at this
  exact this

/-! ## What can be read off the log -/

/-- C83, continued. Where the last item begins that the log speaks of is where reading failed: the bits up to there are a stream that
shows the entries that were given, and there they are wrong in the way that is reported. -/
theorem C83_locates (pf : Profile) {bytes : List U8} {b : Bitstream} (h : Bitstream.fromRaw bytes = .ok b) {es : List StreamEntry}
    {f : Failure} (hf : ∃ b', iterate pf es.length b = (es.map .item, b') ∧ (Bitstream.next pf b').1 = f.asNext) :
    ∃ n ms k outer, ((Log.calls pf (es.length + 1) b).filterMap beginsAt).getLast? = some n ∧ 32 ≤ n ∧
      Stream pf toWord Ctx.start [] 32 (((bitsOf bytes).take n).drop 32) ms k outer ∧ es = ms.map Entry.toStream ∧
      NoItem pf toWord k outer n ((bitsOf bytes).drop n) f := by
  obtain ⟨pre, tail, ms, lines, k, outer, more, hr, hl, he, hno, hlog, hmore⟩ := C83_fails pf h hf
  refine ⟨32 + pre.length, ms, k, outer, ?_, by omega, ?_, he, ?_⟩
  · have hm : more.filterMap beginsAt = [] := by
      rw [List.filterMap_eq_nil_iff]
      intro l hl
      cases l with
      | advancing s n => exact absurd rfl ((hmore _ hl).1 s n)
      | _ => rfl
    rw [hlog, List.filterMap_append, List.filterMap_cons]
    simp only [beginsAt, hm]
    simp
  · rw [List.drop_take, hr, Nat.add_sub_cancel_left, List.take_left']
    · exact hl.stream
    · rfl
  · rw [← List.drop_drop, hr, List.drop_left' rfl]
    exact hno

theorem logs_begun {base : Nat} {k k' : Ctx} {outer outer' : List Ctx} {pos : Nat} {b : List Bool} {ls : List LogLine} {es : List Entry}
    {pad : Nat → Nat} (h : Logs pf pad base k outer pos b ls es k' outer') : ls.filterMap beginsAt = [base + pos] := by
  cases h with
  | unabbrev =>
    rw [List.filterMap_append]
    have : ∀ (k : Ctx) (c : U64) (fs : List U64), (infoLines k c fs).filterMap beginsAt = [] := by
      intro k c fs
      unfold infoLines
      split
      · rfl
      · split
        · cases fs <;> rfl
        · split <;> rfl
    rw [this]
    rfl
  | define => rfl
  | «abbrev» => rfl
  | enter => rfl
  | exit => rfl

theorem logsAll_begun {base : Nat} {k k' : Ctx} {outer outer' : List Ctx} {pos : Nat} {b : List Bool} {ls : List LogLine} {es : List Entry}
    {pad : Nat → Nat} (h : LogsAll pf pad base k outer pos b ls es k' outer') :
    (ls.filterMap beginsAt).Pairwise (· < ·) ∧ ∀ n ∈ ls.filterMap beginsAt, base + pos ≤ n ∧ n < base + pos + b.length := by
  induction h with
  | nil => simp
  | cons h _ ih =>
    rw [List.filterMap_append, logs_begun h]
    have hne := List.length_pos_iff.2 (item_nonempty h.item)
    obtain ⟨h1, h2⟩ := ih
    refine ⟨List.pairwise_cons.2 ⟨fun n hn => ?_, h1⟩, ?_⟩
    · have := h2 n hn
      omega
    · intro n hn
      rw [List.length_append]
      rcases List.mem_cons.1 hn with rfl | hn
      · omega
      · have := h2 n hn
        omega

theorem info_blocks (k : Ctx) (c : U64) (fs : List U64) : (infoLines k c fs).filterMap blockOf = [] := by
  unfold infoLines
  split
  · rfl
  · split
    · cases fs <;> rfl
    · split <;> rfl

theorem logs_blocks {base : Nat} {k k' : Ctx} {outer outer' : List Ctx} {pos : Nat} {b : List Bool} {ls : List LogLine} {es : List Entry}
    {pad : Nat → Nat} (h : LogsAll pf pad base k outer pos b ls es k' outer') :
    ((ls.filterMap blockOf).filter (·.1 ≠ 0)).map (fun x => (x.1, x.2.1)) =
      es.filterMap fun | .start id len => some (id, BitVec.ofNat 64 len) | _ => none := by
  induction h with
  | nil => rfl
  | cons h _ ih =>
    rw [List.filterMap_append, List.filter_append, List.map_append, ih, List.filterMap_append]
    refine congrArg (· ++ _) ?_
    cases h with
    | define => rfl
    | unabbrev =>
      rw [List.filterMap_append]
      rw [info_blocks]
      unfold Spec.visible
      split <;> rfl
    | «abbrev» => unfold Spec.visible; split <;> rfl
    | enter =>
      simp only [List.filterMap_cons, blockOf, List.filterMap_nil]
      split <;> rename_i h0
      · rw [h0]; rfl
      · rw [List.filter_cons_of_pos (by simpa using h0)]; rfl
    | exit => unfold Spec.visible; split <;> rfl

theorem logs_aligned {base : Nat} {k k' : Ctx} {outer outer' : List Ctx} {pos : Nat} {b : List Bool} {ls : List LogLine} {es : List Entry}
    (h : LogsAll pf toWord base k outer pos b ls es k' outer') : ∀ x ∈ ls.filterMap blockOf, ∃ w, x.2.2 = base + 32 * w := by
  induction h with
  | nil => simp
  | @cons k k' k'' outer outer' outer'' pos b bs ls ls' es es' h _ ih =>
    intro x hx
    rw [List.filterMap_append, List.mem_append] at hx
    rcases hx with hx | hx
    · cases h with
      | define => simp [blockOf] at hx
      | unabbrev =>
        rw [List.filterMap_append, info_blocks] at hx
        simp [blockOf] at hx
      | «abbrev» => simp [blockOf] at hx
      | @enter _ _ i b w p id width words hi hb hw h0 hp hl =>
        simp only [List.filterMap_cons, blockOf, List.filterMap_nil, List.mem_singleton] at hx
        subst hx
        have hp : p.length = (32 - (pos + i.length + b.length + w.length) % 32) % 32 := hp
        refine ⟨(pos + i.length + b.length + w.length + p.length + 32) / 32, ?_⟩
        show base + pos + _ + _ + _ + _ + 32 = _
        omega
      | exit => simp [blockOf] at hx
    · exact ih x hx

/-- C83, continued. The blocks that a stream gives are those the log says were entered, in order, with their ids and lengths, but for
BLOCKINFO, which the log shows as well. For each the log says where what is in it begins: at the start of a word. -/
theorem C83_blocks (pf : Profile) {bytes : List U8} {b : Bitstream} (h : Bitstream.fromRaw bytes = .ok b) {es : List StreamEntry}
    (hd : Delivers pf b es) :
    let blocks := (Log.calls pf (es.length + 1) b).filterMap blockOf
    ((blocks.filter (·.1 ≠ 0)).map fun x => (x.1, x.2.1)) = (es.filterMap StreamEntry.asBlock).map (fun s => (s.blockId, s.len)) ∧
    ∀ x ∈ blocks, x.2.2 % 32 = 0 := by
  obtain ⟨ms, lines, k, outer, hl, rfl, hc⟩ := C83_reads pf h hd
  intro blocks
  have hb : blocks = lines.filterMap blockOf := by rw [← hc _ (Nat.lt_succ_self _)]
  rw [hb]
  refine ⟨?_, fun x hx => ?_⟩
  · rw [logs_blocks hl, List.filterMap_map, List.map_filterMap]
    congr 1
    funext e
    cases e <;> rfl
  · obtain ⟨w, hw⟩ := logs_aligned hl x hx
    omega

/-- C83, continued. By the log each item begins after the one before, and within the data. -/
theorem C83_ordered (pf : Profile) {bytes : List U8} {b : Bitstream} (h : Bitstream.fromRaw bytes = .ok b) {es : List StreamEntry}
    (hd : Delivers pf b es ∨ ∃ b' f, iterate pf es.length b = (es.map .item, b') ∧ (Bitstream.next pf b').1 = Failure.asNext f) :
    let bits := (Log.calls pf (es.length + 1) b).filterMap beginsAt
    bits.Pairwise (· < ·) ∧ ∀ n ∈ bits, 32 ≤ n ∧ n < 8 * bytes.length := by
  have hlen : ((bitsOf bytes).drop 32).length = 8 * bytes.length - 32 := by rw [List.length_drop, bitsOf_length]
  intro bits
  rcases hd with hd | ⟨b', f, h1, h2⟩
  · obtain ⟨ms, lines, k, outer, hl, rfl, hc⟩ := C83_reads pf h hd
    have hb : bits = lines.filterMap beginsAt := by rw [← hc _ (Nat.lt_succ_self _)]
    rw [hb]
    obtain ⟨h1, h2⟩ := logsAll_begun hl
    refine ⟨h1, fun n hn => ?_⟩
    have := h2 n hn
    omega
  · obtain ⟨pre, tail, ms, lines, k, outer, more, hr, hl, rfl, hno, hlog, hmore⟩ := C83_fails pf h ⟨b', h1, h2⟩
    have hm : more.filterMap beginsAt = [] := by
      rw [List.filterMap_eq_nil_iff]
      intro l hl
      cases l with
      | advancing s n => exact absurd rfl ((hmore _ hl).1 s n)
      | _ => rfl
    have hb : bits = lines.filterMap beginsAt ++ [32 + pre.length] := by
      show (Log.calls pf _ b).filterMap beginsAt = _
      rw [hlog, List.filterMap_append, List.filterMap_cons]
      simp only [beginsAt, hm]
    have hne : 1 ≤ tail.length := by
      refine List.length_pos_iff.2 ?_
      rintro rfl
      rcases noItem_iff.1 hno with ⟨h, -⟩ | ⟨id, i, t, hb, hi, -⟩
      · exact h rfl
      · obtain ⟨h1, -, -, rfl⟩ := idBits_iff.1 hi
        have := congrArg List.length hb
        simp at this
        omega
    rw [hr, List.length_append] at hlen
    rw [hb]
    obtain ⟨h3, h4⟩ := logsAll_begun hl
    refine ⟨List.pairwise_append.2 ⟨h3, List.pairwise_singleton _ _, fun n hn m hm => ?_⟩, fun n hn => ?_⟩
    · rw [List.mem_singleton] at hm
      have := h4 n hn
      omega
    · rcases List.mem_append.1 hn with hn | hn
      · have := h4 n hn
        omega
      · rw [List.mem_singleton] at hn
        omega

/-! ## Examples -/

/-- The messages of some calls of `next` for a bare stream. -/
def logRaw (pf : Profile) (n : Nat) (bytes : List U8) : List LogLine :=
  match Bitstream.fromRaw bytes with
  | .ok b => Log.calls pf n b
  | _ => []

/-- The stream of which the data ends within a record (`exCut` in Props/Faults): the last item begun is the record, at bit 96. -/
example (pf : Profile) : logRaw pf 2 (Props.exMagic ++ pack 12 exCut) =
    [.advancing .initial 32, .nextEntry 1, .entered 8 3 308 96,
     .advancing (.block 3 8 none []) 96, .nextEntry 3, .unabbrev 7 5] := by
  cases pf <;> decide +kernel

/-- A stream with a BLOCKINFO block, which shows in the log only, and a block in which a record is read by an abbreviation from there. -/
example (pf : Profile) : logRaw pf 4 Props.exInfo =
    let a : Abbrev := { operands := [.literal 1, .vbr 6] }
    [.advancing .initial 32, .nextEntry 1, .entered 0 3 0 96,
     .advancing (.block 3 0 none []) 96, .nextEntry 3, .unabbrev 1 1, .setBid 8,
     .advancing (.block 3 0 (some 8) []) 117, .nextEntry 2, .expecting 2, .newAbbrev a,
     .advancing (.block 3 0 (some 8) []) 143, .nextEntry 3, .unabbrev 2 0, .skipBlockName,
     .advancing (.block 3 0 (some 8) []) 158, .nextEntry 0, .exited .initial,
     .advancing .initial 192, .nextEntry 1, .entered 8 3 0 256,
     .advancing (.block 3 8 none [a]) 256, .nextEntry 4, .parsed [1, 9],
     .advancing (.block 3 8 none [a]) 265, .nextEntry 0, .exited .initial] := by
  cases pf <;> decide +kernel

/-- Its three entries are given, and then there are no more. -/
example (pf : Profile) : ∃ b, Bitstream.fromRaw Props.exInfo = .ok b ∧
    Delivers pf b [.subBlock { blockId := 8, len := 0 }, .record { abbrevId := some 4, code := 1, fields := [9] }, .endBlock] := by
  have key : (match Bitstream.fromRaw Props.exInfo with
      | .ok b => decide ((iterate pf 3 b).1 = [.item (.subBlock { blockId := 8, len := 0 }),
          .item (.record { abbrevId := some 4, code := 1, fields := [9] }), .item .endBlock] ∧
          (Bitstream.next pf (iterate pf 3 b).2).1 = .done)
      | _ => false) = true := by
    cases pf <;> decide +kernel
  cases h : Bitstream.fromRaw Props.exInfo with
  | ok b =>
    rw [h] at key
    obtain ⟨h1, h2⟩ := of_decide_eq_true key
    exact ⟨b, rfl, (delivers_iff_gives (raw_at pf h).toMatch.pinv).2
      ⟨_, _, gives_of_iterate (b' := (iterate pf 3 b).2) (Prod.ext h1 rfl), Prod.ext h2 rfl⟩⟩
  | err _ => rw [h] at key; cases key
  | panic _ => rw [h] at key; cases key
  | diverge => rw [h] at key; cases key

end Verif
