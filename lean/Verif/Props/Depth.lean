import Verif.Mapper.DepthSpec
import Verif.Mapper.Within
import Verif.Props.Grammar
import Verif.Props.TypeSizes
import Verif.Props.Content

/-! C64: how deep calls go. -/

namespace Verif
open Spec Cursor Parser Props

/-! ## Rounds that show nothing -/

theorem advanceFuel_zero (pf : Profile) (p : Parser) : (advanceFuel pf 0 p).1 = .diverge := rfl

theorem advanceFuel_succ (pf : Profile) (n : Nat) (p : Parser) :
    (advanceFuel pf (n + 1) p).1 = .diverge ↔
      ((∃ q, Parser.step pf p = (.ok none, q) ∧ (advanceFuel pf n q).1 = .diverge) ∨ (Parser.step pf p).1 = .diverge) := by
  rw [advanceFuel]
  simp only [StM.bind_apply]
  match hs : Parser.step pf p with
  | (.ok (some e), q) => simp [StM.pure_apply]
  | (.ok none, q) => simp
  | (.err e, q) => simp
  | (.panic s, q) => simp
  | (.diverge, q) => simp

/-- A recursion needs more than `n` calls exactly if `n` items in a row show nothing. -/
theorem advance_silent {gr : Grid} {pf : Profile} {k : Ctx} {outer : List Ctx} {p : Parser} (hm : At gr k outer p) (n : Nat) :
    (advanceFuel pf n p).1 = .diverge ↔
      ∃ b tail k' outer', p.cursor.rest = b ++ tail ∧ Silent pf gr.pad k outer (gr.pos p.cursor) b n k' outer' := by
  induction n generalizing k outer p with
  | zero =>
    constructor
    · intro _; exact ⟨[], p.cursor.rest, k, outer, rfl, .nil⟩
    · intro _; rfl
  | succ n ih =>
    rw [advanceFuel_succ]
    constructor
    · rintro (⟨q, hs, hd⟩ | hd)
      · obtain ⟨b, es, k', outer', hi, hr, ha⟩ := step_sound hm hs
        have : es = [] := by
          cases es with
          | nil => rfl
          | cons e es => cases hr
        subst this
        obtain ⟨b', tail, k'', outer'', hr', hsil⟩ := (ih ha.at_).1 hd
        rw [ha.tell] at hsil
        exact ⟨b ++ b', tail, k'', outer'', by rw [ha.rest, hr', List.append_assoc], .cons hi hsil⟩
      · exact absurd hd (pgood_step (pf := pf) p hm.toMatch.pinv).nodiv
    · rintro ⟨b, tail, k', outer', hr, hsil⟩
      cases hsil with
      | cons hi hsil =>
        rw [List.append_assoc] at hr
        obtain ⟨q, hs, ha, hr'⟩ := step_complete hm hi hr
        refine .inl ⟨q, hs, (ih ha.at_).2 ⟨_, tail, k', outer', hr', ?_⟩⟩
        rw [ha.tell]; exact hsil

theorem at_advance {gr : Grid} {pf : Profile} {k₀ : Ctx} {outer₀ : List Ctx} {b b' : Bitstream} (hm : At gr k₀ outer₀ b.parser)
    {es : List StreamEntry} (hit : iterate pf es.length b = (es.map .item, b')) :
    ∃ pre ms k outer, b.remaining = pre ++ b'.remaining ∧ Stream pf gr.pad k₀ outer₀ (gr.pos b.parser.cursor) pre ms k outer ∧
      es = ms.map Entry.toStream ∧ gr.pos b'.parser.cursor = gr.pos b.parser.cursor + pre.length ∧
      ∀ n, (advanceFuel pf n b'.parser).1 = .diverge ↔ ∃ sil tail k' outer', b'.remaining = sil ++ tail ∧
        Silent pf gr.pad k outer (gr.pos b.parser.cursor + pre.length) sil n k' outer' := by
  obtain ⟨hst, -⟩ := (gives_of_iterate hit).steps hm.toMatch.pinv
  obtain ⟨pre, ms, k, outer, hs, he, ha⟩ := hst.sound hm
  refine ⟨pre, ms, k, outer, ?_, hs, he, ha.tell, fun n => ?_⟩
  · rw [remaining_eq, remaining_eq]; exact ha.rest
  · rw [remaining_eq, ← ha.tell]; exact advance_silent ha.at_ n

/-- C64, the reader. Whatever has been read of a stream, the next call of `next` calls `advance` more than `n` times inside itself
exactly if `n` items in a row follow that show nothing. -/
theorem C64_advance_exact (pf : Profile) {bytes : List U8} {b b' : Bitstream} (h : Bitstream.fromRaw bytes = .ok b)
    {es : List StreamEntry} (hit : iterate pf es.length b = (es.map .item, b')) :
    ∃ pre ms k outer, (bitsOf bytes).drop 32 = pre ++ b'.remaining ∧ Stream pf toWord Ctx.start [] 32 pre ms k outer ∧
      es = ms.map Entry.toStream ∧ b'.pos = 32 + pre.length ∧
      ∀ n, (advanceFuel pf n b'.parser).1 = .diverge ↔
        ∃ sil tail k' outer', b'.remaining = sil ++ tail ∧ Silent pf toWord k outer b'.pos sil n k' outer' := by
  obtain ⟨pre, ms, k, outer, hr, hs, he, ht, ha⟩ := at_advance (raw_at pf h) hit
  rw [raw_pos h] at hs ht ha
  rw [(raw_start h).2] at hr
  have ht : b'.pos = 32 + pre.length := ht
  refine ⟨pre, ms, k, outer, hr, hs, he, ht, ?_⟩
  rw [ht]
  exact ha

/-- C64, the reader, for streams in a wrapper. -/
theorem C64_advance_wrapped (pf : Profile) {bytes : List U8} {w : BitcodeWrapper} {b b' : Bitstream}
    (h : Bitstream.fromWrapped pf bytes = .ok (w, b)) {es : List StreamEntry}
    (hit : iterate pf es.length b = (es.map .item, b')) :
    let pad := toPiece (8 * (wrappedBytes bytes w).length)
    ∃ pre ms k outer, (bitsOf (wrappedBytes bytes w)).drop 32 = pre ++ b'.remaining ∧
      Stream pf pad Ctx.start [] 32 pre ms k outer ∧ es = ms.map Entry.toStream ∧
      ∀ n, (advanceFuel pf n b'.parser).1 = .diverge ↔
        ∃ sil tail k' outer', b'.remaining = sil ++ tail ∧ Silent pf pad k outer (32 + pre.length) sil n k' outer' := by
  obtain ⟨gr, hp, hm, h0, hr'⟩ := wrapped_at pf h
  obtain ⟨pre, ms, k, outer, hr, hs, he, -, ha⟩ := at_advance hm hit
  rw [h0, hp] at hs ha
  rw [hr'] at hr
  exact ⟨pre, ms, k, outer, hr, hs, he, ha⟩

/-- C64, the reader. There are never more calls than bits left, and one. -/
theorem C64_advance_partial (pf : Profile) {b : Bitstream} (h : Reach pf b) :
    advanceFuel pf (b.remaining.length + 1) b.parser = advance pf b.parser := by
  have hp := h.pinv
  rw [remaining_eq]
  refine advanceFuel_stable _ _ hp (by omega) ?_
  rw [rest_length hp.cur]; simp only [bitLen]; omega

/-! ### Streams of blocks in blocks -/

/-- The start of a block with the given id, an abbreviation width of 2 and the length 0, where the width is 2 and the position a
multiple of 32. -/
def startBits (id : Nat) : List Bool :=
  bitsOfNat 2 1 ++ (rawVbr 8 [id] ++ (rawVbr 4 [2] ++ (List.replicate 18 false ++ bitsOfNat 32 0)))

theorem startBits_length (id : Nat) : (startBits id).length = 64 := by
  simp [startBits, rawVbr]

theorem start_item (pf : Profile) {k : Ctx} (hw : k.width = 2) (outer : List Ctx) {pos : Nat} (hp : pos % 32 = 0) {id : Nat}
    (hid : id < 128) : Item pf toWord k outer pos (startBits id)
      (if BitVec.ofNat 64 id = 0 then [] else [.start (BitVec.ofNat 64 id) 0]) (k.enter (BitVec.ofNat 64 id) 2) (k :: outer) := by
  refine .enter (words := 0) (idBits_iff.2 ⟨by rw [hw]; decide, by rw [hw]; decide, by rw [hw]; decide, by rw [hw]; rfl⟩)
    ⟨[id], by simp, by simpa using hid, rfl, ?_⟩ ⟨[2], by simp, by simp, rfl, ?_⟩ (by decide) ?_ (by omega)
  · rw [if_pos (by simp)]; simp [chunksValue]
  · rw [if_pos (by decide)]; rfl
  · simp only [IsPad, toWord, rawVbr, bitsOfNat_length, List.length_replicate]; omega

/-- The end of a block of width 2. -/
def endBits : List Bool := bitsOfNat 2 0 ++ List.replicate 30 false

theorem end_item (pf : Profile) {k o : Ctx} (hw : k.width = 2) (outer : List Ctx) {pos : Nat} (hp : pos % 32 = 0) :
    Item pf toWord k (o :: outer) pos endBits (Spec.visible k .finish) { o with info := k.info } outer := by
  refine .exit (idBits_iff.2 ⟨by rw [hw]; decide, by rw [hw]; decide, by rw [hw]; decide, by rw [hw]; rfl⟩) ?_
  simp only [IsPad, toWord, bitsOfNat_length, List.length_replicate]; omega

theorem Spec.Silent.stream {pf : Profile} {pad : Nat → Nat} {k k' : Ctx} {outer outer' : List Ctx} {pos n : Nat} {b : List Bool}
    (h : Silent pf pad k outer pos b n k' outer') : Stream pf pad k outer pos b [] k' outer' := by
  induction h with
  | nil => exact .nil
  | cons hi _ ih => exact .cons (es := []) hi ih

/-- BLOCKINFO in BLOCKINFO in BLOCKINFO. -/
theorem silent_starts (pf : Profile) (n : Nat) : ∀ {k : Ctx} (outer : List Ctx) {pos : Nat}, k.width = 2 → pos % 32 = 0 →
    ∃ k' outer', Silent pf toWord k outer pos (List.replicate n (startBits 0)).flatten n k' outer' := by
  induction n with
  | zero => intro k outer pos _ _; exact ⟨k, outer, .nil⟩
  | succ n ih =>
    intro k outer pos hw hp
    have hi := start_item pf hw outer hp (id := 0) (by omega)
    rw [if_pos (by decide)] at hi
    obtain ⟨k', outer', hs⟩ := ih (k := k.enter 0#64 2) (k :: outer) (pos := pos + (startBits 0).length) rfl
      (by rw [startBits_length]; omega)
    exact ⟨k', outer', .cons hi hs⟩

/-- Any bits that fill words are those of a bare stream. -/
theorem open_bits {bits : List Bool} {m : Nat} (h : bits.length = 32 * m) :
    ∃ b, Bitstream.fromRaw (exMagic ++ pack (4 * m) bits) = .ok b ∧ (bitsOf (exMagic ++ pack (4 * m) bits)).drop 32 = bits := by
  have hb : bitsOf (exMagic ++ pack (4 * m) bits) = bitsOf exMagic ++ bits := by
    rw [bitsOf_append, bitsOf_pack (by omega)]
  have h32 : (bitsOf exMagic).length = 32 := by rw [bitsOf_length]; rfl
  have hl : (exMagic ++ pack (4 * m) bits).length = 4 + 4 * m := by
    rw [List.length_append, pack_length]; rfl
  have hd : (bitsOf (exMagic ++ pack (4 * m) bits)).drop 32 = bits := by rw [hb, List.drop_left' h32]
  rcases fromCursor_spec (inv_new (exMagic ++ pack (4 * m) bits)) with ⟨-, -, v, c', e, -⟩ | ⟨hn, e⟩
  · exact ⟨_, e, hd⟩
  · exfalso
    rcases hn with hn | hn
    · have : (Cursor.new (exMagic ++ pack (4 * m) bits)).byteLen = (exMagic ++ pack (4 * m) bits).length := rfl
      omega
    · rw [rest_new, bitsOf_length, hl] at hn
      omega

/-- C64 fails for the reader: with any limit on the calls of `advance` there is a stream, of 8 bytes for each call, that goes over it,
although it is one that can be read to its end. -/
theorem C64_advance_unbounded (pf : Profile) (n : Nat) : ∃ bytes b, bytes.length = 4 + 8 * n ∧
    Bitstream.fromRaw bytes = .ok b ∧ Delivers pf b [] ∧ (advanceFuel pf n b.parser).1 = .diverge := by
  have hl : (List.replicate n (startBits 0)).flatten.length = 32 * (2 * n) := by
    rw [List.length_flatten, List.map_replicate, startBits_length, List.sum_replicate_nat]; omega
  obtain ⟨b, e, hbits⟩ := open_bits hl
  obtain ⟨k, outer, hs⟩ := silent_starts pf n (k := Ctx.start) [] (pos := 32) rfl rfl
  obtain ⟨-, hr⟩ := raw_start e
  refine ⟨_, b, ?_, e, ?_, ?_⟩
  · rw [List.length_append, pack_length]
    show 4 + _ = _
    omega
  · exact (C63_accepts pf e _).2 ⟨[], k, outer, by rw [hbits]; exact hs.stream, rfl⟩
  · refine (advance_silent (raw_at pf e) n).2 ⟨(List.replicate n (startBits 0)).flatten, [], k, outer, ?_, ?_⟩
    · rw [← remaining_eq, hr, hbits, List.append_nil]
    · rw [raw_pos e]; exact hs

/-! ## Unrolling -/

theorem enterWithin_sound {pf : Profile} (n : Nat) : ∀ {d : Nat} {acc : UBlock} {b : Bitstream} {x : Out UErr UBlock × Bitstream},
    enterWithin pf d n acc b = some x → enterLoop pf n acc b = x := by
  induction n with
  | zero => intro d acc b x h; cases h; rfl
  | succ n ih =>
    intro d acc b x h
    rw [enterWithin] at h
    rw [enterLoop]; dsimp only
    split at h
    · next e => rw [e]; exact Option.some.inj h
    · next e => rw [e]; exact Option.some.inj h
    · next e => rw [e]; exact Option.some.inj h
    · next e => rw [e]; exact Option.some.inj h
    · next e => rw [e]; exact ih h
    · next e =>
      rw [e]
      cases d with
      | zero => cases h
      | succ d =>
        dsimp only at h ⊢
        split at h
        · next e' => rw [ih e']; exact ih h
        · next e' => rw [ih e']; exact Option.some.inj h
        · next e' => rw [ih e']; exact Option.some.inj h
        · next e' => rw [ih e']; exact Option.some.inj h
        · cases h
    · next e => rw [e]; exact Option.some.inj h

theorem unrollLoopWithin_sound {pf : Profile} {d : Nat} (n : Nat) : ∀ {ps : List PartialModule} {b : Bitstream}
    {x : Out UErr (List PartialModule)}, unrollLoopWithin pf d n ps b = some x → (unrollLoop pf n ps b).1 = x := by
  induction n with
  | zero => intro ps b x h; cases h; rfl
  | succ n ih =>
    intro ps b x h
    rw [unrollLoopWithin] at h
    rw [unrollLoop]; dsimp only
    split at h
    · next e => rw [e]; exact Option.some.inj h
    · next e => rw [e]; exact Option.some.inj h
    · next e => rw [e]; exact Option.some.inj h
    · next e => rw [e]; exact Option.some.inj h
    · next e =>
      rw [e]; dsimp only
      split at h
      · next ea => rw [ea]; exact Option.some.inj h
      · next s ea =>
        rw [ea]; dsimp only [enterUBlock]
        cases d with
        | zero => cases h
        | succ d =>
          dsimp only at h
          split at h
          · next e' =>
            rw [enterWithin_sound n e']; dsimp only
            split at h
            · next e'' => rw [e'']; exact ih h
            · next e'' => rw [e'']; exact Option.some.inj h
            · next e'' => rw [e'']; exact Option.some.inj h
            · next e'' => rw [e'']; exact Option.some.inj h
          · next e' => rw [enterWithin_sound n e']; exact Option.some.inj h
          · next e' => rw [enterWithin_sound n e']; exact Option.some.inj h
          · next e' => rw [enterWithin_sound n e']; exact Option.some.inj h
          · cases h

/-- How deep blocks lie in the contents of a block. -/
def Spec.Forest.depth : Forest → Nat
  | .nil => 0
  | .record _ rest => rest.depth
  | .block _ body rest => max (1 + body.depth) rest.depth

def openDepth : List (BBlock × Forest) → Nat
  | [] => 0
  | (_, t) :: P => 1 + max t.depth (openDepth P)

theorem enterWithin_forest {pf : Profile} (t : Forest) : ∀ {b b₁ : Bitstream} {d n : Nat} {acc : UBlock},
    Gives pf b t.entries b₁ → t.entries.length ≤ n →
    enterWithin pf d n acc b = if t.depth ≤ d then enterWithin pf d (n - t.width) (t.addTo acc) b₁ else none := by
  induction t with
  | nil =>
    intro b b₁ d n acc h hn
    cases h
    rw [show Forest.nil.depth = 0 from rfl, if_pos (Nat.zero_le _)]; rfl
  | record r rest ih =>
    intro b b₁ d n acc h hn
    obtain ⟨b', h1, h2⟩ := h.cons_inv
    simp only [Forest.entries, List.length_cons] at hn
    obtain ⟨m, rfl⟩ : ∃ m, n = m + 1 := ⟨n - 1, by omega⟩
    rw [enterWithin]; rw [h1]
    simp only
    rw [ih h2 (by omega), Forest.width, Forest.addTo, show m + 1 - (rest.width + 1) = m - rest.width by omega]
    rfl
  | block s body rest ihb ihr =>
    intro b b₁ d n acc h hn
    obtain ⟨b', h1, h2⟩ := h.cons_inv
    obtain ⟨b'', h3, h4⟩ := h2.append_inv
    obtain ⟨b₃, h5, h6⟩ := h4.cons_inv
    simp only [Forest.entries, List.length_cons, List.length_append] at hn
    obtain ⟨m, rfl⟩ : ∃ m, n = m + 1 := ⟨n - 1, by omega⟩
    have hw := width_le body
    rw [enterWithin]; rw [h1]
    simp only
    have hdep : (Forest.block s body rest).depth = max (1 + body.depth) rest.depth := rfl
    cases d with
    | zero => rw [if_neg (by omega)]
    | succ d =>
      simp only
      by_cases hb : body.depth ≤ d
      · have hin : enterWithin pf d m (UBlock.new s.blockId) b' = some (.ok (body.addTo (UBlock.new s.blockId)), b₃) := by
          rw [ihb h3 (by omega), if_pos hb]
          obtain ⟨j, hj⟩ : ∃ j, m - body.width = j + 1 := ⟨m - body.width - 1, by omega⟩
          rw [hj, enterWithin]; rw [h5]
        rw [hin]
        simp only
        rw [ihr h6 (by omega), Forest.width, Forest.addTo, show m + 1 - (rest.width + 1) = m - rest.width by omega]
        by_cases hr : rest.depth ≤ d + 1
        · rw [if_pos hr, if_pos (by omega)]
        · rw [if_neg hr, if_neg (by omega)]
      · rw [ihb h3 (by omega), if_neg hb, if_neg (by omega)]

theorem enterWithin_stop {pf : Profile} {b b₂ : Bitstream} {r : Bitstream.Next} (h : Bitstream.next pf b = (r, b₂))
    (hr : ∀ e, r ≠ .item e) {n : Nat} (hn : 0 < n) (d : Nat) (acc : UBlock) :
    enterWithin pf d n acc b = some (stopOut r, b₂) := by
  obtain ⟨m, rfl⟩ : ∃ m, n = m + 1 := ⟨n - 1, by omega⟩
  rw [enterWithin]; rw [h]
  cases r with
  | item e => exact absurd rfl (hr e)
  | _ => rfl

theorem enterWithin_open {pf : Profile} (P : List (BBlock × Forest)) : ∀ {t : Forest} {b b₁ b₂ : Bitstream}
    {r : Bitstream.Next} {d n : Nat} {acc : UBlock}, Gives pf b (t.entries ++ openEntries P) b₁ →
    Bitstream.next pf b₁ = (r, b₂) → (∀ e, r ≠ .item e) → (t.entries ++ openEntries P).length < n →
    enterWithin pf d n acc b = if max t.depth (openDepth P) ≤ d then some (stopOut r, b₂) else none := by
  induction P with
  | nil =>
    intro t b b₁ b₂ r d n acc h hr hne hn
    simp only [openEntries, List.flatMap_nil, List.append_nil] at h hn
    have hw := width_le t
    rw [enterWithin_forest t h (by omega), enterWithin_stop hr hne (by omega), openDepth, Nat.max_zero]
  | cons c P ih =>
    intro t b b₁ b₂ r d n acc h hr hne hn
    obtain ⟨s, t'⟩ := c
    have hw := width_le t
    rw [show openEntries ((s, t') :: P) = .subBlock s :: (t'.entries ++ openEntries P) by simp [openEntries]] at h hn
    simp only [List.length_append, List.length_cons] at hn
    obtain ⟨b', h1, h2⟩ := h.append_inv
    obtain ⟨b'', h3, h4⟩ := h2.cons_inv
    rw [enterWithin_forest t h1 (by omega)]
    obtain ⟨j, hj⟩ : ∃ j, n - t.width = j + 1 := ⟨n - t.width - 1, by omega⟩
    have hop : openDepth ((s, t') :: P) = 1 + max t'.depth (openDepth P) := rfl
    by_cases ht : t.depth ≤ d
    · rw [if_pos ht, hj, enterWithin]; rw [h3]
      simp only
      cases d with
      | zero => rw [if_neg (by omega)]
      | succ d =>
        simp only
        rw [ih h4 hr hne (by simp; omega)]
        by_cases hd : max t'.depth (openDepth P) ≤ d
        · rw [if_pos hd, if_pos (by omega)]
          cases r with
          | item e => exact absurd rfl (hne e)
          | _ => rfl
        · rw [if_neg hd, if_neg (by omega)]
    · rw [if_neg ht, if_neg (by omega)]

/-- The room complete and open top-level blocks need. -/
def topDepth : List (BBlock × Forest) → List (BBlock × Forest) → Nat
  | [], P => openDepth P
  | (_, t) :: tops, P => max (1 + t.depth) (topDepth tops P)

theorem unrollLoopWithin_spec {pf : Profile} (tops : List (BBlock × Forest)) : ∀ {P : List (BBlock × Forest)}
    {b b₁ b₂ : Bitstream} {r : Bitstream.Next} {d n : Nat} {ps : List PartialModule},
    Gives pf b (completeEntries tops ++ openEntries P) b₁ →
    Bitstream.next pf b₁ = (r, b₂) → (∀ e, r ≠ .item e) → (completeEntries tops ++ openEntries P).length < n →
    (topDepth tops P ≤ d → (unrollLoopWithin pf d n ps b).isSome) ∧
    (∀ ps', (unrollBlocks tops).foldlM addTop ps = .ok ps' → d < topDepth tops P → unrollLoopWithin pf d n ps b = none) := by
  induction tops with
  | nil =>
    intro P b b₁ b₂ r d n ps h hr hne hn
    simp only [completeEntries, List.flatMap_nil, List.nil_append] at h hn
    obtain ⟨m, rfl⟩ : ∃ m, n = m + 1 := ⟨n - 1, by omega⟩
    cases P with
    | nil =>
      cases h
      refine ⟨fun _ => ?_, fun ps' _ hlt => absurd hlt (Nat.not_lt_zero _)⟩
      rw [unrollLoopWithin]; rw [hr]
      cases r with
      | item e => exact absurd rfl (hne e)
      | _ => rfl
    | cons c P =>
      obtain ⟨s, t'⟩ := c
      rw [show openEntries ((s, t') :: P) = .subBlock s :: (t'.entries ++ openEntries P) by simp [openEntries]] at h hn
      simp only [List.length_cons] at hn
      obtain ⟨b', h1, h2⟩ := h.cons_inv
      have hop : topDepth [] ((s, t') :: P) = 1 + max t'.depth (openDepth P) := rfl
      rw [hop, unrollLoopWithin]; rw [h1]
      simp only [StreamEntry.asBlock]
      cases d with
      | zero => exact ⟨fun h => absurd h (by omega), fun _ _ _ => rfl⟩
      | succ d =>
        simp only
        rw [enterWithin_open P h2 hr hne (by omega)]
        by_cases hd : max t'.depth (openDepth P) ≤ d
        · rw [if_pos hd]
          refine ⟨fun _ => ?_, fun _ _ h => absurd h (by omega)⟩
          cases r with
          | item e => exact absurd rfl (hne e)
          | _ => rfl
        · rw [if_neg hd]
          exact ⟨fun h => absurd h (by omega), fun _ _ _ => rfl⟩
  | cons c tops ih =>
    intro P b b₁ b₂ r d n ps h hr hne hn
    obtain ⟨s, t⟩ := c
    rw [show completeEntries ((s, t) :: tops) ++ openEntries P =
      .subBlock s :: (t.entries ++ .endBlock :: (completeEntries tops ++ openEntries P)) by simp [completeEntries]] at h hn
    simp only [List.length_cons, List.length_append] at hn
    obtain ⟨m, rfl⟩ : ∃ m, n = m + 1 := ⟨n - 1, by omega⟩
    obtain ⟨b', h1, h2⟩ := h.cons_inv
    obtain ⟨b'', h3, h4⟩ := h2.append_inv
    obtain ⟨b₃, h5, h6⟩ := h4.cons_inv
    have hw := width_le t
    have hop : topDepth ((s, t) :: tops) P = max (1 + t.depth) (topDepth tops P) := rfl
    rw [hop, unrollLoopWithin]; rw [h1]
    simp only [StreamEntry.asBlock]
    cases d with
    | zero => exact ⟨fun h => absurd h (by omega), fun _ _ _ => rfl⟩
    | succ d =>
      simp only
      rw [enterWithin_forest t h3 (by omega)]
      by_cases hd : t.depth ≤ d
      · obtain ⟨j, hj⟩ : ∃ j, m - t.width = j + 1 := ⟨m - t.width - 1, by omega⟩
        rw [if_pos hd, hj, enterWithin]; rw [h5]
        simp only [unrollBlocks, List.map_cons, List.foldlM_cons]
        obtain ⟨i1, i2⟩ : _ ∧ _ := ⟨fun ps' => (ih (ps := ps') (d := d + 1) (n := m) h6 hr hne (by simp; omega)).1,
          fun ps' => (ih (ps := ps') (d := d + 1) (n := m) h6 hr hne (by simp; omega)).2⟩
        cases hat : addTop ps (t.addTo (UBlock.new s.blockId)) with
        | ok ps' =>
          simp only [Out.ok_bind]
          exact ⟨fun h => i1 ps' (by omega), fun ps'' hf h => i2 ps' ps'' hf (by omega)⟩
        | err e => exact ⟨fun _ => rfl, fun _ h => by cases h⟩
        | panic p => exact ⟨fun _ => rfl, fun _ h => by cases h⟩
        | diverge => exact ⟨fun _ => rfl, fun _ h => by cases h⟩
      · rw [if_neg hd]
        exact ⟨fun h => absurd h (by omega), fun _ _ _ => rfl⟩

/-! ### Depth, entry by entry -/

theorem le_deepest (n : Nat) (es : List StreamEntry) : n ≤ deepest n es := by
  induction es generalizing n with
  | nil => exact Nat.le_refl _
  | cons e es ih =>
    cases e with
    | subBlock s => have := ih (n + 1); rw [deepest]; omega
    | record r => exact ih n
    | endBlock => rw [deepest]; omega

theorem deepest_forest (t : Forest) : ∀ (n : Nat) (es : List StreamEntry),
    deepest n (t.entries ++ es) = max (n + t.depth) (deepest n es) := by
  induction t with
  | nil => intro n es; have := le_deepest n es; simp only [Forest.entries, Forest.depth, List.nil_append]; omega
  | record r rest ih => intro n es; exact ih n es
  | block s body rest ihb ihr =>
    intro n es
    have := le_deepest n (rest.entries ++ es)
    simp only [Forest.entries, Forest.depth, List.cons_append, List.append_assoc, deepest]
    rw [ihb, deepest, Nat.add_sub_cancel, ihr]
    omega

theorem deepest_open (P : List (BBlock × Forest)) (n : Nat) : deepest n (openEntries P) = n + openDepth P := by
  induction P generalizing n with
  | nil => rfl
  | cons c P ih =>
    obtain ⟨s, t⟩ := c
    rw [show openEntries ((s, t) :: P) = .subBlock s :: (t.entries ++ openEntries P) by simp [openEntries], deepest,
      deepest_forest, ih, openDepth]
    omega

theorem deepest_top (tops P : List (BBlock × Forest)) :
    deepest 0 (completeEntries tops ++ openEntries P) = topDepth tops P := by
  induction tops with
  | nil => rw [topDepth, ← Nat.zero_add (openDepth P), ← deepest_open]; rfl
  | cons c tops ih =>
    obtain ⟨s, t⟩ := c
    rw [show completeEntries ((s, t) :: tops) ++ openEntries P =
      .subBlock s :: (t.entries ++ .endBlock :: (completeEntries tops ++ openEntries P)) by simp [completeEntries], deepest,
      deepest_forest, deepest, Nat.zero_add, Nat.sub_self, ih, topDepth]
    omega

/-- C64, unrolling. With room for as many calls of `enter_block` as blocks are ever open at the same time, unrolling does what it
does without a limit. With less it runs out of stack on every stream that could be unrolled; in no case does it give anything
else. -/
theorem C64_unroll_exact (pf : Profile) {b b₁ b₂ : Bitstream} (h : Opened pf b) {es : List StreamEntry} {r : Bitstream.Next}
    (hit : iterate pf es.length b = (es.map .item, b₁)) (hr : Bitstream.next pf b₁ = (r, b₂)) (hne : ∀ e, r ≠ .item e) (d : Nat) :
    (deepest 0 es ≤ d → unrollWithin pf d b = some (unroll pf b)) ∧
    (∀ ps, unroll pf b = .ok ps → d < deepest 0 es → unrollWithin pf d b = none) ∧
    (unrollWithin pf d b = none ∨ unrollWithin pf d b = some (unroll pf b)) := by
  have hg := gives_of_iterate hit
  obtain ⟨h1, h2, -⟩ := h.start
  have hv := iterate_visible (pf := pf) es.length h1
  rw [show b.parser.visible = [] by simp [Parser.visible, h2, Scope.visibleId], hit] at hv
  have hit' : ∀ l : List StreamEntry, items (l.map .item) = l := by
    intro l
    induction l with
    | nil => rfl
    | cons e l ih => simp [items, ih]
  rw [hit'] at hv
  obtain ⟨tops, P, rfl, -⟩ := nested_decomposes es hv
  have hfuel : (completeEntries tops ++ openEntries P).length < unrollFuel b := by
    have hib := iterate_bound (pf := pf) (completeEntries tops ++ openEntries P).length h1
    rw [hit] at hib
    rw [hit'] at hib
    have : b.len = b.parser.cursor.bitLen := rfl
    unfold unrollFuel; omega
  obtain ⟨k1, k2⟩ := unrollLoopWithin_spec (d := d) (ps := []) tops hg hr hne hfuel
  have hs : ∀ x, unrollWithin pf d b = some x → x = unroll pf b := fun x hx => (unrollLoopWithin_sound _ hx).symm
  rw [deepest_top]
  refine ⟨fun hd => ?_, fun ps hps hd => ?_, ?_⟩
  · obtain ⟨x, hx⟩ := Option.isSome_iff_exists.1 (k1 hd)
    rw [← hs x hx]; exact hx
  · have key : unroll pf b = ((unrollBlocks tops).foldlM addTop [] >>= ending P r) := unrollLoop_spec tops hg hr hne hfuel
    rw [key, Out.bind_eq_ok] at hps
    obtain ⟨ps', hps', -⟩ := hps
    exact k2 ps' hps' hd
  · cases hx : unrollWithin pf d b with
    | none => exact .inl rfl
    | some x => rw [hs x hx]; exact .inr rfl

/-! ### Blocks in blocks -/

theorem Spec.Stream.append {pf : Profile} {pad : Nat → Nat} {k k' k'' : Ctx} {outer outer' outer'' : List Ctx} {pos : Nat} {b b' : List Bool}
    {es es' : List Entry} (h : Stream pf pad k outer pos b es k' outer')
    (h' : Stream pf pad k' outer' (pos + b.length) b' es' k'' outer'') : Stream pf pad k outer pos (b ++ b') (es ++ es') k'' outer'' := by
  induction h with
  | nil => exact h'
  | cons hi _ ih =>
    rw [List.append_assoc, List.append_assoc]
    exact .cons hi (ih (by rw [List.length_append, ← Nat.add_assoc] at h'; exact h'))

theorem Spec.Stream.one {pf : Profile} {pad : Nat → Nat} {k k' : Ctx} {outer outer' : List Ctx} {pos : Nat} {b : List Bool}
    {es : List Entry} (h : Item pf pad k outer pos b es k' outer') : Stream pf pad k outer pos b es k' outer' := by
  have := Stream.cons h .nil
  rwa [List.append_nil, List.append_nil] at this

/-- Blocks with the id of IDENTIFICATION in each other. -/
def nest : Nat → Forest
  | 0 => .nil
  | n + 1 => .block { blockId := 13, len := 0 } (nest n) .nil

def nestBits : Nat → List Bool
  | 0 => []
  | n + 1 => startBits 13 ++ (nestBits n ++ endBits)

theorem nestBits_length (n : Nat) : (nestBits n).length = 96 * n := by
  induction n with
  | zero => rfl
  | succ n ih => simp [nestBits, startBits_length, ih, endBits]; omega

theorem nest_depth (n : Nat) : (nest n).depth = n := by
  induction n with
  | zero => rfl
  | succ n ih => simp only [nest, Forest.depth, ih]; omega

theorem nest_stream (pf : Profile) (n : Nat) : ∀ {k : Ctx} (outer : List Ctx) {pos : Nat}, k.width = 2 → pos % 32 = 0 →
    ∃ ms k', Stream pf toWord k outer pos (nestBits n) ms k' outer ∧ ms.map Entry.toStream = (nest n).entries ∧ k'.width = 2 ∧
      k'.block = k.block := by
  induction n with
  | zero => intro k outer pos hw hp; exact ⟨[], k, .nil, rfl, hw, rfl⟩
  | succ n ih =>
    intro k outer pos hw hp
    have h1 := start_item pf hw outer hp (id := 13) (by omega)
    rw [if_neg (by decide)] at h1
    obtain ⟨ms, k', h2, hms, hw', hb⟩ := ih (k := k.enter 13 2) (k :: outer) (pos := pos + (startBits 13).length) rfl
      (by rw [startBits_length]; omega)
    have h3 := end_item pf (o := k) hw' outer (pos := pos + (startBits 13).length + (nestBits n).length)
      (by rw [startBits_length, nestBits_length]; omega)
    rw [show Spec.visible k' .finish = [.finish] by simp [Spec.visible, hb, Ctx.enter]] at h3
    refine ⟨_, _, (Stream.one h1).append (h2.append (.one h3)), ?_, hw, rfl⟩
    simp only [List.map_append, hms, nest, Forest.entries]
    rfl

/-- C64 fails for unrolling: with any limit on the calls of `enter_block` there is a file, of 12 bytes for each call, that goes over
it, although it is one that can be unrolled. -/
theorem C64_unroll_unbounded (pf : Profile) (n : Nat) : ∃ bytes b ps, bytes.length = 4 + 12 * (n + 1) ∧
    Bitstream.fromRaw bytes = .ok b ∧ unroll pf b = .ok ps ∧ unrollWithin pf n b = none := by
  obtain ⟨b, e, hbits⟩ := open_bits (bits := nestBits (n + 1)) (m := 3 * (n + 1)) (by rw [nestBits_length]; omega)
  obtain ⟨ms, k', hs, hms, -⟩ := nest_stream pf (n + 1) (k := Ctx.start) [] (pos := 32) rfl rfl
  have hd : Delivers pf b (nest (n + 1)).entries := (C63_accepts pf e _).2 ⟨ms, k', [], by rw [hbits]; exact hs, hms.symm⟩
  obtain ⟨b₁, b₂, hg, hdone⟩ := delivers_gives hd
  have hes : (nest (n + 1)).entries = completeEntries [(⟨13, 0⟩, nest n)] ++ openEntries [] := by
    simp [nest, Forest.entries, completeEntries, openEntries]
  have hu : unroll pf b = .ok [PartialModule.new ((nest n).addTo (UBlock.new 13))] := by
    rw [unroll_eq pf (.raw e) (hes ▸ hg) hdone (by simp)]
    have hid : ((nest n).addTo (UBlock.new 13)).id = .ir .identification := by
      rw [addTo_id]; rfl
    simp only [unrollBlocks, List.map_cons, List.map_nil, List.foldlM_cons, List.foldlM_nil, addTop, hid]
    rfl
  refine ⟨_, b, _, ?_, e, hu, (C64_unroll_exact pf (.raw e) hg.iterate hdone (by simp) n).2.1 _ hu ?_⟩
  · rw [List.length_append, pack_length]
    show 4 + _ = _
    omega
  · have := deepest_forest (nest (n + 1)) 0 []
    rw [List.append_nil, nest_depth] at this
    rw [this]; omega

/-! ## Types -/

theorem resolve_congr_ok {f g : TypeRef → Out TypeTableError Ty} {p : PType} {t : Ty} (h : p.resolve f = .ok t)
    (hfg : ∀ r u, f r = .ok u → u ∈ components t → g r = .ok u) : p.resolve g = .ok t := by
  have all : ∀ {l : List TypeRef} {us : List Ty}, mapOut f l = .ok us → (∀ u ∈ us, u ∈ components t) → mapOut g l = .ok us := by
    intro l us hl hus
    obtain ⟨h1, h2⟩ := (mapOut_eq_ok ..).1 hl
    exact (mapOut_eq_ok ..).2 ⟨h1, fun k a b ha hb => hfg a b (h2 k a b ha hb) (hus b (List.mem_of_getElem? hb))⟩
  cases p with
  | prim p => exact h
  | integer w => exact h
  | opaquePointer a => exact h
  | function r ps v =>
    simp only [PType.resolve, Out.bind_eq_ok, Out.mapErr_eq_ok, newFunction_eq_ok] at h ⊢
    obtain ⟨tr, h1, tps, h2, rfl, h3⟩ := h
    exact ⟨tr, hfg r tr h1 (by simp [components]), tps, all h2 (fun u hu => by simp [components, hu]), rfl, h3⟩
  | struct n fs q =>
    simp only [PType.resolve, Out.bind_eq_ok, Out.mapErr_eq_ok, newStruct_eq_ok] at h ⊢
    obtain ⟨tps, h2, rfl, h3⟩ := h
    exact ⟨tps, all h2 (fun u hu => by simp [components, hu]), rfl, h3⟩
  | pointer e a =>
    simp only [PType.resolve, Out.bind_eq_ok, Out.mapErr_eq_ok, newPointer_eq_ok] at h ⊢
    obtain ⟨te, h1, rfl, h2⟩ := h
    exact ⟨te, hfg e te h1 (by simp [components]), rfl, h2⟩
  | array n e =>
    simp only [PType.resolve, Out.bind_eq_ok, Out.mapErr_eq_ok, newArray_eq_ok] at h ⊢
    obtain ⟨te, h1, rfl, h2⟩ := h
    exact ⟨te, hfg e te h1 (by simp [components]), rfl, h2⟩
  | fixedVector n e =>
    simp only [PType.resolve, Out.bind_eq_ok, Out.mapErr_eq_ok, newVector_eq_ok] at h ⊢
    obtain ⟨te, h1, rfl, h2⟩ := h
    exact ⟨te, hfg e te h1 (by simp [components]), rfl, h2⟩
  | scalableVector n e =>
    simp only [PType.resolve, Out.bind_eq_ok, Out.mapErr_eq_ok, newScalableVector_eq_ok] at h ⊢
    obtain ⟨te, h1, rfl, h2⟩ := h
    exact ⟨te, hfg e te h1 (by simp [components]), rfl, h2⟩

theorem resolve_components {f : TypeRef → Out TypeTableError Ty} {p : PType} {t : Ty} (h : p.resolve f = .ok t) :
    ∀ u ∈ components t, ∃ r, f r = .ok u := by
  have all : ∀ {l : List TypeRef} {us : List Ty}, mapOut f l = .ok us → ∀ u ∈ us, ∃ r, f r = .ok u := by
    intro l us hl u hu
    obtain ⟨h1, h2⟩ := (mapOut_eq_ok ..).1 hl
    obtain ⟨k, hk⟩ := List.mem_iff_getElem?.1 hu
    have hk' : k < l.length := by rw [← h1]; exact (List.getElem?_eq_some_iff.1 hk).1
    exact ⟨l[k], h2 k _ u (List.getElem?_eq_getElem hk') hk⟩
  have one : ∀ {e : TypeRef} {te : Ty}, f e = .ok te → ∀ u ∈ [te], ∃ r, f r = .ok u := by
    intro e te he u hu
    rw [List.mem_singleton.1 hu]; exact ⟨e, he⟩
  cases p with
  | prim p => cases h; intro u hu; cases hu
  | integer w =>
    simp only [PType.resolve, Out.mapErr_eq_ok, newInteger_eq_ok] at h
    rw [h.1]; intro u hu; cases hu
  | opaquePointer a => cases h; intro u hu; cases hu
  | function r ps v =>
    simp only [PType.resolve, Out.bind_eq_ok, Out.mapErr_eq_ok, newFunction_eq_ok] at h
    obtain ⟨tr, h1, tps, h2, rfl, h3⟩ := h
    intro u hu
    rcases List.mem_cons.1 (show u ∈ tr :: tps from hu) with rfl | hu
    · exact ⟨r, h1⟩
    · exact all h2 u hu
  | struct n fs q =>
    simp only [PType.resolve, Out.bind_eq_ok, Out.mapErr_eq_ok, newStruct_eq_ok] at h
    obtain ⟨tps, h2, rfl, h3⟩ := h
    exact all h2
  | pointer e a =>
    simp only [PType.resolve, Out.bind_eq_ok, Out.mapErr_eq_ok, newPointer_eq_ok] at h
    obtain ⟨te, h1, rfl, h2⟩ := h
    exact one h1
  | array n e =>
    simp only [PType.resolve, Out.bind_eq_ok, Out.mapErr_eq_ok, newArray_eq_ok] at h
    obtain ⟨te, h1, rfl, h2⟩ := h
    exact one h1
  | fixedVector n e =>
    simp only [PType.resolve, Out.bind_eq_ok, Out.mapErr_eq_ok, newVector_eq_ok] at h
    obtain ⟨te, h1, rfl, h2⟩ := h
    exact one h1
  | scalableVector n e =>
    simp only [PType.resolve, Out.bind_eq_ok, Out.mapErr_eq_ok, newScalableVector_eq_ok] at h
    obtain ⟨te, h1, rfl, h2⟩ := h
    exact one h1

theorem height_le_iff (t : Ty) (n : Nat) : height t ≤ n + 1 ↔ ∀ u ∈ components t, height u ≤ n := by
  rw [height_eq]
  constructor
  · intro h u hu
    have := height_le_all hu
    omega
  · intro h
    by_cases h0 : heightAll (components t) = 0
    · omega
    · obtain ⟨u, hu, he⟩ := heightAll_mem h0
      have := h u hu
      omega

theorem resolveRef_height (table : List PType) (n : Nat) (r : TypeRef) (t : Ty) (h : resolveRef table n r = .ok t) :
    height t ≤ n := by
  induction n generalizing r t with
  | zero => cases h
  | succ n ih =>
    rw [resolveRef] at h
    split at h
    · rw [height_le_iff]
      intro u hu
      obtain ⟨r', hr'⟩ := resolve_components h u hu
      exact ih r' u hr'
    · cases h

theorem resolveRef_room (table : List PType) (n m : Nat) (r : TypeRef) (t : Ty) (h : resolveRef table m r = .ok t)
    (hn : height t ≤ n) : resolveRef table n r = .ok t := by
  induction n generalizing m r t with
  | zero => have := height_pos t; omega
  | succ n ih =>
    cases m with
    | zero => cases h
    | succ m =>
      rw [resolveRef] at h ⊢
      split at h
      · next p hp =>
        rw [height_le_iff] at hn
        exact resolve_congr_ok h fun r' u hr' hu => ih m r' u hr' (hn u hu)
      · cases h

/-- C64, types. With room for `d` calls of `get` inside each other a block maps to a table exactly if it maps to it without a limit,
and no type in it is higher than `d + 1`. -/
theorem C64_types_exact (pf : Profile) (d : Nat) (b : UBlock) (ts : TypeTable) :
    TypeTable.tryFromWithin pf d b = .ok ts ↔ TypeTable.tryFrom pf b = .ok ts ∧ ∀ t ∈ ts, height t ≤ d + 1 := by
  have key : ∀ (table : List PType) (n : Nat), (if table.length ≠ n then .err (.badSize n table.length)
        else mapOut (PType.resolve (resolveRef table d)) table) = .ok ts ↔
      reifyTypes n table = .ok ts ∧ ∀ t ∈ ts, height t ≤ d + 1 := by
    intro table n
    unfold reifyTypes
    by_cases hn : table.length ≠ n
    · rw [if_pos hn, if_pos hn]; simp
    · rw [if_neg hn, if_neg hn, mapOut_eq_ok, mapOut_eq_ok]
      constructor
      · rintro ⟨hl, h⟩
        refine ⟨⟨hl, fun k p t hp ht => ?_⟩, fun t ht => ?_⟩
        · have h1 := h k p t hp ht
          refine resolve_congr_ok h1 fun r u hu _ => ?_
          rw [resolveRef_stable_fun table d, show table.length + 1 + d = d + (table.length + 1) by omega,
            resolveRef_mono_add _ _ _ _ (by rw [hu]; simp)]
          exact hu
        · obtain ⟨k, hk⟩ := List.mem_iff_getElem?.1 ht
          have hk' : k < table.length := by rw [← hl]; exact (List.getElem?_eq_some_iff.1 hk).1
          rw [height_le_iff]
          intro u hu
          obtain ⟨r, hr⟩ := resolve_components (h k _ t (List.getElem?_eq_getElem hk') hk) u hu
          exact resolveRef_height _ _ _ _ hr
      · rintro ⟨⟨hl, h⟩, hh⟩
        refine ⟨hl, fun k p t hp ht => ?_⟩
        have := (height_le_iff t d).1 (hh t (List.mem_of_getElem? ht))
        exact resolve_congr_ok (h k p t hp ht) fun r u hu hm => resolveRef_room _ _ _ _ _ hu (this u hm)
  unfold TypeTable.tryFromWithin TypeTable.tryFrom
  simp only [Out.bind_eq_ok, key]
  constructor
  · rintro ⟨r, h1, n, h2, x, h3, s, h4, h5, h6⟩
    exact ⟨⟨r, h1, n, h2, x, h3, s, h4, h5⟩, h6⟩
  · rintro ⟨⟨r, h1, n, h2, x, h3, s, h4, h5⟩, h6⟩
    exact ⟨r, h1, n, h2, x, h3, s, h4, h5, h6⟩

/-- C64, types. Room for as many calls as there are entries is always enough for a table that maps. -/
theorem C64_types_partial (pf : Profile) (b : UBlock) (ts : TypeTable) (h : TypeTable.tryFrom pf b = .ok ts) :
    TypeTable.tryFromWithin pf (ts.length - 1) b = .ok ts :=
  (C64_types_exact pf _ b ts).2 ⟨h, fun t ht => by have := (C65_bound_partial pf b ts h).1 t ht; omega⟩

theorem mapOut_within {ε α β : Type} {f g : α → Out ε β} (hfg : ∀ a, f a ≠ .diverge → g a = f a) (l : List α) :
    mapOut f l = .diverge ∨ mapOut f l = mapOut g l := by
  by_cases h : mapOut f l = .diverge
  · exact .inl h
  · exact .inr (mapOut_congr_of hfg h).symm

/-- C64, types. With too little room the calls never give anything else. -/
theorem C64_types_same (pf : Profile) (d : Nat) (b : UBlock) :
    TypeTable.tryFromWithin pf d b = .diverge ∨ TypeTable.tryFromWithin pf d b = TypeTable.tryFrom pf b := by
  have hf : ∀ (table : List PType) (p : PType), p.resolve (resolveRef table d) ≠ .diverge →
      p.resolve (resolveRef table (table.length + 1)) = p.resolve (resolveRef table d) := by
    intro table p hp
    refine resolve_congr_of (fun r hr => ?_) p hp
    rw [resolveRef_stable_fun table d, show table.length + 1 + d = d + (table.length + 1) by omega]
    exact resolveRef_mono_add _ _ _ _ hr
  unfold TypeTable.tryFromWithin TypeTable.tryFrom
  cases Out.ofOption TypeTableError.badTable (Records.one b.records TypeCode.numEntry.code) with
  | ok r =>
    simp only [Out.ok_bind]
    cases Out.ofOption TypeTableError.badTable r.fields.head? with
    | ok n =>
      simp only [Out.ok_bind]
      cases typeCapacity n with
      | ok x =>
        simp only [Out.ok_bind]
        cases b.records.foldlM (typeStep pf) { inner := [], lastName := [] } with
        | ok s =>
          simp only [Out.ok_bind, reifyTypes]
          split
          · exact .inr rfl
          · exact mapOut_within (hf s.inner) s.inner
        | _ => exact .inr rfl
      | _ => exact .inr rfl
    | _ => exact .inr rfl
  | _ => exact .inr rfl

/-- C64 fails for types: with any limit on the calls of `get` there is a table, of two entries more than the limit, that goes over it,
although it is one that maps. -/
theorem C64_types_unbounded (pf : Profile) (n : Nat) (hn : n + 2 < 2 ^ 57) : ∃ b ts, TypeTable.tryFrom pf b = .ok ts ∧
    ts.length = n + 2 ∧ (∀ x ∈ b.records, x.fields.length ≤ 2) ∧ TypeTable.tryFromWithin pf n b = .diverge := by
  have hm := tower_maps pf 1 (n + 1) hn
  refine ⟨_, _, hm, by simp, fun x hx => ?_, ?_⟩
  · simp only [UBlock.records, towerRecords, List.mem_cons, List.mem_map] at hx
    rcases hx with rfl | rfl | ⟨k, -, rfl⟩ <;> simp
  · refine (C64_types_same pf n _).resolve_right fun h => ?_
    rw [hm] at h
    have := ((C64_types_exact pf n _ _).1 h).2 (tower 1 (n + 1)) (List.mem_map.2 ⟨n + 1, List.mem_range.2 (by omega), rfl⟩)
    rw [tower_height 1 (n + 1) (Nat.le_refl _)] at this
    omega

end Verif
