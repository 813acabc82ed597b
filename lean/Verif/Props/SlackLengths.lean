import Verif.Bitstream.LengthSpec
import Verif.Props.JoinCases
import Verif.Props.Slack

/-!
# C82, continued: lengths of blocks

In streams as they should be written, blocks are as long as they say. The reader does not check it.
-/

namespace Verif

open Spec Cursor

section
variable {pf : Profile}

theorem Sized.append {b b₁ b₂ : Bitstream} {es es' : List StreamEntry} (h : Sized pf b es b₁) :
    Sized pf b₁ es' b₂ → Sized pf b (es ++ es') b₂ := by
  induction h with
  | nil => exact id
  | record hn _ ih => exact fun h => .record hn (ih h)
  | block h1 h2 h3 h4 _ _ ih =>
    intro h
    rw [List.cons_append, List.append_assoc, List.cons_append]
    exact .block h1 h2 h3 h4 (ih h)

theorem Sized.start {b c b' : Bitstream} {es : List StreamEntry} (h : Sized pf c es b') (hn : Bitstream.next pf b = Bitstream.next pf c)
    (hne : es ≠ []) : Sized pf b es b' := by
  cases h with
  | nil => exact absurd rfl hne
  | record h1 h2 => exact .record (hn.trans h1) h2
  | block h1 h2 h3 h4 h5 => exact .block (hn.trans h1) h2 h3 h4 h5

/-- The same up to rounds that show nothing at the end. -/
def SizedTo (pf : Profile) (m : U64) (p : Parser) (es : List StreamEntry) (q : Parser) : Prop :=
  ∃ p', Sized pf ⟨m, p⟩ es ⟨m, p'⟩ ∧ Steps pf p' [] q ∧ PInv p'

theorem SizedTo.append {m : U64} {p q r : Parser} {es es' : List StreamEntry} (h : SizedTo pf m p es q) (h' : SizedTo pf m q es' r) :
    SizedTo pf m p (es ++ es') r := by
  obtain ⟨p', h1, h2, h3⟩ := h
  obtain ⟨q', g1, g2, g3⟩ := h'
  cases es' with
  | nil =>
    cases g1
    exact ⟨p', by rw [List.append_nil]; exact h1, h2.trans g2, h3⟩
  | cons e es' => exact ⟨q', h1.append (g1.start (steps_nil_next h2 h3 m) (by simp)), g2, g3⟩

theorem sizedTo_nil {m : U64} {p q : Parser} (h : Steps pf p [] q) (hp : PInv p) : SizedTo pf m p [] q := ⟨p, .nil, h, hp⟩

theorem sizedTo_record {m : U64} {p q : Parser} {r : BRecord} (h : Parser.step pf p = (.ok (some (.record r)), q)) (hp : PInv p)
    (hq : PInv q) : SizedTo pf m p [.record r] q :=
  ⟨q, .record (next_of_step (b := ⟨m, p⟩) hp h) .nil, .nil q, hq⟩

theorem sizedTo_block {m : U64} {p p₁ q₁ q : Parser} {blk : BBlock} {body : List StreamEntry}
    (h : Parser.step pf p = (.ok (some (.subBlock blk)), p₁)) (hp : PInv p) (hb : SizedTo pf m p₁ body q₁)
    (hq₁ : PInv q₁) (h' : Parser.step pf q₁ = (.ok (some .endBlock), q)) (hq : PInv q)
    (hl : q.cursor.tellBit = p₁.cursor.tellBit + 8 * blk.len.toNat) : SizedTo pf m p (.subBlock blk :: (body ++ [.endBlock])) q := by
  obtain ⟨p', h1, h2, h3⟩ := hb
  refine ⟨q, .block (b₃ := ⟨m, q⟩) (next_of_step (b := ⟨m, p⟩) hp h) h1 ?_ hl .nil, .nil q, hq⟩
  rw [steps_nil_next h2 h3]
  exact next_of_step (b := ⟨m, q₁⟩) hq₁ h'

theorem item_one {pad : Nat → Nat} {k k' : Ctx} {outer outer' : List Ctx} {pos : Nat} {b : List Bool} {es : List Entry}
    (h : Item pf pad k outer pos b es k' outer') : es = [] ∨ ∃ e, es = [e] := by
  cases h with
  | define => exact .inl rfl
  | unabbrev => unfold Spec.visible; split <;> simp
  | «abbrev» => unfold Spec.visible; split <;> simp
  | enter => split <;> simp
  | exit => unfold Spec.visible; split <;> simp

/-- An item that is not the start or the end of a block. -/
theorem sizedTo_item {m : U64} {k k' : Ctx} {outer outer' : List Ctx} {p : Parser} (hm : At wordGrid k outer p) {b tail : List Bool}
    {es : List Entry} (h : Item pf toWord k outer p.cursor.tellBit b es k' outer') (hr : p.cursor.rest = b ++ tail)
    (hes : ∀ e ∈ es, ∃ a c f, e = .record a c f) :
    ∃ q, SizedTo pf m p (es.map Entry.toStream) q ∧ At wordGrid k' outer' q ∧ q.cursor.rest = tail ∧
      q.cursor.tellBit = p.cursor.tellBit + b.length := by
  obtain ⟨q, e, ha, hr'⟩ := step_complete hm h hr
  refine ⟨q, ?_, ha.at_, hr', ha.tell⟩
  have hp := hm.toMatch.pinv
  rcases item_one h with rfl | ⟨x, rfl⟩
  · exact sizedTo_nil (.hidden e (.nil q)) hp
  · obtain ⟨a, c, f, rfl⟩ := hes x (by simp)
    exact sizedTo_record e hp ha.at_.toMatch.pinv

theorem visible_records {k : Ctx} {a : Option U64} {c : U64} {f : List U64} :
    ∀ e ∈ visible k (.record a c f), ∃ a c f, e = .record a c f := by
  unfold visible
  split
  · simp
  · simp

theorem write_sized (m : U64) {its : Items} : ∀ {k : Ctx} {pos : Nat} {w : Written}, write k pos its = some w →
    ∀ {outer : List Ctx} {p : Parser} {tail : List Bool}, At wordGrid k outer p → p.cursor.tellBit = pos → p.cursor.rest = w.bits ++ tail →
    ∃ q, SizedTo pf m p (w.entries.map Entry.toStream) q ∧ At wordGrid w.after outer q ∧ q.cursor.rest = tail ∧
      q.cursor.tellBit = pos + w.bits.length := by
  induction its with
  | nil =>
    intro k pos w h outer p tail hm hp hr
    cases h
    exact ⟨p, sizedTo_nil (.nil p) hm.toMatch.pinv, hm, hr, hp⟩
  | define d rest ih =>
    intro k pos w h outer p tail hm hp hr
    simp only [write, Option.bind_eq_bind, Option.bind_eq_some_iff] at h
    obtain ⟨i, h1, h⟩ := h
    split at h
    · next hv =>
      simp only [Option.bind_eq_some_iff] at h
      obtain ⟨k', h2, r, h3, h4⟩ := h
      cases h4
      simp only [List.append_assoc] at hr
      rw [← List.append_assoc] at hr
      obtain ⟨q, s1, a1, r1, t1⟩ := sizedTo_item (m := m) hm (.define (pf := pf) h1 (def_isDef pf hv) h2) hr (by simp)
      obtain ⟨q', s2, a2, r2, t2⟩ := ih h3 a1 (by rw [t1, hp]) r1
      exact ⟨q', s1.append s2, a2, r2, by rw [t2]; simp only [List.length_append]; omega⟩
    · cases h
  | unabbrev code fields rest ih =>
    intro k pos w h outer p tail hm hp hr
    simp only [write, Option.bind_eq_bind, Option.bind_eq_some_iff, unabbrevBits] at h
    obtain ⟨i, h1, u, ⟨n, hn, h2⟩, k', h3, r, h4, h5⟩ := h
    cases h5
    cases h2
    rw [List.append_assoc] at hr
    obtain ⟨q, s1, a1, r1, t1⟩ := sizedTo_item (m := m) hm (.unabbrev (pf := pf) h1 (isVbr_enc pf (by decide) _) (isCount_bits pf hn)
      (vbr6s_many pf fields) h3) hr visible_records
    obtain ⟨q', s2, a2, r2, t2⟩ := ih h4 a1 (by rw [t1, hp]) r1
    exact ⟨q', by rw [List.map_append]; exact s1.append s2, a2, r2, by rw [t2]; simp only [List.length_append]; omega⟩
  | «abbrev» id code fields rest ih =>
    intro k pos w h outer p tail hm hp hr
    simp only [write, Option.bind_eq_bind, Option.bind_eq_some_iff] at h
    obtain ⟨i, h1, d, h2, v, h3, r, h4, h5⟩ := h
    cases h5
    unfold Ctx.lookup at h2
    split at h2
    · cases h2
    · next b hb =>
      split at h2
      · cases h2
      · next hid =>
        rw [List.append_assoc] at hr
        obtain ⟨q, s1, a1, r1, t1⟩ := sizedTo_item (m := m) hm (.abbrev (pf := pf) h1 (by omega) (by rw [hb]; simp) h2
          (hp ▸ vals_isVal pf h3)) hr visible_records
        obtain ⟨q', s2, a2, r2, t2⟩ := ih h4 a1 (by rw [t1, hp]) r1
        exact ⟨q', by rw [List.map_append]; exact s1.append s2, a2, r2, by rw [t2]; simp only [List.length_append]; omega⟩
  | block id width body rest ihb ih =>
    intro k pos w h outer p tail hm hp hr
    simp only [write, Option.bind_eq_bind, Option.bind_eq_some_iff] at h
    obtain ⟨i, h1, v, h2, e, h3, h⟩ := h
    split at h
    · next hw =>
      simp only [Option.bind_eq_some_iff] at h
      obtain ⟨r, h4, h5⟩ := h
      have hwidth : width ≠ 0 := by
        rintro rfl
        have := (idBits_iff.1 h3).1
        rw [(write_same h2).2] at this
        exact absurd this (by show ¬ 1 ≤ (0 : U64).toNat; decide)
      have hp₁ := isPad_pad32 (pos + (i ++ (encVbr 8 id ++ encVbr 4 width)).length)
      generalize pad32 (pos + (i ++ (encVbr 8 id ++ encVbr 4 width)).length) = p₁ at *
      have hp₁' := hp₁
      rw [show pos + (i ++ (encVbr 8 id ++ encVbr 4 width)).length =
          pos + i.length + (encVbr 8 id).length + (encVbr 4 width).length by simp only [List.length_append]; omega] at hp₁
      have hp₂ := isPad_pad32 (pos + ((i ++ (encVbr 8 id ++ encVbr 4 width) ++ p₁).length + 32) + (v.bits.length + e.length))
      generalize pad32 (pos + ((i ++ (encVbr 8 id ++ encVbr 4 width) ++ p₁).length + 32) + (v.bits.length + e.length)) = p₂ at *
      have hmod : (v.bits.length + (e ++ p₂).length) % 32 = 0 := by
        unfold IsPad toWord at hp₁' hp₂
        simp only [List.length_append] at *
        omega
      have hdiv : 32 * ((v.bits.length + (e ++ p₂).length) / 32) = v.bits.length + (e ++ p₂).length := by omega
      generalize (v.bits.length + (e ++ p₂).length) / 32 = words at *
      cases h5
      have hr' : p.cursor.rest = (i ++ (encVbr 8 id ++ (encVbr 4 width ++ (p₁ ++ bitsOfNat 32 words)))) ++
          (v.bits ++ ((e ++ p₂) ++ (r.bits ++ tail))) := by
        rw [hr]
        simp only [List.append_assoc]
      have henter := Item.enter (pf := pf) (pad := toWord) (pos := pos) (outer := outer) h1 (isVbr_enc pf (by decide) id)
        (isVbr_enc pf (by decide) width) hwidth hp₁ hw
      obtain ⟨q₁, e₁, a₁, r₁⟩ := step_complete hm (hp ▸ henter) hr'
      have t₁ : q₁.cursor.tellBit = _ := a₁.tell
      obtain ⟨q₂, s₂, a₂, r₂, t₂⟩ := ihb h2 a₁.at_ (t₁.trans (by
        show p.cursor.tellBit + _ = _
        rw [hp]
        simp [bitsOfNat_length]
        omega)) r₁
      have hexit := Item.exit (pf := pf) (pad := toWord) (outer := outer) (o := k) (pos := q₂.cursor.tellBit) h3 (p := p₂) (by
        rw [t₂, Nat.add_assoc]
        exact hp₂)
      obtain ⟨q₃, e₃, a₃, r₃⟩ := step_complete a₂ hexit r₂
      have t₃ : q₃.cursor.tellBit = _ := a₃.tell
      obtain ⟨q₄, s₄, a₄, r₄, t₄⟩ := ih h4 a₃.at_ (t₃.trans (by
        show q₂.cursor.tellBit + _ = _
        rw [t₂]
        simp [bitsOfNat_length]
        omega)) r₃
      refine ⟨q₄, ?_, a₄, r₄, by rw [t₄]; simp only [List.length_append]; omega⟩
      have hvis : visible v.after .finish = if id = 0 then [] else [.finish] := by
        unfold visible
        rw [(write_same h2).1]
        simp [Ctx.enter]
      rw [hvis] at e₃
      by_cases hid : id = 0
      · rw [if_pos hid] at e₁ e₃ ⊢
        rw [List.map_append]
        exact (sizedTo_nil (.hidden e₁ (.nil _)) hm.toMatch.pinv).append
          (s₂.append ((sizedTo_nil (.hidden e₃ (.nil _)) a₂.toMatch.pinv).append s₄))
      · rw [if_neg hid] at e₁ e₃ ⊢
        have := (sizedTo_block (m := m) e₁ hm.toMatch.pinv s₂ a₂.toMatch.pinv e₃ a₃.at_.toMatch.pinv (by
          rw [t₃]
          show q₂.cursor.tellBit + _ = _
          rw [t₂, t₁]
          show _ = p.cursor.tellBit + _ + 8 * (BitVec.ofNat 64 (4 * words)).toNat
          rw [hp, BitVec.toNat_ofNat, Nat.mod_eq_of_lt (by omega)]
          simp only [List.length_append, bitsOfNat_length] at hdiv ⊢
          omega)).append s₄
        simpa [Entry.toStream] using this
    · cases h

end

/-- C82. In a stream as it should be written, every block is as long as it says. -/
theorem C82_written_partial (pf : Profile) {magic : U32} {its : Items} {bytes : List U8} {es : List Entry}
    (h : streamBytes magic its = some (bytes, es)) {b : Bitstream} (hb : Bitstream.fromRaw bytes = .ok b) :
    ∃ b', Sized pf b (es.map Entry.toStream) b' ∧ (Bitstream.next pf b').1 = .done := by
  obtain ⟨w, hw, hs⟩ := written_stream pf h
  obtain ⟨-, hr⟩ := raw_start hb
  simp only [streamBytes, writeStream, Option.bind_eq_bind, Option.bind_eq_some_iff] at h
  obtain ⟨⟨c, es'⟩, ⟨w', hw', hc⟩, h⟩ := h
  obtain rfl := Option.some.inj (hw.symm.trans hw')
  cases hc
  cases h
  have hal := block_aligned (k := Ctx.start) rfl hw (by omega)
  rw [bitsOf_pack (by simp only [List.length_append, bitsOfNat_length]; omega), List.drop_left' (bitsOfNat_length ..), remaining_eq] at hr
  obtain ⟨q, ⟨p', h1, h2, h3⟩, ha, hr', -⟩ := write_sized (pf := pf) b.magic hw (raw_at pf hb) (raw_pos hb) (tail := []) (by simpa using hr)
  refine ⟨_, h1, ?_⟩
  rw [steps_nil_next h2 h3, next_exhausted ha.toMatch.pinv ((exhausted_iff_rest (wordGrid.inv ha.on)).2 hr')]

/-- A block that is empty and says it has five words. -/
def exLength : List U8 := [0x42, 0x43, 0xC0, 0xDE, 0x21, 0x08, 0, 0, 5, 0, 0, 0, 0, 0, 0, 0]

/-- C82 is false of streams in general. This one is read without an error, and its block is not as long as it says. -/
theorem C82_lengths_false (pf : Profile) : ∃ bytes b es, Bitstream.fromRaw bytes = .ok b ∧ Delivers pf b es ∧
    ¬ ∃ b', Sized pf b es b' := by
  have h : ∃ b b₁ b₂ b₃, Bitstream.fromRaw exLength = .ok b ∧ Bitstream.next pf b = (.item (.subBlock ⟨8, 20⟩), b₁) ∧
      Bitstream.next pf b₁ = (.item .endBlock, b₂) ∧ Bitstream.next pf b₂ = (.done, b₃) ∧ Bitstream.next pf b₃ = (.done, b₃) ∧
      b₁.pos = 96 ∧ b₂.pos = 128 := by
    cases pf <;> exact ⟨_, _, _, _, rfl, rfl, rfl, rfl, rfl, rfl, rfl⟩
  obtain ⟨b, b₁, b₂, b₃, h1, h2, h3, h4, h5, h6, h7⟩ := h
  refine ⟨exLength, b, [.subBlock ⟨8, 20⟩, .endBlock], h1, ⟨b₁, h2, b₂, h3, b₃, h4, h5⟩, ?_⟩
  rintro ⟨b', hs⟩
  generalize hl : [StreamEntry.subBlock ⟨8, 20⟩, .endBlock] = l at hs
  cases hs with
  | nil => cases hl
  | record => cases hl
  | @block _ c₁ c₂ c₃ _ blk body es g1 g2 g3 g4 g5 =>
    rw [h2] at g1
    cases g1
    cases body with
    | cons x body => simp at hl
    | nil =>
      cases g2
      rw [h3] at g3
      cases g3
      rw [h6, h7] at g4
      exact absurd g4 (by decide)

/-- `exFile` is such a stream, with nested blocks; and if the length of its first block is taken away, it is mapped as before. -/
example (pf : Profile) : ∃ bytes bytes' b es b', Bitstream.fromRaw bytes = .ok b ∧ Sized pf b es b' ∧
    5 ≤ (es.filter fun e => e matches .subBlock _).length ∧ Bitcode.tryFrom pf "t".toList bytes = .ok exBitcode ∧
    bytes' = bytes.take 8 ++ [0, 0, 0, 0] ++ bytes.drop 12 ∧ bytes' ≠ bytes ∧ Bitcode.tryFrom pf "t".toList bytes' = .ok exBitcode := by
  have hm := exFile_maps pf
  obtain ⟨x, hx, e⟩ := Option.map_eq_some_iff.1 hm
  have hl : (streamBytes 0xdec04342 exFile).map (fun x => (x.1.length,
      decide (5 ≤ ((x.2.map Entry.toStream).filter fun e => e matches .subBlock _).length), x.1.take 12)) =
      some (204, true, [0x42, 0x43, 0xC0, 0xDE, 0x35, 0x14, 0, 0, 3, 0, 0, 0]) := by decide +kernel
  obtain ⟨bytes, es⟩ := x
  have e : Bitcode.tryFrom pf "t".toList bytes = .ok exBitcode := e
  rw [hx] at hl
  simp only [Option.map_some, Option.some.injEq, Prod.mk.injEq, decide_eq_true_eq] at hl
  obtain ⟨hlen, hblocks, htake⟩ := hl
  obtain ⟨hw, -⟩ := written_bare hx (by decide)
  obtain ⟨b, hb, -⟩ := Props.C18_stream_roundtrip pf hx
  obtain ⟨b', hs, -⟩ := C82_written_partial pf hx hb
  have hsplit : bytes = [0x42, 0x43, 0xC0, 0xDE, 0x35, 0x14, 0, 0, 3, 0, 0, 0] ++ bytes.drop 12 := by
    rw [← htake, List.take_append_drop]
  have hsplit' : bytes.take 8 ++ [0, 0, 0, 0] ++ bytes.drop 12 = [0x42, 0x43, 0xC0, 0xDE, 0x35, 0x14, 0, 0, 0, 0, 0, 0] ++ bytes.drop 12 := by
    rw [show bytes.take 8 = (bytes.take 12).take 8 by simp [List.take_take], htake]
    rfl
  refine ⟨bytes, _, b, _, b', hb, hs, hblocks, e, rfl, ?_, ?_⟩
  · rw [hsplit', hsplit]
    simp
  · rw [← e, hsplit']
    refine (C82_length pf _ hw ?_ (pre := []) (ms := []) (i := bitsOfNat 2 1) (b := rawVbr 8 [13]) (w := rawVbr 4 [5])
      (p := List.replicate 18 false) (words := 3) (words' := 0) (rest := bitsOf (bytes.drop 12)) (id := 13) (width := 5)
      (by omega) (by simp) ?_ ?_ .nil rfl ?_ ?_ (by decide) ?_ (by decide) (by decide)).symm
    · unfold IsWrapper
      rw [show word32 ([0x42, 0x43, 0xC0, 0xDE, 0x35, 0x14, 0, 0, 0, 0, 0, 0] ++ bytes.drop 12) = word32 [0x42, 0x43, 0xC0, 0xDE] from rfl]
      decide
    · conv => lhs; rw [hsplit, bitsOf_append]
      rw [List.drop_append_of_le_length (by decide)]
      exact congrArg (· ++ _) (by decide +kernel)
    · rw [bitsOf_append, List.drop_append_of_le_length (by decide)]
      exact congrArg (· ++ _) (by decide +kernel)
    · exact ⟨[13], by simp, by simp, rfl, by rw [if_pos (by decide)]; rfl⟩
    · exact ⟨[5], by simp, by simp, rfl, by rw [if_pos (by decide)]; rfl⟩
    · show List.length _ = _
      decide

theorem exLength_stream (pf : Profile) : Stream pf toWord Ctx.start [] 32 (bitsOfNat 2 1 ++ (rawVbr 8 [8] ++ (rawVbr 4 [2] ++
    (List.replicate 18 false ++ bitsOfNat 32 5))) ++ []) ([.start 8 20] ++ []) (Ctx.start.enter 8 2) [Ctx.start] :=
  .cons (.enter (id := 8) (width := 2) (words := 5) rfl ⟨[8], by simp, by simp, rfl, by rw [if_pos (by decide)]; rfl⟩
    ⟨[2], by simp, by simp, rfl, by rw [if_pos (by decide)]; rfl⟩ (by decide) (show List.length _ = _ by decide) (by decide)) .nil

/-- The padding at the end of the block of `exLength`, whatever follows. -/
example (pf : Profile) (target : Str) (rest : List U8) : Bitcode.tryFrom pf target (exLength ++ rest) =
    Bitcode.tryFrom pf target (exLength.take 12 ++ [0xFC, 0xFF, 0xFF, 0xFF] ++ rest) := by
  refine C82_padding_end pf target (p := List.replicate 30 false) (p' := List.replicate 30 true) (i := bitsOfNat 2 0)
    (rest := bitsOf rest) ?_ ?_ (by simp [exLength]) (by simp; omega) ?_ ?_ (exLength_stream pf) rfl (show List.length _ = _ by decide) (by decide)
  · unfold IsWrapper
    rw [show word32 (exLength ++ rest) = word32 [0x42, 0x43, 0xC0, 0xDE] from rfl]
    decide
  · unfold IsWrapper
    rw [show word32 (exLength.take 12 ++ [0xFC, 0xFF, 0xFF, 0xFF] ++ rest) = word32 [0x42, 0x43, 0xC0, 0xDE] from rfl]
    decide
  · rw [bitsOf_append, List.drop_append_of_le_length (by decide +kernel), ← List.append_assoc]
    exact congrArg (· ++ _) (by decide +kernel)
  · rw [bitsOf_append, List.drop_append_of_le_length (by decide +kernel), ← List.append_assoc]
    exact congrArg (· ++ _) (by decide +kernel)

/-- The padding before the length. -/
example (pf : Profile) (target : Str) (rest : List U8) : Bitcode.tryFrom pf target (exLength ++ rest) =
    Bitcode.tryFrom pf target (exLength.take 5 ++ [0xC8, 0xFF, 0xFF] ++ exLength.drop 8 ++ rest) := by
  refine C82_padding_start pf target (pre := []) (ms := []) (p := List.replicate 18 false) (p' := List.replicate 18 true)
    (i := bitsOfNat 2 1) (b := rawVbr 8 [8]) (w := rawVbr 4 [2]) (words := 5) (id := 8) (width := 2)
    (rest := bitsOf (exLength.drop 12) ++ bitsOf rest) ?_ ?_ (by simp [exLength]) (by simp [exLength]) ?_ ?_ .nil rfl
    ⟨[8], by simp, by simp, rfl, by rw [if_pos (by decide)]; rfl⟩ ⟨[2], by simp, by simp, rfl, by rw [if_pos (by decide)]; rfl⟩
    (by decide) (show List.length _ = _ by decide) (by decide) (by decide)
  · unfold IsWrapper
    rw [show word32 (exLength ++ rest) = word32 [0x42, 0x43, 0xC0, 0xDE] from rfl]
    decide
  · unfold IsWrapper
    rw [show word32 (exLength.take 5 ++ [0xC8, 0xFF, 0xFF] ++ exLength.drop 8 ++ rest) = word32 [0x42, 0x43, 0xC0, 0xDE] from rfl]
    decide
  · rw [bitsOf_append, List.drop_append_of_le_length (by decide +kernel), ← List.append_assoc, ← List.append_assoc]
    exact congrArg (· ++ _) (by decide +kernel)
  · rw [bitsOf_append, List.drop_append_of_le_length (by decide +kernel), ← List.append_assoc, ← List.append_assoc]
    exact congrArg (· ++ _) (by decide +kernel)

end Verif
