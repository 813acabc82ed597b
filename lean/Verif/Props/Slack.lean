import Verif.Props.Content
import Verif.Props.Join

/-!
# C82: what a file says and what it need not say

Two files that begin differently, and then go on with the same bits, map in the same way if the beginnings show the same records and
leave the same definitions behind. In particular the lengths that blocks announce and the bits of the padding can be anything.
-/

namespace Verif

open Spec

/-- What an entry means, without block lengths and abbreviation ids. -/
def Spec.Entry.means : Entry → Event
  | .start id _ => .start id
  | .record _ code fields => .record code fields
  | .finish => .finish

theorem erase_toStream (e : Entry) : erase e.toStream = e.means := by cases e <;> rfl

theorem erases {ms ms' : List Entry} (h : ms.map Entry.means = ms'.map Entry.means) :
    (ms.map Entry.toStream).map erase = (ms'.map Entry.toStream).map erase := by
  have e : erase ∘ Entry.toStream = Entry.means := funext erase_toStream
  rw [List.map_map, List.map_map, e, h]

section
variable {gr : Grid} {pf : Profile} {b b' : Bitstream} {k : Ctx} {outer : List Ctx}

/-- Where a stream stops. -/
def StopsWith (pf : Profile) (b : Bitstream) (es : List StreamEntry) (r : Bitstream.Next) : Prop :=
  ∃ b₁, Gives pf b es b₁ ∧ (Bitstream.next pf b₁).1 = r ∧ ∀ e, r ≠ .item e

theorem at_same {g g' : Grid} (hm : At g k outer b.parser) (hm' : At g' k outer b'.parser) (hr : b.remaining = b'.remaining)
    (hp : SamePad g.pad g'.pad (g.pos b.parser.cursor) (g'.pos b'.parser.cursor) b.remaining.length) {es : List StreamEntry}
    {r : Bitstream.Next} (h : StopsWith pf b es r) : StopsWith pf b' es r := by
  obtain ⟨b₁, hg, rfl, hne⟩ := h
  cases hx : Bitstream.next pf b₁ with
  | mk r b₂ =>
    rw [hx] at hne
    have key : ∀ f : Failure, r = f.asNext → StopsWith pf b' es r := by
      rintro f rfl
      obtain ⟨pre, tail, ms, k', outer', h1, h2, h3, h4⟩ := (at_faults hm es f).1 ⟨b₁, hg, by rw [hx]⟩
      have hl : b.remaining.length = pre.length + tail.length := by rw [h1, List.length_append]
      obtain ⟨b₁', hg', hf'⟩ := (at_faults (b := b') (pf := pf) hm' es f).2 ⟨pre, tail, ms, k', outer', hr ▸ h1,
        stream_shift h2 (fun i hi => hp i (by omega)), h3, noItem_shift (hp.skip (by omega)) h4⟩
      exact ⟨b₁', hg', hf', hne⟩
    cases r with
    | item e => exact absurd rfl (hne e)
    | done =>
      obtain ⟨ms, k', outer', h1, h2⟩ := (at_accepts hm es).1 ((delivers_iff_gives hm.toMatch.pinv).2 ⟨b₁, b₂, hg, hx⟩)
      obtain ⟨b₁', b₂', hg', hd⟩ := (delivers_iff_gives hm'.toMatch.pinv).1 ((at_accepts (pf := pf) (b := b') hm' es).2
        ⟨ms, k', outer', hr ▸ stream_shift h1 hp, h2⟩)
      exact ⟨b₁', hg', by rw [hd], hne⟩
    | error x => exact key (.error x) rfl
    | panic s => exact key (.panic s) rfl
    | diverge =>
      obtain ⟨es', b₃, r, b₄, g1, g2, g3, g4, -⟩ := stops (pf := pf) (hg.steps hm.toMatch.pinv).2
      cases g1 with
      | nil => rw [hx] at g2; cases g2; exact absurd rfl g4
      | cons h _ => rw [hx] at h; cases h

theorem Gives.append {b₁ b₂ : Bitstream} {es es' : List StreamEntry} (h : Gives pf b es b₁) : Gives pf b₁ es' b₂ → Gives pf b (es ++ es') b₂ := by
  induction h with
  | nil => exact id
  | cons hn _ ih => exact fun h => .cons hn (ih h)

/-- What follows a beginning, from a parser that is behind it. -/
theorem after_stream (hm : At gr k outer b.parser) {pre tail : List Bool} {ms : List Entry} {k' : Ctx} {outer' : List Ctx}
    (hr : b.remaining = pre ++ tail) (hs : Stream pf gr.pad k outer (gr.pos b.parser.cursor) pre ms k' outer') :
    ∃ q, At gr k' outer' q ∧ q.cursor.rest = tail ∧ gr.pos q.cursor = gr.pos b.parser.cursor + pre.length ∧
      ∀ es r, StopsWith pf ⟨b.magic, q⟩ es r → StopsWith pf b (ms.map Entry.toStream ++ es) r := by
  rw [remaining_eq] at hr
  obtain ⟨q, st, ha, hrq, ht⟩ := hs.steps hm rfl hr
  refine ⟨q, ha, hrq, ht, ?_⟩
  rintro es r ⟨b₁, hg, hn, hne⟩
  obtain ⟨p', g, hst, hp'⟩ := st.gives hm.toMatch.pinv b.magic
  cases hg with
  | nil => exact ⟨_, by rw [List.append_nil]; exact g, by rw [steps_nil_next hst hp']; exact hn, hne⟩
  | cons h h' => exact ⟨_, g.append (.cons (by rw [steps_nil_next hst hp']; exact h) h'), hn, hne⟩

end

/-- C82. What is read after a beginning does not depend on how the beginning is written, only on the definitions that it leaves
behind: if two streams go on with the same bits, they go on with the same entries and stop in the same way. -/
theorem C82_reads (pf : Profile) {bytes bytes' : List U8} {b b' : Bitstream} (h : Bitstream.fromRaw bytes = .ok b)
    (h' : Bitstream.fromRaw bytes' = .ok b') {pre pre' rest : List Bool} {ms ms' : List Entry} {k : Ctx} {outer : List Ctx}
    (hb : (bitsOf bytes).drop 32 = pre ++ rest) (hb' : (bitsOf bytes').drop 32 = pre' ++ rest)
    (hs : Stream pf toWord Ctx.start [] 32 pre ms k outer) (hs' : Stream pf toWord Ctx.start [] 32 pre' ms' k outer)
    (hl : pre.length % 32 = pre'.length % 32) :
    ∃ es r b₁ b₁', (∀ e, r ≠ .item e) ∧
      iterate pf (ms.length + es.length) b = ((ms.map Entry.toStream ++ es).map .item, b₁) ∧ (Bitstream.next pf b₁).1 = r ∧
      iterate pf (ms'.length + es.length) b' = ((ms'.map Entry.toStream ++ es).map .item, b₁') ∧ (Bitstream.next pf b₁').1 = r := by
  have ha := raw_at pf h
  have ha' := raw_at pf h'
  obtain ⟨q, hq, hqr, hqp, hqs⟩ := after_stream ha ((raw_start h).2.trans hb) (by rw [raw_pos h]; exact hs)
  obtain ⟨q', hq', hqr', hqp', hqs'⟩ := after_stream ha' ((raw_start h').2.trans hb') (by rw [raw_pos h']; exact hs')
  obtain ⟨es, b₁, r, b₂, g1, g2, g3, -, -⟩ := stops (pf := pf) (b := ⟨b.magic, q⟩) hq.toMatch.pinv
  have hst : StopsWith pf ⟨b.magic, q⟩ es r := ⟨b₁, g1, by rw [g2], g3⟩
  have hst' : StopsWith pf ⟨b'.magic, q'⟩ es r := by
    refine at_same (b := ⟨b.magic, q⟩) (b' := ⟨b'.magic, q'⟩) hq hq' ?_ ?_ hst
    · rw [remaining_eq, remaining_eq]
      exact hqr.trans hqr'.symm
    · intro i _
      show toWord (wordGrid.pos q.cursor + i) = toWord (wordGrid.pos q'.cursor + i)
      rw [hqp, hqp', raw_pos h, raw_pos h']
      unfold toWord
      omega
  obtain ⟨c, hc, hc', -⟩ := hqs es r hst
  obtain ⟨d, hd, hd', -⟩ := hqs' es r hst'
  refine ⟨es, r, c, d, g3, ?_, hc', ?_, hd'⟩
  · have := hc.iterate
    rwa [List.length_append, List.length_map] at this
  · have := hd.iterate
    rwa [List.length_append, List.length_map] at this

/-- C82. Files map in the same way, with the same modules, the same error or the same panic, if they begin with the same records in
the same blocks, leave the same definitions behind, at positions that are the same in their words, and go on with the same bits. -/
theorem C82_maps (pf : Profile) (target : Str) {bytes bytes' : List U8} (hw : ¬ IsWrapper bytes) (hw' : ¬ IsWrapper bytes')
    {pre pre' rest : List Bool} {ms ms' : List Entry} {k : Ctx} {outer : List Ctx} (h4 : 4 ≤ bytes.length) (h4' : 4 ≤ bytes'.length)
    (hb : (bitsOf bytes).drop 32 = pre ++ rest) (hb' : (bitsOf bytes').drop 32 = pre' ++ rest)
    (hs : Stream pf toWord Ctx.start [] 32 pre ms k outer) (hs' : Stream pf toWord Ctx.start [] 32 pre' ms' k outer)
    (hl : pre.length % 32 = pre'.length % 32) (he : ms.map Entry.means = ms'.map Entry.means) :
    Bitcode.tryFrom pf target bytes = Bitcode.tryFrom pf target bytes' := by
  have key : ∀ {bytes : List U8}, ¬ IsWrapper bytes → 4 ≤ bytes.length →
      Bitstream.from pf bytes = (Bitstream.fromRaw bytes).bind fun b => .ok (none, b) := by
    intro bytes hw hl
    rcases Props.C25_detect pf bytes with ⟨hl', -⟩ | ⟨-, hw', -⟩ | ⟨-, -, e⟩
    · omega
    · exact absurd hw' hw
    · exact e
  have l := congrArg List.length hb
  have l' := congrArg List.length hb'
  simp only [List.length_drop, bitsOf_length, List.length_append] at l l'
  unfold Bitcode.tryFrom
  rw [key hw h4, key hw' h4']
  rcases Props.C25_raw bytes with ⟨h1, h2, b, e, -⟩ | ⟨h1, e⟩ | ⟨rfl, -⟩
  · rcases Props.C25_raw bytes' with ⟨h1', h2', b', e', -⟩ | ⟨h1', e'⟩ | ⟨rfl, -⟩
    · rw [e, e']
      obtain ⟨es, r, b₁, b₁', g1, g2, g3, g4, g5⟩ := C82_reads pf e e' hb hb' hs hs' hl
      refine C58_encoding pf target (.raw e) (.raw e') (es := ms.map Entry.toStream ++ es) (es' := ms'.map Entry.toStream ++ es)
        (r := r) (by rw [List.length_append, List.length_map]; exact g2) (by rw [List.length_append, List.length_map]; exact g4)
        (Prod.ext g3 rfl) (Prod.ext g5 rfl) g1 ?_
      rw [List.map_append, List.map_append, erases he]
    · omega
    · simp at h4'
  · rcases Props.C25_raw bytes' with ⟨h1', -⟩ | ⟨h1', e'⟩ | ⟨rfl, -⟩
    · omega
    · rw [e, e']
    · simp at h4'
  · simp at h4

/-- C82. The same, where the beginnings differ in one item. -/
theorem C82_item (pf : Profile) (target : Str) {bytes bytes' : List U8} (hw : ¬ IsWrapper bytes) (hw' : ¬ IsWrapper bytes')
    {pre it it' rest : List Bool} {ms es es' : List Entry} {k k' : Ctx} {outer outer' : List Ctx} (h4 : 4 ≤ bytes.length)
    (h4' : 4 ≤ bytes'.length) (hb : (bitsOf bytes).drop 32 = pre ++ (it ++ rest)) (hb' : (bitsOf bytes').drop 32 = pre ++ (it' ++ rest))
    (hs : Stream pf toWord Ctx.start [] 32 pre ms k outer) (hi : Item pf toWord k outer (32 + pre.length) it es k' outer')
    (hi' : Item pf toWord k outer (32 + pre.length) it' es' k' outer') (hl : it.length % 32 = it'.length % 32)
    (he : es.map Entry.means = es'.map Entry.means) : Bitcode.tryFrom pf target bytes = Bitcode.tryFrom pf target bytes' := by
  have join : ∀ {it es}, Item pf toWord k outer (32 + pre.length) it es k' outer' →
      Stream pf toWord Ctx.start [] 32 (pre ++ (it ++ [])) (ms ++ (es ++ [])) k' outer' :=
    fun hi => stream_append hs (.cons hi .nil)
  refine C82_maps pf target hw hw' h4 h4' (pre := pre ++ (it ++ [])) (pre' := pre ++ (it' ++ [])) (rest := rest) (by simpa using hb)
    (by simpa using hb') (join hi) (join hi') ?_ ?_
  · simp only [List.length_append, List.length_nil]
    omega
  · simp [he]

/-- C82. The length that a block announces does not matter: it can be any other, whatever follows. -/
theorem C82_length (pf : Profile) (target : Str) {bytes bytes' : List U8} (hw : ¬ IsWrapper bytes) (hw' : ¬ IsWrapper bytes')
    {pre i b w p rest : List Bool} {ms : List Entry} {k : Ctx} {outer : List Ctx} {id width : U64} {words words' : Nat}
    (h4 : 4 ≤ bytes.length) (h4' : 4 ≤ bytes'.length)
    (hb : (bitsOf bytes).drop 32 = pre ++ ((i ++ (b ++ (w ++ (p ++ bitsOfNat 32 words)))) ++ rest))
    (hb' : (bitsOf bytes').drop 32 = pre ++ ((i ++ (b ++ (w ++ (p ++ bitsOfNat 32 words')))) ++ rest))
    (hs : Stream pf toWord Ctx.start [] 32 pre ms k outer) (h1 : idBits k 1 = some i) (h2 : IsVbr pf 8 id b) (h3 : IsVbr pf 4 width w)
    (h0 : width ≠ 0) (hp : IsPad toWord (32 + pre.length + i.length + b.length + w.length) p) (hl : words < 2 ^ 32)
    (hl' : words' < 2 ^ 32) : Bitcode.tryFrom pf target bytes = Bitcode.tryFrom pf target bytes' := by
  refine C82_item pf target hw hw' h4 h4' hb hb' hs (.enter h1 h2 h3 h0 hp hl) (.enter h1 h2 h3 h0 hp hl') ?_ ?_
  · simp [bitsOfNat_length]
  · split <;> rfl

/-- C82. The bits of the padding at the end of a block do not matter. -/
theorem C82_padding_end (pf : Profile) (target : Str) {bytes bytes' : List U8} (hw : ¬ IsWrapper bytes) (hw' : ¬ IsWrapper bytes')
    {pre i p p' rest : List Bool} {ms : List Entry} {k o : Ctx} {outer : List Ctx} (h4 : 4 ≤ bytes.length) (h4' : 4 ≤ bytes'.length)
    (hb : (bitsOf bytes).drop 32 = pre ++ ((i ++ p) ++ rest)) (hb' : (bitsOf bytes').drop 32 = pre ++ ((i ++ p') ++ rest))
    (hs : Stream pf toWord Ctx.start [] 32 pre ms k (o :: outer)) (h1 : idBits k 0 = some i)
    (hp : IsPad toWord (32 + pre.length + i.length) p) (hl : p'.length = p.length) :
    Bitcode.tryFrom pf target bytes = Bitcode.tryFrom pf target bytes' := by
  refine C82_item pf target hw hw' h4 h4' hb hb' hs (.exit h1 hp) (.exit h1 (hl.trans hp)) ?_ rfl
  simp [hl]

/-- C82. The bits of the padding in front of the length of a block do not matter. -/
theorem C82_padding_start (pf : Profile) (target : Str) {bytes bytes' : List U8} (hw : ¬ IsWrapper bytes) (hw' : ¬ IsWrapper bytes')
    {pre i b w p p' rest : List Bool} {ms : List Entry} {k : Ctx} {outer : List Ctx} {id width : U64} {words : Nat}
    (h4 : 4 ≤ bytes.length) (h4' : 4 ≤ bytes'.length)
    (hb : (bitsOf bytes).drop 32 = pre ++ ((i ++ (b ++ (w ++ (p ++ bitsOfNat 32 words)))) ++ rest))
    (hb' : (bitsOf bytes').drop 32 = pre ++ ((i ++ (b ++ (w ++ (p' ++ bitsOfNat 32 words)))) ++ rest))
    (hs : Stream pf toWord Ctx.start [] 32 pre ms k outer) (h1 : idBits k 1 = some i) (h2 : IsVbr pf 8 id b) (h3 : IsVbr pf 4 width w)
    (h0 : width ≠ 0) (hp : IsPad toWord (32 + pre.length + i.length + b.length + w.length) p) (hl : p'.length = p.length)
    (hw32 : words < 2 ^ 32) : Bitcode.tryFrom pf target bytes = Bitcode.tryFrom pf target bytes' := by
  refine C82_item pf target hw hw' h4 h4' hb hb' hs (.enter h1 h2 h3 h0 hp hw32) (.enter h1 h2 h3 h0 (hl.trans hp) hw32) ?_ rfl
  simp [hl]

end Verif
