import Verif.Bitstream.Grammar
import Verif.Mapper.UnrollLemmas
import Verif.Props.Bitstream
import Verif.Props.Iteration

/-! C63: the streams that can be read are exactly those of the grammar, and are read as the grammar says. -/

namespace Verif
open Spec Cursor Parser Props

variable {gr : Grid}

/-! ## Rounds and calls of `next` -/

theorem Steps.sound {pf : Profile} {p q : Parser} {es : List StreamEntry} (h : Steps pf p es q) {k : Ctx} {outer : List Ctx}
    (hm : At gr k outer p) : ∃ bits ms k' outer', Stream pf gr.pad k outer (gr.pos p.cursor) bits ms k' outer' ∧
      es = ms.map Entry.toStream ∧ After gr p q bits k' outer' := by
  have item_cons : ∀ {b : List Bool} {es' : List Entry} {k k' : Ctx} {outer outer' : List Ctx} {pos : Nat},
      Item pf gr.pad k outer pos b es' k' outer' → es' = [] ∨ ∃ e, es' = [e] := by
    intro b es' k k' outer outer' pos h
    cases h with
    | define => exact .inl rfl
    | unabbrev => unfold Spec.visible; split <;> simp
    | «abbrev» => unfold Spec.visible; split <;> simp
    | enter => split <;> simp
    | exit => unfold Spec.visible; split <;> simp
  have join : ∀ {p p' q : Parser} {b bits : List Bool} {k' k'' : Ctx} {outer' outer'' : List Ctx}, After gr p p' b k' outer' →
      After gr p' q bits k'' outer'' → After gr p q (b ++ bits) k'' outer'' := by
    intro p p' q b bits k' k'' outer' outer'' h1 h2
    exact ⟨h2.at_, h1.buf.trans h2.buf, by rw [h1.rest, h2.rest, List.append_assoc],
      by rw [h2.tell, h1.tell, List.length_append, Nat.add_assoc]⟩
  induction h generalizing k outer with
  | nil p => exact ⟨[], [], k, outer, .nil, rfl, hm, .rfl', by simp, by simp⟩
  | @hidden p p' q es h _ ih =>
    obtain ⟨b, es', k', outer', hi, hr, ha⟩ := step_sound hm h
    obtain ⟨bits, ms, k'', outer'', hs, rfl, ha'⟩ := ih ha.at_
    rw [ha.tell] at hs
    rcases item_cons hi with rfl | ⟨e, rfl⟩
    · exact ⟨_, _, _, _, .cons hi hs, rfl, join ha ha'⟩
    · cases hr
  | @emit p p' q e es h _ ih =>
    obtain ⟨b, es', k', outer', hi, hr, ha⟩ := step_sound hm h
    obtain ⟨bits, ms, k'', outer'', hs, rfl, ha'⟩ := ih ha.at_
    rw [ha.tell] at hs
    rcases item_cons hi with rfl | ⟨e', rfl⟩
    · cases hr
    · cases hr
      exact ⟨_, _, _, _, .cons hi hs, rfl, join ha ha'⟩

theorem Spec.Stream.steps {pf : Profile} {k k' : Ctx} {outer outer' : List Ctx} {pos : Nat} {bits tail : List Bool} {ms : List Entry}
    (h : Stream pf gr.pad k outer pos bits ms k' outer') {p : Parser} (hm : At gr k outer p) (hp : gr.pos p.cursor = pos)
    (hr : p.cursor.rest = bits ++ tail) : ∃ q, Steps pf p (ms.map Entry.toStream) q ∧ At gr k' outer' q ∧ q.cursor.rest = tail ∧
      gr.pos q.cursor = pos + bits.length := by
  induction h generalizing p with
  | nil => exact ⟨p, .nil p, hm, hr, by simp [hp]⟩
  | @cons k k' k'' outer outer' outer'' pos b bs es es' hi _ ih =>
    subst hp
    rw [List.append_assoc] at hr
    obtain ⟨q, e, ha, hr'⟩ := step_complete hm hi hr
    obtain ⟨q', hs, ha', hr'', ht⟩ := ih ha.at_ ha.tell hr'
    refine ⟨q', ?_, ha', hr'', by rw [ht, List.length_append, Nat.add_assoc]⟩
    have hes : es = [] ∨ ∃ e, es = [e] := by
      cases hi with
      | define => exact .inl rfl
      | unabbrev => unfold Spec.visible; split <;> simp
      | «abbrev» => unfold Spec.visible; split <;> simp
      | enter => split <;> simp
      | exit => unfold Spec.visible; split <;> simp
    rcases hes with rfl | ⟨x, rfl⟩
    · exact .hidden e hs
    · exact .emit e hs

/-- A call of `next` runs rounds that show nothing, and then one that shows the entry, or finds the end, or fails. -/
theorem next_steps {pf : Profile} {b : Bitstream} (hp : PInv b.parser) : ∃ q, Steps pf b.parser [] q ∧
    ((∃ e p', Parser.step pf q = (.ok (some e), p') ∧ Bitstream.next pf b = (.item e, ⟨b.magic, p'⟩)) ∨
     (q.cursor.exhausted = true ∧ Bitstream.next pf b = (.done, ⟨b.magic, q⟩)) ∨
     (q.cursor.exhausted = false ∧ (∀ r p', Parser.step pf q ≠ (.ok r, p')) ∧
       ((∃ x, (Bitstream.next pf b).1 = .error x) ∨ ∃ s, (Bitstream.next pf b).1 = .panic s))) := by
  obtain ⟨m, p⟩ := b
  show ∃ q, Steps pf p [] q ∧ _
  have hp : PInv p := hp
  generalize hn : p.cursor.rest.length = n
  induction n using Nat.strongRecOn generalizing p with
  | _ n ih =>
    have hg := pgood_step (pf := pf) p hp
    have hx := step_measure (pf := pf) hp
    match hs : Parser.step pf p with
    | (.ok (some e), p') =>
      refine ⟨p, .nil p, .inl ⟨e, p', hs, ?_⟩⟩
      exact next_of_step (b := ⟨m, p⟩) hp hs
    | (.ok none, p') =>
      rw [hs] at hg
      have h1 : p.cursor.tellBit + 1 ≤ p'.cursor.tellBit := hg.eats none rfl
      have h2 : p'.cursor.byteLen = p.cursor.byteLen := hg.same.2
      have l1 := rest_length hp.cur
      have l2 := rest_length hg.inv.cur
      have t2 := tellBit_le hg.inv.cur
      obtain ⟨q, hq, h⟩ := ih p'.cursor.rest.length (by
        simp only at *; omega) p' hg.inv hg.inv rfl
      refine ⟨q, .hidden hs hq, ?_⟩
      have e : Bitstream.next pf ⟨m, p⟩ = Bitstream.next pf ⟨m, p'⟩ :=
        next_congr (by rw [advance_unfold hp, hs])
      rw [e]
      exact h
    | (.err x, p') =>
      rcases hx with ⟨h1, h2⟩ | ⟨h1, h2, -⟩
      · exact ⟨p, .nil p, .inr (.inl ⟨h1, next_exhausted hp h1⟩)⟩
      · have hne : x ≠ .exhausted := by
          rintro rfl
          rw [hs] at h2
          exact h2 rfl
        refine ⟨p, .nil p, .inr (.inr ⟨h1, by rw [hs]; simp, .inl ⟨x, ?_⟩⟩)⟩
        rw [next_of_step_err (b := ⟨m, p⟩) hp hne hs]
    | (.panic s, p') =>
      have h1 : p.cursor.exhausted = false := by
        rcases hx with ⟨h1, h2⟩ | ⟨h1, -⟩
        · rw [h2] at hs; cases hs
        · exact h1
      refine ⟨p, .nil p, .inr (.inr ⟨h1, by rw [hs]; simp, .inr ⟨s, ?_⟩⟩)⟩
      unfold Bitstream.next Bitstream.advance
      rw [advance_unfold hp, hs]
    | (.diverge, p') => rw [hs] at hg; exact absurd rfl hg.nodiv

theorem Steps.pinv {pf : Profile} {p q : Parser} {es : List StreamEntry} (h : Steps pf p es q) (hp : PInv p) : PInv q := by
  induction h with
  | nil => exact hp
  | hidden h _ ih => have hs := (pgood_step (pf := pf) _ hp).inv; rw [h] at hs; exact ih hs
  | emit h _ ih => have hs := (pgood_step (pf := pf) _ hp).inv; rw [h] at hs; exact ih hs

theorem Gives.steps {pf : Profile} {b b' : Bitstream} {es : List StreamEntry} (h : Gives pf b es b') (hp : PInv b.parser) :
    Steps pf b.parser es b'.parser ∧ PInv b'.parser := by
  induction h with
  | nil => exact ⟨.nil _, hp⟩
  | @cons b b₁ b₂ e es hn _ ih =>
    obtain ⟨q, hq, h⟩ := next_steps (pf := pf) hp
    rcases h with ⟨e', p', hs, h⟩ | ⟨-, h⟩ | ⟨-, -, ⟨x, h⟩ | ⟨x, h⟩⟩
    · rw [h] at hn
      simp only [Prod.mk.injEq, Bitstream.Next.item.injEq] at hn
      obtain ⟨rfl, rfl⟩ := hn
      have st : Steps pf b.parser [e'] p' := hq.trans (.emit hs (.nil _))
      obtain ⟨h1, h2⟩ := ih (st.pinv hp)
      exact ⟨st.trans h1, h2⟩
    · rw [h] at hn; simp at hn
    · rw [hn] at h; simp at h
    · rw [hn] at h; simp at h

/-- Hidden rounds at the end do not show; up to them the entries are given. -/
theorem Steps.gives {pf : Profile} {p q : Parser} {es : List StreamEntry} (h : Steps pf p es q) (hp : PInv p) (m : U64) :
    ∃ p', Gives pf ⟨m, p⟩ es ⟨m, p'⟩ ∧ Steps pf p' [] q ∧ PInv p' := by
  induction h with
  | nil p => exact ⟨p, .nil _, .nil p, hp⟩
  | @hidden p p₁ q es h hst ih =>
    have hs := (pgood_step (pf := pf) _ hp).inv
    rw [h] at hs
    obtain ⟨p', h1, h2, h3⟩ := ih hs
    cases es with
    | nil => exact ⟨p, .nil _, .hidden h hst, hp⟩
    | cons e es =>
      obtain ⟨b₁, h4, h5⟩ := h1.cons_inv
      refine ⟨p', .cons ?_ h5, h2, h3⟩
      rw [← h4]
      exact next_congr (by rw [advance_unfold hp, h])
  | @emit p p₁ q e es h _ ih =>
    have hs := (pgood_step (pf := pf) _ hp).inv
    rw [h] at hs
    obtain ⟨p', h1, h2, h3⟩ := ih hs
    exact ⟨p', .cons (next_of_step (b := ⟨m, p⟩) hp h) h1, h2, h3⟩

/-- Rounds that show nothing are determined by where they end: at a round that shows something, or at none. -/
theorem steps_nil_next {pf : Profile} {p q : Parser} (h : Steps pf p [] q) (hp : PInv p) (m : U64) :
    Bitstream.next pf ⟨m, p⟩ = Bitstream.next pf ⟨m, q⟩ := by
  generalize he : ([] : List StreamEntry) = es at h
  induction h with
  | nil => rfl
  | hidden h _ ih =>
    have hs := (pgood_step (pf := pf) _ hp).inv
    rw [h] at hs
    rw [← ih hs he]
    exact next_congr (by rw [advance_unfold hp, h])
  | emit => cases he

theorem delivers_iff_gives {pf : Profile} {b : Bitstream} {es : List StreamEntry} (hp : PInv b.parser) :
    Delivers pf b es ↔ ∃ b₁ b₂, Gives pf b es b₁ ∧ Bitstream.next pf b₁ = (.done, b₂) := by
  induction es generalizing b with
  | nil =>
    constructor
    · rintro ⟨b', h, -⟩
      exact ⟨b, b', .nil _, h⟩
    · rintro ⟨b₁, b₂, h, hd⟩
      cases h
      obtain ⟨q, hq, h⟩ := next_steps (pf := pf) hp
      rcases h with ⟨e', p', hs, h⟩ | ⟨hx, h⟩ | ⟨-, -, ⟨x, h⟩ | ⟨x, h⟩⟩
      · rw [hd] at h; simp at h
      · exact ⟨_, h, next_exhausted (hq.pinv hp) hx⟩
      · rw [hd] at h; simp at h
      · rw [hd] at h; simp at h
  | cons e es ih =>
    constructor
    · rintro ⟨b', h, hd⟩
      have hp' : PInv b'.parser := by have := next_pinv (pf := pf) hp; rw [h] at this; exact this
      obtain ⟨b₁, b₂, h1, h2⟩ := (ih hp').1 hd
      exact ⟨b₁, b₂, .cons h h1, h2⟩
    · rintro ⟨b₁, b₂, h, hd⟩
      obtain ⟨b', h1, h2⟩ := h.cons_inv
      have hp' : PInv b'.parser := by have := next_pinv (pf := pf) hp; rw [h1] at this; exact this
      exact ⟨b', h1, (ih hp').2 ⟨b₁, b₂, h2, hd⟩⟩

/-! ## The theorems for a parser anywhere -/

section
variable {pf : Profile} {b : Bitstream} {k : Ctx} {outer : List Ctx}

theorem at_accepts (hm : At gr k outer b.parser) (es : List StreamEntry) : Delivers pf b es ↔
    ∃ ms k' outer', Stream pf gr.pad k outer (gr.pos b.parser.cursor) b.remaining ms k' outer' ∧ es = ms.map Entry.toStream := by
  have hp : PInv b.parser := hm.toMatch.pinv
  rw [remaining_eq]
  constructor
  · intro h
    obtain ⟨b₁, b₂, hg, hd⟩ := (delivers_iff_gives hp).1 h
    obtain ⟨st, hp₁⟩ := hg.steps hp
    obtain ⟨q, hq, h⟩ := next_steps (pf := pf) hp₁
    rcases h with ⟨e', p', hs, h⟩ | ⟨hx, h⟩ | ⟨-, -, ⟨x, h⟩ | ⟨x, h⟩⟩
    · rw [hd] at h; simp at h
    · have st' := st.trans hq
      rw [List.append_nil] at st'
      obtain ⟨bits, ms, k', outer', hs, rfl, ha⟩ := st'.sound hm
      have := (exhausted_iff_rest (gr.inv ha.at_.on)).1 hx
      rw [ha.rest, this, List.append_nil]
      exact ⟨ms, k', outer', hs, rfl⟩
    · rw [hd] at h; simp at h
    · rw [hd] at h; simp at h
  · rintro ⟨ms, k', outer', hs, rfl⟩
    obtain ⟨q, st, ha, hr, -⟩ := hs.steps (tail := []) hm rfl (by simp)
    have hx := (exhausted_iff_rest (gr.inv ha.on)).2 hr
    exact st.delivers hp hx b.magic

theorem at_prefix (hm : At gr k outer b.parser) (es : List StreamEntry) : (∃ b', Gives pf b es b') ↔
    ∃ pre tail ms k' outer', b.remaining = pre ++ tail ∧ Stream pf gr.pad k outer (gr.pos b.parser.cursor) pre ms k' outer' ∧
      es = ms.map Entry.toStream := by
  have hp : PInv b.parser := hm.toMatch.pinv
  rw [remaining_eq]
  constructor
  · rintro ⟨b', h⟩
    obtain ⟨bits, ms, k', outer', hs, he, ha⟩ := (h.steps hp).1.sound hm
    exact ⟨bits, _, ms, k', outer', ha.rest, hs, he⟩
  · rintro ⟨pre, tail, ms, k', outer', hr, hs, rfl⟩
    obtain ⟨q, st, -⟩ := hs.steps hm rfl hr
    obtain ⟨p', h, -⟩ := st.gives hp b.magic
    exact ⟨_, h⟩

theorem at_fails (hm : At gr k outer b.parser) (es : List StreamEntry) :
    (∃ b' r, Gives pf b es b' ∧ (Bitstream.next pf b').1 = r ∧ ((∃ x, r = .error x) ∨ ∃ s, r = .panic s)) ↔
    ∃ pre tail ms k' outer', b.remaining = pre ++ tail ∧ Stream pf gr.pad k outer (gr.pos b.parser.cursor) pre ms k' outer' ∧
      es = ms.map Entry.toStream ∧ tail ≠ [] ∧
      ∀ i t ms' k'' outer'', tail = i ++ t → ¬ Item pf gr.pad k' outer' (gr.pos b.parser.cursor + pre.length) i ms' k'' outer'' := by
  have hp : PInv b.parser := hm.toMatch.pinv
  rw [remaining_eq]
  constructor
  · rintro ⟨b', r, h, hr, hf⟩
    obtain ⟨st, hp'⟩ := h.steps hp
    obtain ⟨q, hq, h⟩ := next_steps (pf := pf) hp'
    have key : ∀ x, Bitstream.next pf b' = x → x.1 = r := by rintro x rfl; exact hr
    rcases h with ⟨e', p', hs, h⟩ | ⟨hx, h⟩ | ⟨hx, hno, -⟩
    · have := key _ h
      rcases hf with ⟨x, rfl⟩ | ⟨x, rfl⟩ <;> simp at this
    · have := key _ h
      rcases hf with ⟨x, rfl⟩ | ⟨x, rfl⟩ <;> simp at this
    · have st' := st.trans hq
      rw [List.append_nil] at st'
      obtain ⟨bits, ms, k', outer', hs, rfl, ha⟩ := st'.sound hm
      refine ⟨bits, _, ms, k', outer', ha.rest, hs, rfl, fun h0 => ?_, fun i t ms' k'' outer'' ht hi => ?_⟩
      · rw [(exhausted_iff_rest (gr.inv ha.at_.on)).2 h0] at hx
        cases hx
      · have e : gr.pos b.parser.cursor + bits.length = gr.pos q.cursor := ha.tell.symm
        rw [e] at hi
        obtain ⟨q', e, -⟩ := step_complete ha.at_ hi ht
        exact hno _ _ e
  · rintro ⟨pre, tail, ms, k', outer', hr, hs, rfl, hne, hno⟩
    obtain ⟨q, st, ha, hrq, ht⟩ := hs.steps hm rfl hr
    obtain ⟨p', hg, hst, hp'⟩ := st.gives hp b.magic
    refine ⟨_, _, hg, rfl, ?_⟩
    rw [steps_nil_next hst hp']
    have hx : q.cursor.exhausted ≠ true := by
      rw [ne_eq, exhausted_iff_rest (gr.inv ha.on), hrq]
      exact hne
    have hstep : ∀ r p'', Parser.step pf q ≠ (.ok r, p'') := by
      intro r p'' hs'
      obtain ⟨i, ms', k'', outer'', hi, -, ha'⟩ := step_sound ha hs'
      rw [ht] at hi
      exact hno i _ ms' k'' outer'' (by rw [← hrq]; exact ha'.rest) hi
    obtain ⟨q', hq', h⟩ := next_steps (pf := pf) (b := ⟨b.magic, q⟩) ha.toMatch.pinv
    have hqq : q' = q := by
      generalize he : ([] : List StreamEntry) = l at hq'
      cases hq' with
      | nil => rfl
      | hidden h _ => exact absurd h (hstep _ _)
      | emit => cases he
    subst hqq
    rcases h with ⟨e', p', hs, h⟩ | ⟨hx', h⟩ | ⟨-, -, h⟩
    · exact absurd hs (hstep _ _)
    · exact absurd hx' hx
    · exact h

end

/-! ## Opened streams -/

theorem fresh_at {pf : Profile} {b : Bitstream} (h : Opened pf b) (hw : WInv b.parser.cursor) : At wordGrid Ctx.start [] b.parser := by
  obtain ⟨-, hs, hb⟩ := h.start
  exact ⟨⟨hw, hs, rfl, rfl, fun _ => by rw [hb]; rfl⟩, by simp⟩

/-- A bare stream starts after its first four bytes. -/
theorem raw_start {bytes : List U8} {b : Bitstream} (h : Bitstream.fromRaw bytes = .ok b) :
    b.pos = 32 ∧ b.remaining = (bitsOf bytes).drop 32 := by
  rcases fromCursor_spec (inv_new bytes) with ⟨-, -, v, c', e, -, -, -, hr, ht, -⟩ | ⟨-, e⟩
  · rw [show Bitstream.fromRaw bytes = _ from e] at h
    cases h
    exact ⟨by show c'.tellBit = 32; rw [ht]; rfl, by rw [remaining_eq]; show c'.rest = _; rw [hr, rest_new]⟩
  · rw [show Bitstream.fromRaw bytes = _ from e] at h
    cases h

theorem raw_at (pf : Profile) {bytes : List U8} {b : Bitstream} (h : Bitstream.fromRaw bytes = .ok b) : At wordGrid Ctx.start [] b.parser :=
  fresh_at (pf := pf) (.raw h) (ReachAligned.inv (pf := pf) (.raw h)).2

theorem raw_pos {bytes : List U8} {b : Bitstream} (h : Bitstream.fromRaw bytes = .ok b) : wordGrid.pos b.parser.cursor = 32 :=
  (raw_start h).1

/-- C63. A bare stream is read to the end, without an error, exactly if the bits after its first word are a stream of the
grammar; and then the entries it gives are those the grammar assigns. -/
theorem C63_accepts (pf : Profile) {bytes : List U8} {b : Bitstream} (h : Bitstream.fromRaw bytes = .ok b)
    (es : List StreamEntry) : Delivers pf b es ↔
    ∃ ms k outer, Stream pf toWord Ctx.start [] 32 ((bitsOf bytes).drop 32) ms k outer ∧ es = ms.map Entry.toStream := by
  obtain ⟨-, hr⟩ := raw_start h
  rw [at_accepts (raw_at pf h), raw_pos h, hr]
  rfl

/-- C63, for streams that are not read to the end, or fail later: the entries that can be got are those of the beginnings that are
streams. -/
theorem C63_prefix (pf : Profile) {bytes : List U8} {b : Bitstream} (h : Bitstream.fromRaw bytes = .ok b)
    (es : List StreamEntry) : (∃ b', iterate pf es.length b = (es.map .item, b')) ↔
    ∃ pre tail ms k outer, (bitsOf bytes).drop 32 = pre ++ tail ∧ Stream pf toWord Ctx.start [] 32 pre ms k outer ∧
      es = ms.map Entry.toStream := by
  obtain ⟨-, hr⟩ := raw_start h
  have := at_prefix (pf := pf) (raw_at pf h) es
  rw [raw_pos h, hr] at this
  refine Iff.trans ?_ this
  exact ⟨fun ⟨b', h⟩ => ⟨b', gives_of_iterate h⟩, fun ⟨b', h⟩ => ⟨b', h.iterate⟩⟩

/-- C63, failures. After the entries `es` a stream fails (with an error or a panic) exactly if they are those of a beginning that
is a stream, there are bits after it, and no item of the grammar fits there. -/
theorem C63_fails (pf : Profile) {bytes : List U8} {b : Bitstream} (h : Bitstream.fromRaw bytes = .ok b)
    (es : List StreamEntry) :
    (∃ b', iterate pf es.length b = (es.map .item, b') ∧
      ((∃ x, (Bitstream.next pf b').1 = .error x) ∨ ∃ s, (Bitstream.next pf b').1 = .panic s)) ↔
    ∃ pre tail ms k outer, (bitsOf bytes).drop 32 = pre ++ tail ∧ Stream pf toWord Ctx.start [] 32 pre ms k outer ∧
      es = ms.map Entry.toStream ∧ tail ≠ [] ∧
      ∀ i t ms' k' outer', tail = i ++ t → ¬ Item pf toWord k outer (32 + pre.length) i ms' k' outer' := by
  obtain ⟨-, hr⟩ := raw_start h
  rw [← hr]
  have := at_fails (pf := pf) (raw_at pf h) es
  rw [raw_pos h] at this
  refine Iff.trans ?_ this
  constructor
  · rintro ⟨b', h, hf⟩
    exact ⟨b', _, gives_of_iterate h, rfl, hf⟩
  · rintro ⟨b', r, h, rfl, hf⟩
    exact ⟨b', h.iterate, hf⟩

/-- The cursor of a stream that has been opened reads pieces from the first byte of the stream on. -/
theorem piece_at {c : Cursor} (hi : Inv c) (h0 : c.bitIndex = 0) {b : Bitstream} (h : Bitstream.fromCursor c = .ok b) :
    At (pieceGrid c.bytePos c.rest.length) Ctx.start [] b.parser ∧
      (pieceGrid c.bytePos c.rest.length).pos b.parser.cursor = 32 ∧ b.remaining = c.rest.drop 32 := by
  have hrl := rest_length hi
  have hle := tellBit_le hi
  have htb : c.tellBit = c.bytePos * 8 := by simp [tellBit, h0]
  have hp : PieceInv c.bytePos c.rest.length c :=
    ⟨hi, by omega, by omega, fun _ => .inl (by rw [htb, Nat.sub_self]), fun h => absurd h0 h⟩
  unfold Bitstream.fromCursor at h
  split at h
  · cases h
  · cases hr : Cursor.readExact .u32 c with
    | mk o c' =>
      rw [hr] at h
      cases o with
      | err => cases h
      | panic => cases h
      | diverge => cases h
      | ok v =>
        cases h
        obtain ⟨bits, ⟨-, -, -, -, hb⟩, hrest, mv⟩ :=
          (exact_readAs (gr := pieceGrid c.bytePos c.rest.length) .u32 32).sound (c := c) hp hr
        have hlen : bits.length = 32 := by rw [hb, bitsOfNat_length]
        have ht : (pieceGrid c.bytePos c.rest.length).pos c' = 32 := by
          rw [mv.tell, hlen]
          show c.tellBit - c.bytePos * 8 + 32 = 32
          omega
        refine ⟨⟨⟨mv.on, rfl, rfl, rfl, fun _ => rfl⟩, by simp⟩, ht, ?_⟩
        rw [remaining_eq, hrest, List.drop_left' hlen]
        rfl

/-- The stream in a wrapper. -/
def Spec.wrappedBytes (bytes : List U8) (w : BitcodeWrapper) : List U8 := (bytes.take (w.size.toNat + 20)).drop w.offset.toNat

theorem wrapped_at (pf : Profile) {bytes : List U8} {w : BitcodeWrapper} {b : Bitstream}
    (h : Bitstream.fromWrapped pf bytes = .ok (w, b)) : ∃ gr : Grid, gr.pad = toPiece (8 * (wrappedBytes bytes w).length) ∧
      At gr Ctx.start [] b.parser ∧ gr.pos b.parser.cursor = 32 ∧ b.remaining = (bitsOf (wrappedBytes bytes w)).drop 32 := by
  rcases fromWrapped_spec pf bytes with ⟨w', -, hs, ho, e⟩ | ⟨w', -, -, e⟩ | ⟨w', -, -, -, e⟩ | ⟨-, e⟩
  · rw [e] at h
    obtain ⟨b', h1, h2⟩ := Out.bind_eq_ok.1 h
    cases h2
    obtain ⟨h3, h4, h5⟩ := piece_at (inv_window hs ho) rfl h1
    rw [rest_window] at h3 h4 h5
    refine ⟨_, ?_, h3, h4, h5⟩
    rw [bitsOf_length]
    rfl
  · rw [e] at h; cases h
  · rw [e] at h; cases h
  · rw [e] at h; cases h

/-- C63, for streams in a wrapper. Their padding goes by pieces of the stream. -/
theorem C63_wrapped (pf : Profile) {bytes : List U8} {w : BitcodeWrapper} {b : Bitstream}
    (h : Bitstream.fromWrapped pf bytes = .ok (w, b)) (es : List StreamEntry) : Delivers pf b es ↔
    ∃ ms k outer, Stream pf (toPiece (8 * (wrappedBytes bytes w).length)) Ctx.start [] 32 ((bitsOf (wrappedBytes bytes w)).drop 32)
      ms k outer ∧ es = ms.map Entry.toStream := by
  obtain ⟨gr, hp, hm, h0, hr⟩ := wrapped_at pf h
  rw [at_accepts hm, hp, h0, hr]

/-- In a stream of whole words this is the padding of streams without a wrapper. -/
theorem toPiece_word {n pos : Nat} (hn : n % 32 = 0) (h : pos ≤ n) : toPiece n pos = toWord pos := by
  unfold toPiece toWord
  split <;> omega

/-- A stream no writer would make: block 8 with its id in two chunks where one would do, with ones as padding and a wrong length,
never closed. -/
def exOdd : List Bool :=
  bitsOfNat 2 1 ++ (rawVbr 8 [8, 0] ++ (rawVbr 4 [3] ++ (List.replicate 10 true ++ bitsOfNat 32 77)))

theorem exOdd_stream (pf : Profile) : Stream pf toWord Ctx.start [] 32 exOdd [.start 8 308] (Ctx.start.enter 8 3) [Ctx.start] := by
  have h : Item pf toWord Ctx.start [] 32 exOdd (if (8 : U64) = 0 then [] else [.start 8 (4 * 77)]) (Ctx.start.enter 8 3) [Ctx.start] :=
    .enter (by rfl) ⟨[8, 0], by simp, by simp, rfl, by rw [if_pos (by decide)]; rfl⟩
      ⟨[3], by simp, by simp, rfl, by rw [if_pos (by decide)]; rfl⟩ (by decide) (by show _ = _; decide) (by omega)
  have := Stream.cons h .nil
  rw [List.append_nil] at this
  exact this

/-- So it can be opened and read. -/
example (pf : Profile) : ∃ b, Bitstream.fromRaw (exMagic ++ pack 8 exOdd) = .ok b ∧
    Delivers pf b [.subBlock { blockId := 8, len := 308 }] := by
  rcases fromCursor_spec (inv_new (exMagic ++ pack 8 exOdd)) with ⟨-, -, v, c', e, -⟩ | ⟨hn, e⟩
  · have e : Bitstream.fromRaw (exMagic ++ pack 8 exOdd) = _ := e
    refine ⟨_, e, (C63_accepts pf e _).2 ⟨[.start 8 308], Ctx.start.enter 8 3, [Ctx.start], ?_, rfl⟩⟩
    rw [show (bitsOf (exMagic ++ pack 8 exOdd)).drop 32 = exOdd by decide]
    exact exOdd_stream pf
  · exact absurd hn (by decide)

/-- A block that is opened and closed, for a stream of 15 bytes: the last piece is of 7 bytes, so the second padding is of 21 bits,
not of 29. -/
def exShort : List Bool :=
  (bitsOfNat 2 1 ++ (rawVbr 8 [8] ++ (rawVbr 4 [3] ++ (List.replicate 18 false ++ bitsOfNat 32 0)))) ++
    ((bitsOfNat 3 0 ++ List.replicate 21 false) ++ [])

/-- It is in a wrapper, at an odd offset, with a byte before it that is not read. -/
def exShortFile : List U8 := Spec.wrapperHeader 0 21 16 7 ++ (0xFF :: (exMagic ++ pack 11 exShort))

theorem exShort_stream (pf : Profile) : Stream pf (toPiece 120) Ctx.start [] 32 exShort [.start 8 0, .finish] Ctx.start [] := by
  have h1 : Item pf (toPiece 120) Ctx.start [] 32 (bitsOfNat 2 1 ++ (rawVbr 8 [8] ++ (rawVbr 4 [3] ++ (List.replicate 18 false ++
      bitsOfNat 32 0)))) (if (8 : U64) = 0 then [] else [.start 8 (4 * 0)]) (Ctx.start.enter 8 3) [Ctx.start] :=
    .enter (by rfl) ⟨[8], by simp, by simp, rfl, by rw [if_pos (by decide)]; rfl⟩
      ⟨[3], by simp, by simp, rfl, by rw [if_pos (by decide)]; rfl⟩ (by decide) (by show _ = _; decide) (by omega)
  have h2 : Item pf (toPiece 120) (Ctx.start.enter 8 3) [Ctx.start] 96 (bitsOfNat 3 0 ++ List.replicate 21 false)
      (Spec.visible (Ctx.start.enter 8 3) .finish) { Ctx.start with info := (Ctx.start.enter 8 3).info } [] :=
    .exit (by rfl) (by show _ = _; decide)
  exact Stream.cons h1 (Stream.cons h2 .nil)

/-- So it can be opened and read. The same stream without a wrapper could not be opened, as it is not of whole words. -/
example (pf : Profile) : ∃ w b, Bitstream.fromWrapped pf exShortFile = .ok (w, b) ∧
    Delivers pf b [.subBlock { blockId := 8, len := 0 }, .endBlock] := by
  rcases C25_wrapped pf exShortFile with ⟨h, -⟩ | ⟨o, s, ho, hs, -, h⟩
  · exact absurd h (by decide)
  · have ho : some 21 = some o := ho
    have hs : some 16 = some s := hs
    cases ho
    cases hs
    rcases h with ⟨h, -⟩ | ⟨-, h, -⟩ | ⟨-, -, h, -⟩ | ⟨-, -, -, h, -⟩ | ⟨-, -, -, w, b, e, -, -, h1, h2, -⟩
    · exact absurd h (by decide)
    · exact absurd h (by decide)
    · exact absurd h (by decide)
    · exact absurd h (by decide)
    · refine ⟨w, b, e, (C63_wrapped pf e _).2 ⟨[.start 8 0, .finish], Ctx.start, [], ?_, rfl⟩⟩
      rw [wrappedBytes, h1, h2]
      rw [show (bitsOf ((exShortFile.take (16 + 20)).drop 21)).drop 32 = exShort by decide +kernel,
        show 8 * ((exShortFile.take (16 + 20)).drop 21).length = 120 by decide +kernel]
      exact exShort_stream pf

/-- No item fits where an abbreviation is used that is not defined: `C63_fails` applies to `exWrong`. -/
example (pf : Profile) (pos : Nat) (t i : List Bool) (ms : List Entry) (k' : Ctx) (outer' : List Ctx)
    (h : bitsOfNat 3 5 ++ t = i ++ []) : ¬ Item pf toWord (Ctx.start.enter 8 3) [Ctx.start] pos i ms k' outer' := by
  have key : ∀ {id : U64} {i' v : List Bool}, idBits (Ctx.start.enter 8 3) id = some i' → bitsOfNat 3 5 ++ t = i' ++ v → id = 5 := by
    intro id i' v hi hb
    obtain ⟨-, -, hlt, rfl⟩ := idBits_iff.1 hi
    have h3 : (Ctx.start.enter 8 3).width.toNat = 3 := rfl
    rw [h3] at hlt hb
    have := List.append_inj_left hb (by simp)
    have := congrArg natOfBits this
    rw [natOfBits_bitsOfNat_of_lt hlt, natOfBits_bitsOfNat_of_lt (by omega)] at this
    exact BitVec.eq_of_toNat_eq this.symm
  rw [List.append_nil] at h
  subst h
  generalize hb : bitsOfNat 3 5 ++ t = b
  intro hi
  cases hi with
  | define hi => exact absurd (key hi hb) (by decide)
  | unabbrev hi => exact absurd (key hi hb) (by decide)
  | «abbrev» hi _ _ hd =>
    rw [key hi hb] at hd
    cases hd
  | enter hi => exact absurd (key hi hb) (by decide)
  | exit hi => exact absurd (key hi hb) (by decide)

/-! ## The grammar is not ambiguous -/

theorem steps_unique {pf : Profile} {p q q' : Parser} {es es' : List StreamEntry} (h : Steps pf p es q) (h' : Steps pf p es' q')
    (hp : PInv p) (ht : q.cursor.tellBit = q'.cursor.tellBit) : es = es' := by
  have mono : ∀ {p q : Parser} {es : List StreamEntry}, Steps pf p es q → PInv p → p.cursor.tellBit ≤ q.cursor.tellBit := by
    intro p q es h hp
    induction h with
    | nil => exact Nat.le_refl _
    | hidden h _ ih =>
      have hs := pgood_step (pf := pf) _ hp
      rw [h] at hs
      exact Nat.le_trans hs.mono (ih hs.inv)
    | emit h _ ih =>
      have hs := pgood_step (pf := pf) _ hp
      rw [h] at hs
      exact Nat.le_trans hs.mono (ih hs.inv)
  have strict : ∀ {p p' q : Parser} {r : Option StreamEntry} {es : List StreamEntry}, Parser.step pf p = (.ok r, p') →
      Steps pf p' es q → PInv p → p.cursor.tellBit < q.cursor.tellBit := by
    intro p p' q r es h hs hp
    have hg := pgood_step (pf := pf) _ hp
    rw [h] at hg
    exact Nat.lt_of_lt_of_le (hg.eats _ rfl) (mono hs hg.inv)
  induction h generalizing es' with
  | nil p =>
    cases h' with
    | nil => rfl
    | hidden h hs => exact absurd ht (Nat.ne_of_lt (strict h hs hp))
    | emit h hs => exact absurd ht (Nat.ne_of_lt (strict h hs hp))
  | hidden h hs ih =>
    have hg := (pgood_step (pf := pf) _ hp).inv
    rw [h] at hg
    cases h' with
    | nil => exact absurd ht.symm (Nat.ne_of_lt (strict h hs hp))
    | hidden h₂ hs₂ =>
      rw [h] at h₂
      cases h₂
      exact ih hs₂ hg ht
    | emit h₂ hs₂ => rw [h] at h₂; cases h₂
  | emit h hs ih =>
    have hg := (pgood_step (pf := pf) _ hp).inv
    rw [h] at hg
    cases h' with
    | nil => exact absurd ht.symm (Nat.ne_of_lt (strict h hs hp))
    | hidden h₂ hs₂ => rw [h] at h₂; cases h₂
    | emit h₂ hs₂ =>
      rw [h] at h₂
      cases h₂
      rw [ih hs₂ hg ht]

theorem delivers_unique {pf : Profile} {es es' : List StreamEntry} : ∀ {b : Bitstream}, Delivers pf b es → Delivers pf b es' →
    es = es' := by
  induction es generalizing es' with
  | nil =>
    rintro b ⟨b₁, h, -⟩ h'
    cases es' with
    | nil => rfl
    | cons e es' => obtain ⟨b₂, h', -⟩ := h'; rw [h] at h'; cases h'
  | cons e es ih =>
    rintro b ⟨b₁, h, hd⟩ h'
    cases es' with
    | nil => obtain ⟨b₂, h', -⟩ := h'; rw [h] at h'; cases h'
    | cons e' es' =>
      obtain ⟨b₂, h', hd'⟩ := h'
      rw [h] at h'
      cases h'
      rw [ih hd hd']

/-- C63, continued. With the padding of streams in a wrapper the grammar is not ambiguous either. -/
theorem C63_unambiguous_wrapped (pf : Profile) {bytes : List U8} {w : BitcodeWrapper} {b : Bitstream}
    (h : Bitstream.fromWrapped pf bytes = .ok (w, b)) {ms ms' : List Entry} {k k' : Ctx} {outer outer' : List Ctx} :
    let pad := toPiece (8 * (wrappedBytes bytes w).length)
    let bits := (bitsOf (wrappedBytes bytes w)).drop 32
    Stream pf pad Ctx.start [] 32 bits ms k outer → Stream pf pad Ctx.start [] 32 bits ms' k' outer' →
    ms.map Entry.toStream = ms'.map Entry.toStream :=
  fun h1 h2 => delivers_unique ((C63_wrapped pf h _).2 ⟨ms, k, outer, h1, rfl⟩) ((C63_wrapped pf h _).2 ⟨ms', k', outer', h2, rfl⟩)

/-- C63, continued. The grammar is not ambiguous: a bit string is a stream in at most one way, so no stream could be read as
something else. -/
theorem C63_unambiguous (pf : Profile) {bits : List Bool} {ms ms' : List Entry} {k k' : Ctx} {outer outer' : List Ctx}
    (h : Stream pf toWord Ctx.start [] 32 bits ms k outer) (h' : Stream pf toWord Ctx.start [] 32 bits ms' k' outer') :
    ms.map Entry.toStream = ms'.map Entry.toStream := by
  let n := (bits.length + 31) / 32
  let pad := bits ++ List.replicate (32 * n - bits.length) false
  let bytes : List U8 := [0, 0, 0, 0] ++ pack (4 * n) pad
  have hpad : pad.length = 8 * (4 * n) := by simp [pad, n]; omega
  have hbits : bitsOf bytes = List.replicate 32 false ++ pad := by
    show bitsOf ([0, 0, 0, 0] ++ pack (4 * n) pad) = _
    rw [bitsOf_append, bitsOf_pack hpad]
    rfl
  have hl : bytes.length = 4 + 4 * n := by simp [bytes, pack_length]; omega
  rcases fromCursor_spec (inv_new bytes) with ⟨-, -, v, c', e, -⟩ | ⟨hn, e⟩
  · have hb : Bitstream.fromRaw bytes = .ok ⟨v, Parser.new c'⟩ := e
    obtain ⟨hp, hr⟩ := raw_start hb
    have hm := raw_at pf hb
    rw [hbits, List.drop_left' (by simp)] at hr
    obtain ⟨q, st, -, -, ht⟩ := h.steps hm hp hr
    obtain ⟨q', st', -, -, ht'⟩ := h'.steps hm hp hr
    exact steps_unique st st' hm.toMatch.pinv (by
      have ht : q.cursor.tellBit = _ := ht
      have ht' : q'.cursor.tellBit = _ := ht'
      rw [ht, ht'])
  · exfalso
    rcases hn with hn | hn
    · have : (Cursor.new bytes).byteLen = bytes.length := rfl
      omega
    · rw [rest_new, bitsOf_length, hl] at hn
      omega

/-- C63, continued. What a bitstream writer writes is in the grammar, and stands there for what was written. -/
theorem C63_written (pf : Profile) {magic : U32} {its : Items} {bytes : List U8} {es : List Entry}
    (h : streamBytes magic its = some (bytes, es)) : ∃ ms k outer,
      Stream pf toWord Ctx.start [] 32 ((bitsOf bytes).drop 32) ms k outer ∧ ms.map Entry.toStream = es.map Entry.toStream := by
  obtain ⟨b, hb, -, hd⟩ := C18_stream_roundtrip pf h
  obtain ⟨ms, k, outer, hs, he⟩ := (C63_accepts pf hb _).1 hd
  exact ⟨ms, k, outer, hs, he.symm⟩

end Verif
