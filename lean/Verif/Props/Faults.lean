import Verif.Bitstream.ItemFaults
import Verif.Props.Grammar

/-!
# C66: how a stream that cannot be read on fails
-/

set_option linter.unusedSimpArgs false

namespace Verif
open Spec Cursor Parser Props

/-- The failure, as the result of a call of `next`. -/
def Spec.Failure.asNext : Failure → Bitstream.Next
  | .error e => .error e
  | .panic s => .panic s

theorem asNext_inj {f f' : Failure} (h : f.asNext = f'.asNext) : f = f' := by
  cases f <;> cases f' <;> simp_all [Failure.asNext]

theorem failing_unique {α : Type} {o : Out BErr α} {f f' : Failure} (h : o.Failing f) (h' : o.Failing f') : f = f' := by
  cases o with
  | ok => exact absurd h failing_ok
  | diverge => exact absurd h failing_div
  | err => rw [failing_err] at h h'; rw [h, h']
  | panic => rw [failing_panic] at h h'; rw [h, h']

/-- A round that fails before the end of the data makes `next` fail. -/
theorem next_failing {pf : Profile} {m : U64} {q : Parser} (hp : PInv q) (hx : q.cursor.exhausted = false) {f : Failure}
    (h : (Parser.step pf q).1.Failing f) : (Bitstream.next pf ⟨m, q⟩).1 = f.asNext := by
  have hms := step_measure (pf := pf) hp
  match hs : Parser.step pf q with
  | (.ok r, q') => rw [hs] at h; exact absurd h failing_ok
  | (.diverge, q') => rw [hs] at h; exact absurd h failing_div
  | (.err x, q') =>
    rw [hs] at h
    rw [failing_err] at h
    subst h
    have hne : x ≠ .exhausted := by
      rcases hms with ⟨h1, -⟩ | ⟨-, h2, -⟩
      · rw [hx] at h1; cases h1
      · rintro rfl
        rw [hs] at h2
        exact h2 rfl
    rw [next_of_step_err (b := ⟨m, q⟩) hp hne hs]
    rfl
  | (.panic x, q') =>
    rw [hs] at h
    rw [failing_panic] at h
    subst h
    unfold Bitstream.next Bitstream.advance
    rw [advance_unfold hp, hs]
    rfl

/-- A round before the end of the data that does not succeed fails. -/
theorem step_some_failing {pf : Profile} {q : Parser} (hp : PInv q) (h : ∀ r p', Parser.step pf q ≠ (.ok r, p')) :
    ∃ f, (Parser.step pf q).1.Failing f := by
  have hg := pgood_step (pf := pf) q hp
  match hs : Parser.step pf q with
  | (.ok r, q') => exact absurd hs (h r q')
  | (.diverge, q') => rw [hs] at hg; exact absurd rfl hg.nodiv
  | (.err x, q') => exact ⟨.error x, rfl⟩
  | (.panic x, q') => exact ⟨.panic x, rfl⟩

section
variable {gr : Grid} {pf : Profile} {b : Bitstream} {k : Ctx} {outer : List Ctx}

theorem at_faults (hm : At gr k outer b.parser) (es : List StreamEntry) (f : Failure) :
    (∃ b', Gives pf b es b' ∧ (Bitstream.next pf b').1 = f.asNext) ↔
    ∃ pre tail ms k' outer', b.remaining = pre ++ tail ∧ Stream pf gr.pad k outer (gr.pos b.parser.cursor) pre ms k' outer' ∧
      es = ms.map Entry.toStream ∧ NoItem pf gr.pad k' outer' (gr.pos b.parser.cursor + pre.length) tail f := by
  have hp : PInv b.parser := hm.toMatch.pinv
  rw [remaining_eq]
  constructor
  · rintro ⟨b', h, hr⟩
    obtain ⟨st, hp'⟩ := h.steps hp
    obtain ⟨q, hq, h⟩ := next_steps (pf := pf) hp'
    have hnx : Bitstream.next pf b' = Bitstream.next pf ⟨b'.magic, q⟩ := steps_nil_next hq hp' b'.magic
    have hnf : ∀ e, f.asNext ≠ .item e := by cases f <;> simp [Failure.asNext]
    have hnd : f.asNext ≠ .done := by cases f <;> simp [Failure.asNext]
    rcases h with ⟨e', p', hs, h⟩ | ⟨hx, h⟩ | ⟨hx, hno, -⟩
    · rw [h] at hr
      exact absurd hr.symm (hnf _)
    · rw [h] at hr
      exact absurd hr.symm hnd
    · have st' := st.trans hq
      rw [List.append_nil] at st'
      obtain ⟨bits, ms, k', outer', hs, rfl, ha⟩ := st'.sound hm
      obtain ⟨f', hf'⟩ := step_some_failing ha.at_.toMatch.pinv hno
      have e := next_failing (m := b'.magic) ha.at_.toMatch.pinv hx hf'
      rw [← hnx, hr] at e
      obtain rfl := asNext_inj e
      refine ⟨bits, _, ms, k', outer', ha.rest, hs, rfl, ?_⟩
      rcases (step_fails ha.at_ f).1 hf' with ⟨h0, -⟩ | h
      · rw [(exhausted_iff_rest (gr.inv ha.at_.on)).2 h0] at hx
        cases hx
      · rw [ha.tell] at h
        exact h
  · rintro ⟨pre, tail, ms, k', outer', hr, hs, rfl, hno⟩
    obtain ⟨q, st, ha, hrq, ht⟩ := hs.steps hm rfl hr
    obtain ⟨p', hg, hst, hp'⟩ := st.gives hp b.magic
    refine ⟨_, hg, ?_⟩
    rw [steps_nil_next hst hp']
    have hne : tail ≠ [] := by
      rintro rfl
      rcases noItem_iff.1 hno with ⟨h, -⟩ | ⟨id, i, t, hb, hi, -⟩
      · exact h rfl
      · obtain ⟨h1, -, -, rfl⟩ := idBits_iff.1 hi
        have := congrArg List.length hb
        simp at this
        omega
    have hx : q.cursor.exhausted = false := by
      have : ¬ q.cursor.exhausted = true := by
        rw [exhausted_iff_rest (gr.inv ha.on), hrq]
        exact hne
      simpa using this
    refine next_failing ha.toMatch.pinv hx ((step_fails ha f).2 (.inr ?_))
    rw [hrq, ht]
    exact hno

/-- At the end of a stream: nothing is left, or an item follows, or exactly one failure; never two of these. -/
theorem at_cases (hm : At gr k outer b.parser) {pre tail : List Bool} {ms : List Entry} {k' : Ctx} {outer' : List Ctx}
    (hr : b.remaining = pre ++ tail) (hs : Stream pf gr.pad k outer (gr.pos b.parser.cursor) pre ms k' outer') :
    let fits := ∃ i t es k'' outer'', tail = i ++ t ∧ Item pf gr.pad k' outer' (gr.pos b.parser.cursor + pre.length) i es k'' outer''
    let fails := fun f => NoItem pf gr.pad k' outer' (gr.pos b.parser.cursor + pre.length) tail f
    (tail = [] ∧ ¬ fits ∧ ¬ ∃ f, fails f) ∨ (tail ≠ [] ∧ fits ∧ ¬ ∃ f, fails f) ∨
      (tail ≠ [] ∧ ¬ fits ∧ ∃ f, fails f ∧ ∀ f', fails f' → f' = f) := by
  intro fits fails
  rw [remaining_eq] at hr
  obtain ⟨q, st, ha, hrq, ht⟩ := hs.steps hm rfl hr
  have hfits : fits ↔ ∃ r p', Parser.step pf q = (.ok r, p') := by
    constructor
    · rintro ⟨i, t, es, k'', outer'', hb, hi⟩
      have ht' : gr.pos q.cursor = (gr.pos b.parser.cursor) + pre.length := ht
      rw [← ht'] at hi
      obtain ⟨q', e, -⟩ := step_complete ha hi (hrq.trans hb)
      exact ⟨_, _, e⟩
    · rintro ⟨r, p', e⟩
      obtain ⟨i, es, k'', outer'', hi, -, ha'⟩ := step_sound ha e
      have ht' : gr.pos q.cursor = (gr.pos b.parser.cursor) + pre.length := ht
      rw [ht'] at hi
      exact ⟨i, _, es, k'', outer'', by rw [← hrq]; exact ha'.rest, hi⟩
  have hfails : ∀ f, (Parser.step pf q).1.Failing f ↔ tail = [] ∧ f = .error .exhausted ∨ fails f := by
    intro f
    have := step_fails (pf := pf) ha f
    rw [hrq, ht] at this
    exact this
  by_cases h0 : tail = []
  · have hx : q.cursor.exhausted = true := by rw [exhausted_iff_rest (gr.inv ha.on), hrq]; exact h0
    have hst := step_exhausted (pf := pf) hx
    refine .inl ⟨h0, ?_, ?_⟩
    · rw [hfits, hst]
      rintro ⟨_, _, h⟩
      cases h
    · rintro ⟨f, h⟩
      rcases noItem_iff.1 h with ⟨h, -⟩ | ⟨id, i, t, hb, hi, -⟩
      · exact h h0
      · obtain ⟨h1, -, -, rfl⟩ := idBits_iff.1 hi
        have := congrArg List.length hb
        rw [h0] at this
        simp at this
        omega
  · by_cases hf : fits
    · refine .inr (.inl ⟨h0, hf, ?_⟩)
      rintro ⟨f, h⟩
      obtain ⟨r, p', e⟩ := hfits.1 hf
      have := (hfails f).2 (.inr h)
      rw [e] at this
      exact absurd this failing_ok
    · refine .inr (.inr ⟨h0, hf, ?_⟩)
      obtain ⟨f, h⟩ := step_some_failing (pf := pf) ha.toMatch.pinv (fun r p' e => hf (hfits.2 ⟨r, p', e⟩))
      refine ⟨f, ?_, fun f' h' => failing_unique ((hfails f').2 (.inr h')) h⟩
      rcases (hfails f).1 h with ⟨h1, -⟩ | h1
      · exact absurd h1 h0
      · exact h1

end

/-- C66. After the entries `es` a bare stream fails with `f` exactly if the entries are those of a beginning that is a stream, and
after it the bits are wrong in the way `f` reports. -/
theorem C66_fails (pf : Profile) {bytes : List U8} {b : Bitstream} (h : Bitstream.fromRaw bytes = .ok b)
    (es : List StreamEntry) (f : Failure) :
    (∃ b', iterate pf es.length b = (es.map .item, b') ∧ (Bitstream.next pf b').1 = f.asNext) ↔
    ∃ pre tail ms k outer, (bitsOf bytes).drop 32 = pre ++ tail ∧ Stream pf toWord Ctx.start [] 32 pre ms k outer ∧
      es = ms.map Entry.toStream ∧ NoItem pf toWord k outer (32 + pre.length) tail f := by
  obtain ⟨-, hr⟩ := raw_start h
  have := at_faults (pf := pf) (raw_at pf h) es f
  rw [raw_pos h, hr] at this
  refine Iff.trans ?_ this
  exact ⟨fun ⟨b', h, hf⟩ => ⟨b', gives_of_iterate h, hf⟩, fun ⟨b', h, hf⟩ => ⟨b', h.iterate, hf⟩⟩

/-- C66, for streams in a wrapper. -/
theorem C66_wrapped (pf : Profile) {bytes : List U8} {w : BitcodeWrapper} {b : Bitstream}
    (h : Bitstream.fromWrapped pf bytes = .ok (w, b)) (es : List StreamEntry) (f : Failure) :
    let pad := toPiece (8 * (wrappedBytes bytes w).length)
    (∃ b', iterate pf es.length b = (es.map .item, b') ∧ (Bitstream.next pf b').1 = f.asNext) ↔
    ∃ pre tail ms k outer, (bitsOf (wrappedBytes bytes w)).drop 32 = pre ++ tail ∧ Stream pf pad Ctx.start [] 32 pre ms k outer ∧
      es = ms.map Entry.toStream ∧ NoItem pf pad k outer (32 + pre.length) tail f := by
  obtain ⟨gr, hp, hm, h0, hr⟩ := wrapped_at pf h
  have := at_faults (pf := pf) hm es f
  rw [hp, h0, hr] at this
  refine Iff.trans ?_ this
  exact ⟨fun ⟨b', h, hf⟩ => ⟨b', gives_of_iterate h, hf⟩, fun ⟨b', h, hf⟩ => ⟨b', h.iterate, hf⟩⟩

/-- C66, continued. After any beginning that is a stream the data ends, or an item follows, or exactly one failure is to be reported;
and no two of these: the specification of failures is complete, is not ambiguous and does not contradict the grammar. -/
theorem C66_cases (pf : Profile) {bytes : List U8} {b : Bitstream} (h : Bitstream.fromRaw bytes = .ok b)
    {pre tail : List Bool} {ms : List Entry} {k : Ctx} {outer : List Ctx} (hb : (bitsOf bytes).drop 32 = pre ++ tail)
    (hs : Stream pf toWord Ctx.start [] 32 pre ms k outer) :
    let fits := ∃ i t es k' outer', tail = i ++ t ∧ Item pf toWord k outer (32 + pre.length) i es k' outer'
    let fails := fun f => NoItem pf toWord k outer (32 + pre.length) tail f
    (tail = [] ∧ ¬ fits ∧ ¬ ∃ f, fails f) ∨ (tail ≠ [] ∧ fits ∧ ¬ ∃ f, fails f) ∨
      (tail ≠ [] ∧ ¬ fits ∧ ∃ f, fails f ∧ ∀ f', fails f' → f' = f) := by
  obtain ⟨-, hr⟩ := raw_start h
  have := at_cases (pf := pf) (raw_at pf h) (hr.trans hb) (by rw [raw_pos h]; exact hs)
  rw [raw_pos h] at this
  exact this

theorem item_nonempty {pf : Profile} {pad : Nat → Nat} {k k' : Ctx} {outer outer' : List Ctx} {pos : Nat} {i : List Bool} {es : List Entry}
    (h : Item pf pad k outer pos i es k' outer') : i ≠ [] := by
  have key : ∀ {id : U64} {i b : List Bool}, idBits k id = some i → i ++ b ≠ [] := by
    intro id i b hi h
    obtain ⟨h1, -, -, rfl⟩ := idBits_iff.1 hi
    have := congrArg List.length h
    simp at this
    omega
  cases h with
  | define hi => exact key hi
  | unabbrev hi => exact key hi
  | «abbrev» hi => exact key hi
  | enter hi => exact key hi
  | exit hi => exact key hi

theorem Spec.Stream.snoc {pf : Profile} {pad : Nat → Nat} {k k' k'' : Ctx} {outer outer' outer'' : List Ctx} {pos : Nat}
    {b i : List Bool} {es es' : List Entry}
    (h : Stream pf pad k outer pos b es k' outer') (hi : Item pf pad k' outer' (pos + b.length) i es' k'' outer'') :
    Stream pf pad k outer pos (b ++ i) (es ++ es') k'' outer'' := by
  induction h with
  | nil =>
    have := Stream.cons hi .nil
    simpa using this
  | cons h _ ih =>
    rw [List.append_assoc, List.append_assoc]
    exact .cons h (ih (by rw [Nat.add_assoc, ← List.length_append]; exact hi))

theorem gives_fail_unique {pf : Profile} {b b₁ b₂ : Bitstream} {es es' : List StreamEntry} {f f' : Failure} (h : Gives pf b es b₁)
    (h' : Gives pf b es' b₂) (hf : (Bitstream.next pf b₁).1 = f.asNext) (hf' : (Bitstream.next pf b₂).1 = f'.asNext) :
    es = es' ∧ f = f' := by
  have hni : ∀ (f : Failure) e, f.asNext ≠ .item e := by intro f; cases f <;> simp [Failure.asNext]
  induction h generalizing es' with
  | nil b =>
    cases h' with
    | nil => exact ⟨rfl, asNext_inj (hf.symm.trans hf')⟩
    | cons h _ => rw [h] at hf; exact absurd hf.symm (hni _ _)
  | cons h hs ih =>
    cases h' with
    | nil => rw [h] at hf'; exact absurd hf'.symm (hni _ _)
    | cons h₂ hs₂ =>
      rw [h] at h₂
      cases h₂
      obtain ⟨e1, e2⟩ := ih hs₂ hf
      exact ⟨by rw [e1], e2⟩

theorem delivers_no_fail {pf : Profile} {b b₁ : Bitstream} {es es' : List StreamEntry} {f : Failure} (hd : Delivers pf b es)
    (h : Gives pf b es' b₁) (hf : (Bitstream.next pf b₁).1 = f.asNext) : False := by
  have hni : ∀ (f : Failure) e, f.asNext ≠ .item e := by intro f; cases f <;> simp [Failure.asNext]
  have hnd : ∀ (f : Failure), f.asNext ≠ .done := by intro f; cases f <;> simp [Failure.asNext]
  induction h generalizing es with
  | nil b =>
    cases es with
    | nil => obtain ⟨b', h, -⟩ := hd; rw [h] at hf; exact hnd _ hf.symm
    | cons e es => obtain ⟨b', h, -⟩ := hd; rw [h] at hf; exact hni _ _ hf.symm
  | cons h hs ih =>
    cases es with
    | nil => obtain ⟨b', h₂, -⟩ := hd; rw [h] at h₂; cases h₂
    | cons e es => obtain ⟨b', h₂, hd⟩ := hd; rw [h] at h₂; cases h₂; exact ih hd hf

/-- The parser of an opened stream is at its start. -/
theorem opened_at {pf : Profile} {b : Bitstream} (h : Opened pf b) : ∃ gr, At gr Ctx.start [] b.parser := by
  have wr : ∀ {bytes : List U8} {w : BitcodeWrapper} {b : Bitstream}, Bitstream.fromWrapped pf bytes = .ok (w, b) →
      ∃ gr, At gr Ctx.start [] b.parser := fun h => by
    obtain ⟨gr, -, hm, -⟩ := wrapped_at pf h
    exact ⟨gr, hm⟩
  cases h with
  | raw h => exact ⟨_, raw_at pf h⟩
  | wrapped h => exact wr h
  | @auto bytes w b h =>
    rcases from_spec pf bytes with ⟨-, e⟩ | ⟨-, -, e⟩ | ⟨-, -, e⟩
    · rw [e] at h; cases h
    · rw [e] at h
      obtain ⟨⟨w', b'⟩, h1, h2⟩ := Out.bind_eq_ok.1 h
      cases h2
      exact wr h1
    · rw [e] at h
      obtain ⟨b', h1, h2⟩ := Out.bind_eq_ok.1 h
      cases h2
      exact ⟨_, raw_at pf h1⟩

/-- C66, continued. Every stream that can be opened is read to the end or fails, never both; and if it fails, the entries before
the first failure and the failure are determined. -/
theorem C66_verdict (pf : Profile) {b : Bitstream} (h : Opened pf b) :
    let fails := fun (es : List StreamEntry) (f : Failure) =>
      ∃ b', iterate pf es.length b = (es.map .item, b') ∧ (Bitstream.next pf b').1 = f.asNext
    ((∃ es, Delivers pf b es) ∧ ¬ ∃ es f, fails es f) ∨
    ((¬ ∃ es, Delivers pf b es) ∧ ∃ es f, fails es f ∧ ∀ es' f', fails es' f' → es' = es ∧ f' = f) := by
  intro fails
  obtain ⟨gr, hm⟩ := opened_at h
  have hg : ∀ {es f}, fails es f → ∃ b', Gives pf b es b' ∧ (Bitstream.next pf b').1 = f.asNext :=
    fun ⟨b', h, hf⟩ => ⟨b', gives_of_iterate h, hf⟩
  have key : ∀ (n : Nat) (pre tail : List Bool) (ms : List Entry) (k : Ctx) (outer : List Ctx), tail.length = n →
      b.remaining = pre ++ tail → Stream pf gr.pad Ctx.start [] (gr.pos b.parser.cursor) pre ms k outer →
      (∃ es, Delivers pf b es) ∨ ∃ es f, fails es f := by
    intro n
    induction n using Nat.strongRecOn with
    | _ n ih =>
      intro pre tail ms k outer hn hb hs
      rcases at_cases hm hb hs with ⟨rfl, -⟩ | ⟨-, ⟨i, t, es', k', outer', rfl, hi⟩, -⟩ | ⟨-, -, f, hf, -⟩
      · rw [List.append_nil] at hb
        exact .inl ⟨_, (at_accepts hm _).2 ⟨ms, k, outer, by rw [hb]; exact hs, rfl⟩⟩
      · have hne := List.length_pos_iff.2 (item_nonempty hi)
        rw [List.length_append] at hn
        exact ih t.length (by omega) (pre ++ i) t (ms ++ es') k' outer' rfl (by rw [hb, List.append_assoc]) (hs.snoc hi)
      · obtain ⟨b', hg, hf⟩ := (at_faults hm _ f).2 ⟨pre, tail, ms, k, outer, hb, hs, rfl, hf⟩
        exact .inr ⟨_, f, b', hg.iterate, hf⟩
  rcases key _ [] _ [] _ _ rfl rfl .nil with ⟨es, hd⟩ | ⟨es, f, hf⟩
  · refine .inl ⟨⟨es, hd⟩, ?_⟩
    rintro ⟨es', f, hf⟩
    obtain ⟨b', hgv, hf⟩ := hg hf
    exact delivers_no_fail hd hgv hf
  · obtain ⟨b', hgv, hf'⟩ := hg hf
    refine .inr ⟨?_, es, f, hf, ?_⟩
    · rintro ⟨es', hd⟩
      exact delivers_no_fail hd hgv hf'
    · intro es' f' h'
      obtain ⟨b₂, hg₂, hf₂⟩ := hg h'
      obtain ⟨e1, e2⟩ := gives_fail_unique hg₂ hgv hf₂ hf'
      exact ⟨e1, e2⟩

/-! ## Examples -/

/-- A record of which five fields are announced and two are there. -/
def exCut : List Bool :=
  exOdd ++ (bitsOfNat 3 3 ++ (bitsOfNat 6 7 ++ (bitsOfNat 6 5 ++ (bitsOfNat 6 1 ++ (bitsOfNat 6 2 ++ [true, false, true, true, false])))))

theorem vbr_one (pf : Profile) {w : Nat} {v : U64} (h : v.toNat < 2 ^ (w - 1)) : IsVbr pf w v (bitsOfNat w v.toNat) := by
  refine ⟨[v.toNat], by simp, by simpa using h, rfl, ?_⟩
  rw [if_pos (by simp)]
  simp [chunksValue]

theorem exCut_stuck (pf : Profile) : NoItem pf toWord (Ctx.start.enter 8 3) [Ctx.start] (32 + exOdd.length)
    (bitsOfNat 3 3 ++ (bitsOfNat 6 7 ++ (bitsOfNat 6 5 ++ (bitsOfNat 6 1 ++ (bitsOfNat 6 2 ++ [true, false, true, true, false])))))
    (.error (.cursor .short)) :=
  .fields rfl (by rfl) (by decide) (vbr_one pf (v := 7) (by decide)) (.counted rfl (vbr_one pf (v := 5) (by decide)) (by decide)
    ⟨[1, 2], bitsOfNat 6 1 ++ bitsOfNat 6 2, [true, false, true, true, false], by simp, by decide,
      ⟨_, _, rfl, vbr_one pf (v := 1) (by decide), _, [], (List.append_nil _).symm, vbr_one pf (v := 2) (by decide), rfl⟩,
      .cut (xs := []) (by omega) (by omega) (by simp) (by simp) rfl (.cut (by omega) (by omega) (by simp) (by decide))⟩)

/-- So after the start of the block the reader reports that the data is short. -/
example (pf : Profile) : ∃ b, Bitstream.fromRaw (exMagic ++ pack 12 exCut) = .ok b ∧
    ∃ b', iterate pf 1 b = ([.item (.subBlock { blockId := 8, len := 308 })], b') ∧
      (Bitstream.next pf b').1 = .error (.cursor .short) := by
  rcases fromCursor_spec (inv_new (exMagic ++ pack 12 exCut)) with ⟨-, -, v, c', e, -⟩ | ⟨hn, e⟩
  · have e : Bitstream.fromRaw (exMagic ++ pack 12 exCut) = _ := e
    refine ⟨_, e, (C66_fails pf e [.subBlock { blockId := 8, len := 308 }] (.error (.cursor .short))).2
      ⟨exOdd, _, [.start 8 308], Ctx.start.enter 8 3, [Ctx.start], ?_, exOdd_stream pf, rfl, exCut_stuck pf⟩⟩
    clear e; decide +kernel
  · exact absurd hn (by clear hn e; decide +kernel)

/-- With overflow checks the fourteenth chunk of a VBR6 integer is one too many. -/
example : NoVbr .debug 6 (begun 6 (List.replicate 13 0) ++ bitsOfNat 6 1) (.panic .vbrShift) :=
  .overlong (xs := List.replicate 13 0) (last := bitsOfNat 6 1) (tail := []) (by omega) (by omega) (by decide) rfl (by decide)
    (by decide) (by decide) (by simp)

/-- A definition of one operand that is an array: what is subtracted is too much. -/
example (tail : List Bool) : NoDef .debug (bitsOfNat 5 1 ++ (false :: (bitsOfNat 3 3 ++ tail))) (.panic .abbrevArraySub) :=
  .operand (num := 1) (ss := []) (s := []) rfl (vbr_one .debug (v := 1) (by decide)) rfl (by decide)
    (.encoding rfl (.other rfl (.inl rfl) (.inl ⟨rfl, .inl ⟨rfl, rfl, rfl⟩⟩)))

/-- Without overflow checks it is an error. -/
example (tail : List Bool) : NoDef .release (bitsOfNat 5 1 ++ (false :: (bitsOfNat 3 3 ++ tail))) (.error (.abbrevParse .arrayIndex)) :=
  .operand (num := 1) (ss := []) (s := []) rfl (vbr_one .release (v := 1) (by decide)) rfl (by decide)
    (.encoding rfl (.other rfl (.inl rfl) (.inl ⟨rfl, .inr (.inl ⟨fun _ => rfl, by decide, rfl⟩)⟩)))

/-! ## Definitions of abbreviations -/

namespace Props

/-- C15, in full for cursors on words, as the reader of streams has them: an abbreviation is accepted exactly if the bits define it. -/
theorem C15_exact (pf : Profile) {pf' : Profile} {c : Cursor} (h : WordReachable pf' c) (a : Abbrev) :
    (∃ c', Abbrev.new pf c = (.ok a, c')) ↔
      ∃ (d : Def) (b tail : List Bool), (bitsOf (c.inner.take c.byteLen)).drop c.tellBit = b ++ tail ∧ d.IsDef pf b ∧ a = d.abbrev := by
  have hx := exact_abbrevNew (gr := wordGrid) pf
  constructor
  · rintro ⟨c', e⟩
    obtain ⟨b, ⟨d, h1, h2⟩, h3, -⟩ := hx.sound h.winv e
    exact ⟨d, b, _, h3, h2, h1⟩
  · rintro ⟨d, b, tail, h1, h2, rfl⟩
    obtain ⟨c', e, -⟩ := hx.complete (tail := tail) h.winv ⟨d, rfl, h2⟩ h1
    exact ⟨c', e⟩

/-- C15, continued: and otherwise which error, or panic, there is. -/
theorem C15_fails (pf : Profile) {pf' : Profile} {c : Cursor} (h : WordReachable pf' c) :
    (∀ e, (Abbrev.new pf c).1 = .err e ↔ NoDef pf ((bitsOf (c.inner.take c.byteLen)).drop c.tellBit) (.error e)) ∧
    ∀ s, (Abbrev.new pf c).1 = .panic s ↔ NoDef pf ((bitsOf (c.inner.take c.byteLen)).drop c.tellBit) (.panic s) := by
  have hf := fails_abbrevNew (gr := wordGrid) pf c h.winv
  exact ⟨fun e => hf (.error e), fun s => hf (.panic s)⟩

/-- One operand that is an array; and one that is the literal 5. -/
example : NoDef .debug (bitsOf [0xC1, 0, 0, 0]) (.panic .abbrevArraySub) ∧ NoDef .release (bitsOf [0xC1, 0, 0, 0]) (.error (.abbrevParse .arrayIndex)) :=
  ⟨((C15_fails .debug (.new (pf := .debug) (buf := [0xC1, 0, 0, 0]) rfl)).2 _).1 (by decide),
    ((C15_fails .release (.new (pf := .debug) (buf := [0xC1, 0, 0, 0]) rfl)).1 _).1 (by decide)⟩

example (pf : Profile) : ∃ c', Abbrev.new pf (Cursor.new [0x61, 1, 0, 0]) = (.ok { operands := [.literal 5] }, c') :=
  (C15_exact pf (.new (pf := .debug) (buf := [0x61, 1, 0, 0]) rfl) _).2
    ⟨{ scalars := [.lit 5], tail := .nothing }, rawVbr 5 [1] ++ (true :: rawVbr 8 [5]), List.replicate 18 false, by decide,
      ⟨⟨by decide, by decide⟩, _, _, [], by simp, ⟨[1], by simp, by simp, rfl, by simp [chunksValue]; rfl⟩,
        ⟨_, [], (List.append_nil _).symm, ⟨_, rfl, [5], by simp, by simp, rfl, by simp [chunksValue]⟩, rfl⟩, rfl⟩, rfl⟩

end Props

end Verif
