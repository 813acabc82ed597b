import Verif.Mapper.JoinSpec
import Verif.Props.Bytes
import Verif.Props.Reports

/-!
# Streams one after the other

A stream means the same at all positions with the same padding, and streams can be put one after the other.
-/

namespace Verif

open Spec

/-! ## Positions -/

/-- The padding is the same at `n` bits from two positions. -/
def SamePad (pad pad' : Nat → Nat) (pos pos' n : Nat) : Prop := ∀ i, i ≤ n → pad (pos + i) = pad' (pos' + i)

theorem SamePad.skip {pad pad' : Nat → Nat} {pos pos' n : Nat} (h : SamePad pad pad' pos pos' n) {j m : Nat} (hm : j + m ≤ n) :
    SamePad pad pad' (pos + j) (pos' + j) m := by
  intro i hi
  rw [Nat.add_assoc, Nat.add_assoc]
  exact h (j + i) (by omega)

theorem SamePad.isPad {pad pad' : Nat → Nat} {pos pos' n : Nat} (h : SamePad pad pad' pos pos' n) {j : Nat} (hj : j ≤ n)
    {b : List Bool} (hb : IsPad pad (pos + j) b) : IsPad pad' (pos' + j) b := by
  unfold IsPad at hb ⊢
  rw [hb]
  exact h j hj

theorem tail_shift {pf : Profile} {pad pad' : Nat → Nat} {t : Tail} {pos pos' : Nat} {vs : List U64} {b : List Bool}
    (h : SamePad pad pad' pos pos' b.length) (hv : t.IsVal pf pad pos vs b) : t.IsVal pf pad' pos' vs b := by
  cases t with
  | nothing => exact hv
  | array e => exact hv
  | blob =>
    obtain ⟨n, p, bs, q, rfl, h1, h2, h3, h4⟩ := hv
    simp only [List.length_append] at h
    refine ⟨n, p, bs, q, rfl, h1, h.isPad (by omega) h2, h3, ?_⟩
    rw [Nat.add_assoc, Nat.add_assoc] at h4 ⊢
    exact h.isPad (by omega) h4

theorem isVals_shift {pf : Profile} {pad pad' : Nat → Nat} {t : Tail} : ∀ {ss : List Scalar} {pos pos' : Nat} {vs : List U64}
    {b : List Bool}, SamePad pad pad' pos pos' b.length → IsVals pf pad t pos ss vs b → IsVals pf pad' t pos' ss vs b
  | [], _, _, _, _, h, hv => tail_shift h hv
  | _ :: _, _, _, [], _, _, hv => hv
  | _ :: _, _, _, _ :: _, _, h, hv => by
    obtain ⟨b₁, b₂, rfl, h1, h2⟩ := hv
    refine ⟨b₁, b₂, rfl, h1, isVals_shift (h.skip ?_) h2⟩
    simp

theorem item_shift {pf : Profile} {pad pad' : Nat → Nat} {k k' : Ctx} {outer outer' : List Ctx} {pos pos' : Nat} {b : List Bool}
    {es : List Entry} (h : SamePad pad pad' pos pos' b.length) (hi : Item pf pad k outer pos b es k' outer') :
    Item pf pad' k outer pos' b es k' outer' := by
  cases hi with
  | define h1 h2 h3 => exact .define h1 h2 h3
  | unabbrev h1 h2 h3 h4 h5 => exact .unabbrev h1 h2 h3 h4 h5
  | «abbrev» h1 h2 h3 h4 h5 => exact .abbrev h1 h2 h3 h4 (isVals_shift (h.skip (by simp)) h5)
  | enter h1 h2 h3 h4 h5 h6 =>
    refine .enter h1 h2 h3 h4 ?_ h6
    rw [Nat.add_assoc, Nat.add_assoc] at h5 ⊢
    exact h.isPad (by simp) h5
  | exit h1 h2 => exact .exit h1 (h.isPad (by simp) h2)

theorem stream_shift {pf : Profile} {pad pad' : Nat → Nat} {k k' : Ctx} {outer outer' : List Ctx} {pos : Nat} {b : List Bool}
    {es : List Entry} (hs : Stream pf pad k outer pos b es k' outer') : ∀ {pos' : Nat}, SamePad pad pad' pos pos' b.length →
    Stream pf pad' k outer pos' b es k' outer' := by
  induction hs with
  | nil => intro _ _; exact .nil
  | cons hi _ ih =>
    intro pos' h
    rw [List.length_append] at h
    refine .cons (item_shift (fun i hi => h i (by omega)) hi) (ih (h.skip (by omega)))

theorem stream_append {pf : Profile} {pad : Nat → Nat} {k k' k'' : Ctx} {outer outer' outer'' : List Ctx} {pos : Nat} {b b' : List Bool}
    {es es' : List Entry} (hs : Stream pf pad k outer pos b es k' outer') :
    Stream pf pad k' outer' (pos + b.length) b' es' k'' outer'' →
    Stream pf pad k outer pos (b ++ b') (es ++ es') k'' outer'' := by
  induction hs with
  | nil => exact id
  | cons hi _ ih =>
    intro h
    rw [List.append_assoc, List.append_assoc]
    refine .cons hi (ih ?_)
    rwa [List.length_append, ← Nat.add_assoc] at h

/-! The same for failures. -/

theorem counted_shift {pf : Profile} {N N' : Nat → Nat → List Bool → Failure → Prop} {pos pos' : Nat} {b : List Bool} {f : Failure}
    (hN : ∀ j n tail, j + tail.length ≤ b.length → N n (pos + j) tail f → N' n (pos' + j) tail f) (h : NoCounted pf N pos b f) :
    NoCounted pf N' pos' b f := by
  cases h with
  | count h => exact .count h
  | size h1 h2 h3 => exact .size h1 h2 h3
  | counted h1 h2 h3 h4 => exact .counted h1 h2 h3 (hN _ _ _ (by rw [h1, List.length_append]; omega) h4)

theorem noTail_shift {pf : Profile} {pad pad' : Nat → Nat} {t : Tail} {pos pos' : Nat} {b : List Bool} {f : Failure}
    (h : SamePad pad pad' pos pos' b.length) (hv : t.NoVal pf pad pos b f) : t.NoVal pf pad' pos' b f := by
  cases t with
  | nothing => exact hv
  | array e => exact counted_shift (fun _ _ _ _ => id) hv
  | blob =>
    refine counted_shift ?_ hv
    rintro j n tail hj ⟨p, tail', rfl, h2, h3⟩
    exact ⟨p, tail', rfl, h.isPad (by omega) h2, h3⟩

theorem noVals_shift {pf : Profile} {pad pad' : Nat → Nat} {t : Tail} {f : Failure} : ∀ {ss : List Scalar} {pos pos' : Nat}
    {b : List Bool}, SamePad pad pad' pos pos' b.length → NoVals pf pad t pos ss b f → NoVals pf pad' t pos' ss b f
  | [], _, _, _, h, hv => noTail_shift h hv
  | _ :: _, _, _, _, h, hv => by
    rcases hv with hv | ⟨v, b₁, b₂, rfl, h1, h2⟩
    · exact .inl hv
    · exact .inr ⟨v, b₁, b₂, rfl, h1, noVals_shift (h.skip (by simp)) h2⟩

theorem noItem_shift {pf : Profile} {pad pad' : Nat → Nat} {k : Ctx} {outer : List Ctx} {pos pos' : Nat} {b : List Bool} {f : Failure}
    (h : SamePad pad pad' pos pos' b.length) (hi : NoItem pf pad k outer pos b f) : NoItem pf pad' k outer pos' b f := by
  cases hi with
  | id h1 h2 => exact .id h1 h2
  | exit h1 h2 h3 => exact .exit h1 h2 h3
  | enterId h1 h2 h3 => exact .enterId h1 h2 h3
  | enterWidth h1 h2 h3 h4 => exact .enterWidth h1 h2 h3 h4
  | enterZero h1 h2 h3 h4 => exact .enterZero h1 h2 h3 h4
  | enterLength h1 h2 h3 h4 h5 h6 h7 =>
    subst h1
    refine .enterLength rfl h2 h3 h4 h5 ?_ h7
    rw [Nat.add_assoc, Nat.add_assoc] at h6 ⊢
    exact h.isPad (by simp) h6
  | define h1 h2 h3 => exact .define h1 h2 h3
  | defineOutside h1 h2 h3 h4 => exact .defineOutside h1 h2 h3 h4
  | defineFor h1 h2 h3 h4 h5 => exact .defineFor h1 h2 h3 h4 h5
  | recordOutside h1 h2 h3 => exact .recordOutside h1 h2 h3
  | code h1 h2 h3 h4 => exact .code h1 h2 h3 h4
  | fields h1 h2 h3 h4 h5 => exact .fields h1 h2 h3 h4 (counted_shift (fun _ _ _ _ => id) h5)
  | setBid h1 h2 h3 h4 h5 => exact .setBid h1 h2 h3 h4 h5
  | infoCode h1 h2 h3 h4 h5 h6 h7 h8 h9 => exact .infoCode h1 h2 h3 h4 h5 h6 h7 h8 h9
  | undefined h1 h2 h3 h4 h5 => exact .undefined h1 h2 h3 h4 h5
  | values h1 h2 h3 h4 h5 h6 => 
    subst h1
    exact .values rfl h2 h3 h4 h5 (noVals_shift (h.skip (by simp)) h6)
  | noCode h1 h2 h3 h4 h5 h6 =>
    subst h1
    exact .noCode rfl h2 h3 h4 h5 (isVals_shift (h.skip (by simp)) h6)

theorem endsAt_shift {pf : Profile} {pad pad' : Nat → Nat} {k : Ctx} {outer : List Ctx} {pos pos' : Nat} {b : List Bool}
    {f : Option Failure} (h : SamePad pad pad' pos pos' b.length) (hi : EndsAt pf pad k outer pos b f) :
    EndsAt pf pad' k outer pos' b f := by
  cases f with
  | none => exact hi
  | some f => exact noItem_shift h hi

/-! ## Bytes -/

theorem bitsOf_join (first second : List U8) : bitsOf (join first second) = bitsOf first ++ (bitsOf second).drop 32 := by
  rw [join, bitsOf_append, bitsOf_drop]

theorem completeEntries_append (tops tops' : List (BBlock × Forest)) :
    completeEntries (tops ++ tops') = completeEntries tops ++ completeEntries tops' := by
  simp [completeEntries]

theorem join_length {first second : List U8} (h : 4 ≤ second.length) :
    (join first second).length + 4 = first.length + second.length := by
  simp [join]
  omega

/-- What the second file consists of is what follows the first. -/
theorem consists_join {pf : Profile} {bytes₁ bytes₂ : List U8} {tops₁ tops₂ P : List (BBlock × Forest)} {f : Option Failure}
    {ms : List Entry} (h4 : 4 ≤ bytes₁.length) (h4' : bytes₁.length % 4 = 0) (g4 : 4 ≤ bytes₂.length) (g4' : bytes₂.length % 4 = 0)
    (hs : Stream pf toWord Ctx.start [] 32 ((bitsOf bytes₁).drop 32) ms Ctx.start []) (hm : completeEntries tops₁ = ms.map Entry.toStream)
    (hc : Consists pf bytes₂ tops₂ P f) : Consists pf (join bytes₁ bytes₂) (tops₁ ++ tops₂) P f := by
  obtain ⟨pre, tail, ms', k, outer, hb, hst, he, hend⟩ := hc
  have hl := join_length (first := bytes₁) g4
  have hl₁ := bitsOf_length bytes₁
  have hl₂ : pre.length + tail.length + 32 = 8 * bytes₂.length := by
    have := congrArg List.length hb
    simp only [List.length_drop, bitsOf_length, List.length_append] at this
    omega
  have hd : ((bitsOf bytes₁).drop 32).length + 32 = 8 * bytes₁.length := by
    simp only [List.length_drop, bitsOf_length]
    omega
  have hsame : ∀ {pos n}, pos + n ≤ 8 * bytes₂.length →
      SamePad (toPiece (8 * bytes₂.length)) (toPiece (8 * (join bytes₁ bytes₂).length)) pos
        (pos + ((bitsOf bytes₁).drop 32).length) n := by
    intro pos n hn i hi
    rw [toPiece_word (by omega) (by omega), toPiece_word (by omega) (by omega)]
    unfold toWord
    omega
  refine ⟨(bitsOf bytes₁).drop 32 ++ pre, tail, ms ++ ms', k, outer, ?_, ?_, ?_, ?_⟩
  · rw [bitsOf_join, hb, List.drop_append_of_le_length (by omega), List.append_assoc]
  · refine stream_append (stream_shift hs fun i hi => ?_) (stream_shift hst (hsame (by omega)))
    rw [toPiece_word (by omega) (by omega)]
  · rw [completeEntries_append, List.append_assoc, he, hm, List.map_append]
  · refine endsAt_shift ?_ hend
    have := hsame (pos := 32 + pre.length) (n := tail.length) (by omega)
    rwa [show 32 + ((bitsOf bytes₁).drop 32 ++ pre).length = 32 + pre.length + ((bitsOf bytes₁).drop 32).length by
      rw [List.length_append]; omega]

/-! ## The outermost context -/

/-- The outermost context is that of the start, except for what is registered. -/
def Base : Ctx → List Ctx → Prop
  | k, [] => { k with info := Ctx.start.info } = Ctx.start
  | _, o :: os => Base o os

theorem Base.congr {k k' : Ctx} {outer : List Ctx} (h : Base k outer) (hk : outer = [] → k' = k ∨ ∃ i, k' = { k with info := i }) :
    Base k' outer := by
  cases outer with
  | nil =>
    rcases hk rfl with rfl | ⟨i, rfl⟩
    · exact h
    · exact h
  | cons o os => exact h

theorem item_base {pf : Profile} {pad : Nat → Nat} {k k' : Ctx} {outer outer' : List Ctx} {pos : Nat} {b : List Bool}
    {es : List Entry} (hi : Item pf pad k outer pos b es k' outer') (h : Base k outer) : Base k' outer' := by
  have hnone : outer = [] → k.block = none := by
    rintro rfl
    have h : { k with info := Ctx.start.info } = Ctx.start := h
    exact congrArg Ctx.block h
  cases hi with
  | define _ _ h3 =>
    refine h.congr fun ho => ?_
    unfold Ctx.define at h3
    rw [hnone ho] at h3
    cases h3
  | unabbrev _ _ _ _ h5 =>
    refine h.congr fun ho => ?_
    unfold Ctx.unabbrev at h5
    rw [hnone ho] at h5
    cases h5
  | «abbrev» => exact h
  | enter => exact h
  | exit =>
    rename_i o _ _ _ _
    cases outer' with
    | nil => exact (show Base o [] from h).congr fun _ => .inr ⟨_, rfl⟩
    | cons o' os => exact h

theorem stream_base {pf : Profile} {pad : Nat → Nat} {k k' : Ctx} {outer outer' : List Ctx} {pos : Nat} {b : List Bool}
    {es : List Entry} (hs : Stream pf pad k outer pos b es k' outer') (h : Base k outer) : Base k' outer' := by
  induction hs with
  | nil => exact h
  | cons hi _ ih => exact ih (item_base hi h)

/-! ## Written streams -/

theorem isCount_bits (pf : Profile) {n : Nat} {b : List Bool} (h : countBits n = some b) : IsCount pf n b := by
  unfold countBits at h
  split at h
  · next hn =>
    cases h
    exact ⟨hn, isVbr_enc pf (by decide) _⟩
  · cases h

theorem elem_isDef (pf : Profile) (e : Elem) : ∃ b, e.defBits = false :: b ∧ e.IsDef pf b := by
  cases e with
  | fixed w => exact ⟨_, rfl, _, rfl, isVbr_enc pf (by decide) _⟩
  | vbr w => exact ⟨_, rfl, _, rfl, isVbr_enc pf (by decide) _⟩
  | char6 => exact ⟨_, rfl, rfl⟩

theorem scalar_isDef (pf : Profile) (s : Scalar) : s.IsDef pf s.defBits := by
  cases s with
  | lit v => exact ⟨_, rfl, isVbr_enc pf (by decide) _⟩
  | enc e => exact elem_isDef pf e

theorem def_isDef (pf : Profile) {d : Def} (h : d.Valid) : d.IsDef pf d.bits := by
  refine ⟨h, _, _, _, rfl, isVbr_enc pf (by decide) _, ?_, ?_⟩
  · generalize d.scalars = ss
    induction ss with
    | nil => rfl
    | cons s ss ih => exact ⟨_, _, rfl, scalar_isDef pf s, ih⟩
  · cases ht : d.tail with
    | nothing => rfl
    | array e =>
      obtain ⟨b, h1, h2⟩ := elem_isDef pf e
      refine ⟨false, b, ?_, h2⟩
      show [false] ++ bitsOfNat 3 3 ++ e.defBits = _
      rw [h1]
      simp
    | blob => rfl

theorem elem_isVal (pf : Profile) {e : Elem} {v : U64} {b : List Bool} (h : e.valBits v = some b) : e.IsVal pf v b := by
  cases e with
  | fixed w =>
    simp only [Elem.valBits] at h
    split at h
    · next hw => cases h; exact ⟨hw.1, hw.2.1, hw.2.2, rfl⟩
    · cases h
  | vbr w =>
    simp only [Elem.valBits] at h
    split at h
    · next hw => cases h; exact ⟨hw.1, hw.2, isVbr_enc pf hw.1 _⟩
    · cases h
  | char6 =>
    unfold Elem.valBits at h
    obtain ⟨i, h1, h2⟩ := Option.map_eq_some_iff.1 h
    exact ⟨i, h1, h2.symm⟩

theorem elems_isVal (pf : Profile) {e : Elem} : ∀ {vs : List U64} {b : List Bool}, elemsBits e vs = some b → Many (e.IsVal pf) vs b
  | [], _, h => by cases h; rfl
  | v :: vs, b, h => by
    simp only [elemsBits, Option.bind_eq_bind, Option.bind_eq_some_iff] at h
    obtain ⟨b₁, h1, b₂, h2, h3⟩ := h
    cases h3
    exact ⟨_, _, rfl, elem_isVal pf h1, elems_isVal pf h2⟩

theorem bytes_isVal : ∀ {vs : List U64} {b : List Bool}, bytesBits vs = some b → Many IsByte vs b
  | [], _, h => by cases h; rfl
  | v :: vs, b, h => by
    simp only [bytesBits, Option.bind_eq_bind, Option.bind_eq_some_iff] at h
    obtain ⟨b₂, h2, h3⟩ := h
    split at h3
    · next hv =>
      cases h3
      exact ⟨_, _, rfl, ⟨hv, rfl⟩, bytes_isVal h2⟩
    · cases h3

theorem isPad_pad32 (pos : Nat) : IsPad toWord pos (pad32 pos) := by
  simp [IsPad, pad32, toWord]

theorem tail_isVal (pf : Profile) {t : Tail} {pos : Nat} {vs : List U64} {b : List Bool} (h : t.valBits pos vs = some b) :
    t.IsVal pf toWord pos vs b := by
  cases t with
  | nothing =>
    cases vs with
    | nil => cases h; exact ⟨rfl, rfl⟩
    | cons _ _ => cases h
  | array e =>
    simp only [Tail.valBits, Option.bind_eq_bind, Option.bind_eq_some_iff] at h
    obtain ⟨n, h1, bs, h2, h3⟩ := h
    cases h3
    exact ⟨_, _, rfl, isCount_bits pf h1, elems_isVal pf h2⟩
  | blob =>
    simp only [Tail.valBits, Option.bind_eq_bind, Option.bind_eq_some_iff] at h
    obtain ⟨n, h1, bs, h2, h3⟩ := h
    cases h3
    refine ⟨n, _, bs, _, by rw [List.append_assoc], isCount_bits pf h1, isPad_pad32 _, bytes_isVal h2, ?_⟩
    rw [show pos + ((n ++ pad32 (pos + n.length)).length + bs.length) = pos + n.length + (pad32 (pos + n.length)).length + bs.length by
      rw [List.length_append]; omega]
    exact isPad_pad32 _

theorem vals_isVal (pf : Profile) {t : Tail} : ∀ {ss : List Scalar} {pos : Nat} {vs : List U64} {b : List Bool},
    valsBits t pos ss vs = some b → IsVals pf toWord t pos ss vs b
  | [], _, _, _, h => tail_isVal pf h
  | _ :: _, _, [], _, h => by cases h
  | s :: ss, pos, v :: vs, b, h => by
    simp only [valsBits, Option.bind_eq_bind, Option.bind_eq_some_iff] at h
    obtain ⟨b₁, h1, b₂, h2, h3⟩ := h
    cases h3
    refine ⟨_, _, rfl, ?_, vals_isVal pf h2⟩
    cases s with
    | lit w =>
      simp only [Scalar.valBits] at h1
      split at h1
      · next hv => cases h1; exact ⟨hv, rfl⟩
      · cases h1
    | enc e => exact elem_isVal pf h1

theorem vbr6s_many (pf : Profile) (vs : List U64) : Many (IsVbr pf 6) vs (vbr6s vs) := by
  induction vs with
  | nil => rfl
  | cons v vs ih => exact ⟨_, _, rfl, isVbr_enc pf (by decide) _, ih⟩

/-- What is written is a stream that leaves nothing open. -/
theorem write_stream (pf : Profile) {its : Items} : ∀ {k : Ctx} {pos : Nat} {w : Written}, write k pos its = some w →
    ∀ outer, Stream pf toWord k outer pos w.bits w.entries w.after outer := by
  induction its with
  | nil => intro k pos w h outer; cases h; exact .nil
  | define d rest ih =>
    intro k pos w h outer
    simp only [write, Option.bind_eq_bind, Option.bind_eq_some_iff] at h
    obtain ⟨i, h1, h⟩ := h
    split at h
    · next hv =>
      simp only [Option.bind_eq_some_iff] at h
      obtain ⟨k', h2, r, h3, h4⟩ := h
      cases h4
      exact .cons (.define h1 (def_isDef pf hv) h2) (ih h3 outer)
    · cases h
  | unabbrev code fields rest ih =>
    intro k pos w h outer
    simp only [write, Option.bind_eq_bind, Option.bind_eq_some_iff, unabbrevBits] at h
    obtain ⟨i, h1, u, ⟨n, hn, h2⟩, k', h3, r, h4, h5⟩ := h
    cases h5
    cases h2
    exact .cons (.unabbrev h1 (isVbr_enc pf (by decide) _) (isCount_bits pf hn) (vbr6s_many pf fields) h3) (ih h4 outer)
  | «abbrev» id code fields rest ih =>
    intro k pos w h outer
    simp only [write, Option.bind_eq_bind, Option.bind_eq_some_iff] at h
    obtain ⟨i, h1, d, h2, v, h3, r, h4, h5⟩ := h
    cases h5
    unfold Ctx.lookup at h2
    split at h2
    · cases h2
    · next b hb =>
      split at h2
      · cases h2
      · next hid =>
        refine .cons (.abbrev h1 ?_ ?_ h2 (vals_isVal pf h3)) (ih h4 outer)
        · omega
        · rw [hb]; simp
  | block id width body rest ihb ih =>
    intro k pos w h outer
    simp only [write, Option.bind_eq_bind, Option.bind_eq_some_iff] at h
    obtain ⟨i, h1, v, h2, e, h3, h⟩ := h
    split at h
    · next hw =>
      simp only [Option.bind_eq_some_iff] at h
      obtain ⟨r, h4, h5⟩ := h
      have hwidth : width ≠ 0 := by
        rintro rfl
        have := (idBits_iff.1 h3).1
        rw [(write_same h2).2] at this
        exact absurd this (by show ¬ 1 ≤ (0 : U64).toNat; decide)
      have hin := ihb h2 (k :: outer)
      have hp := isPad_pad32 (pos + (i ++ (encVbr 8 id ++ encVbr 4 width)).length)
      generalize pad32 (pos + (i ++ (encVbr 8 id ++ encVbr 4 width)).length) = p₁ at *
      rw [show pos + (i ++ (encVbr 8 id ++ encVbr 4 width)).length =
          pos + i.length + (encVbr 8 id).length + (encVbr 4 width).length by simp only [List.length_append]; omega] at hp
      have hq := isPad_pad32 (pos + ((i ++ (encVbr 8 id ++ encVbr 4 width) ++ p₁).length + 32) + (v.bits.length + e.length))
      generalize pad32 (pos + ((i ++ (encVbr 8 id ++ encVbr 4 width) ++ p₁).length + 32) + (v.bits.length + e.length)) = p₂ at *
      generalize (v.bits.length + (e ++ p₂).length) / 32 = words at *
      have henter := Item.enter (pf := pf) (pad := toWord) (pos := pos) (outer := outer) h1 (isVbr_enc pf (by decide) id)
        (isVbr_enc pf (by decide) width) hwidth hp hw
      rw [← Nat.add_assoc] at hq
      have hexit := Item.exit (pf := pf) (outer := outer) (o := k) h3 hq
      have hrest := ih h4 outer
      have hvis : visible v.after .finish = if id = 0 then [] else [.finish] := by
        unfold visible
        rw [(write_same h2).1]
        simp [Ctx.enter]
      rw [hvis] at hexit
      cases h5
      have hin' : Stream pf toWord (k.enter id width) (k :: outer)
          (pos + (i ++ (encVbr 8 id ++ (encVbr 4 width ++ (p₁ ++ bitsOfNat 32 words)))).length) v.bits v.entries v.after (k :: outer) := by
        rw [show pos + (i ++ (encVbr 8 id ++ (encVbr 4 width ++ (p₁ ++ bitsOfNat 32 words)))).length =
          pos + ((i ++ (encVbr 8 id ++ encVbr 4 width) ++ p₁).length + 32) by simp; omega]
        exact hin
      have hlast := stream_append hin' (.cons (by
        rw [show pos + (i ++ (encVbr 8 id ++ (encVbr 4 width ++ (p₁ ++ bitsOfNat 32 words)))).length + v.bits.length =
          pos + ((i ++ (encVbr 8 id ++ encVbr 4 width) ++ p₁).length + 32) + v.bits.length by simp; omega]
        exact hexit) (by
        refine cast ?_ hrest
        congr 1
        simp
        omega))
      refine cast ?_ (Stream.cons henter hlast)
      congr 1
      · simp
      · split <;> simp
    · cases h

/-- No BLOCKINFO anywhere. -/
def Spec.Items.NoInfo : Items → Prop
  | .nil => True
  | .define _ rest => rest.NoInfo
  | .unabbrev _ _ rest => rest.NoInfo
  | .abbrev _ _ _ rest => rest.NoInfo
  | .block id _ body rest => id ≠ 0 ∧ body.NoInfo ∧ rest.NoInfo

theorem define_info {k k' : Ctx} {d : Def} (hk : k.block ≠ some 0) (h : k.define d = some k') :
    k'.info = k.info ∧ k'.block = k.block := by
  unfold Ctx.define at h
  split at h
  · cases h
  · next b hb =>
    rw [if_neg (fun h => hk (by rw [hb, h]))] at h
    cases h
    exact ⟨rfl, rfl⟩

theorem unabbrev_info {k k' : Ctx} {code : U64} {fields : List U64} (hk : k.block ≠ some 0) (h : k.unabbrev code fields = some k') :
    k' = k := by
  unfold Ctx.unabbrev at h
  split at h
  · cases h
  · next b hb =>
    rw [if_neg (fun h => hk (by rw [hb, h]))] at h
    cases h
    rfl

theorem write_info {its : Items} : ∀ {k : Ctx} {pos : Nat} {w : Written}, write k pos its = some w → its.NoInfo → k.block ≠ some 0 →
    w.after.info = k.info := by
  induction its with
  | nil => intro k pos w h _ _; cases h; rfl
  | define d rest ih =>
    intro k pos w h hn hk
    simp only [write, Option.bind_eq_bind, Option.bind_eq_some_iff] at h
    obtain ⟨i, -, h⟩ := h
    split at h
    · simp only [Option.bind_eq_some_iff] at h
      obtain ⟨k', h2, r, h3, h4⟩ := h
      obtain ⟨g1, g2⟩ := define_info hk h2
      cases h4
      exact (ih h3 hn (by rw [g2]; exact hk)).trans g1
    · cases h
  | unabbrev code fields rest ih =>
    intro k pos w h hn hk
    simp only [write, Option.bind_eq_bind, Option.bind_eq_some_iff] at h
    obtain ⟨i, -, u, -, k', h3, r, h4, h5⟩ := h
    cases unabbrev_info hk h3
    have := ih h4 hn hk
    cases h5
    exact this
  | «abbrev» id code fields rest ih =>
    intro k pos w h hn hk
    simp only [write, Option.bind_eq_bind, Option.bind_eq_some_iff] at h
    obtain ⟨i, -, d, -, v, -, r, h4, h5⟩ := h
    have := ih h4 hn hk
    cases h5
    exact this
  | block id width body rest ihb ih =>
    intro k pos w h hn hk
    simp only [write, Option.bind_eq_bind, Option.bind_eq_some_iff] at h
    obtain ⟨i, -, v, h2, e, -, h⟩ := h
    split at h
    · simp only [Option.bind_eq_some_iff] at h
      obtain ⟨r, h4, h5⟩ := h
      have := ih h4 hn.2.2 hk
      have hv := ihb h2 hn.2.1 (by simpa [Ctx.enter] using hn.1)
      cases h5
      exact this.trans hv
    · cases h

theorem Base.start {k : Ctx} (h : Base k []) (hi : k.info = Ctx.start.info) : k = Ctx.start := by
  have h : { k with info := Ctx.start.info } = Ctx.start := h
  rw [← h, ← hi]

theorem written_stream (pf : Profile) {magic : U32} {its : Items} {bytes : List U8} {es : List Entry}
    (h : streamBytes magic its = some (bytes, es)) : ∃ w, write Ctx.start 32 its = some w ∧
    Stream pf toWord Ctx.start [] 32 ((bitsOf bytes).drop 32) es w.after [] := by
  simp only [streamBytes, writeStream, Option.bind_eq_bind, Option.bind_eq_some_iff] at h
  obtain ⟨⟨b, es'⟩, ⟨w, hw, hb⟩, h⟩ := h
  cases hb
  cases h
  refine ⟨w, hw, ?_⟩
  have hal := block_aligned (k := Ctx.start) rfl hw (by omega)
  rw [bitsOf_pack (by simp only [List.length_append, bitsOfNat_length]; omega), List.drop_left' (bitsOfNat_length ..)]
  exact write_stream pf hw []

/-- Written files are closed. -/
theorem written_closed (pf : Profile) {magic : U32} {its : Items} {bytes : List U8} {es : List Entry}
    (h : streamBytes magic its = some (bytes, es)) : Closed pf bytes := by
  obtain ⟨w, -, hs⟩ := written_stream pf h
  exact ⟨_, _, hs⟩

/-- And without BLOCKINFO they are settled. -/
theorem written_settled (pf : Profile) {magic : U32} {its : Items} {bytes : List U8} {es : List Entry}
    (h : streamBytes magic its = some (bytes, es)) (hn : its.NoInfo) : Settled pf bytes := by
  obtain ⟨w, hw, hs⟩ := written_stream pf h
  have := Base.start (stream_base hs rfl) (write_info hw hn (by simp [Ctx.start]))
  exact ⟨_, this ▸ hs⟩

end Verif
