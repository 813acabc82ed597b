import Verif.Props.CleanCauses
import Verif.Props.FileReports
import Verif.Mapper.Print

/-! Claims C77 and C78: the report of an error tells the error, and what characters it has. -/

namespace Verif.Props
open Verif.Spec

/-! ## Messages in reports -/

theorem begins_char {l : List String} {cs : List Str} (hl : Literals l cs) (hc : cs.all nonDigit = true) {i : Nat} {s : Str}
    (h : Begins l i s) : ∀ c ∈ s.head?, ¬ ('0' ≤ c ∧ c ≤ '9') := by
  obtain ⟨p, x, h1, rfl⟩ := h
  have := List.all_eq_true.1 hc _ (List.mem_of_getElem? (literals_get hl h1))
  cases hp : p.toList with
  | nil => rw [hp] at this; cases this
  | cons d ds =>
    rw [hp] at this
    intro c hc hn
    have hdc : d = c := by simpa using hc
    subst hdc
    have h48 : ('0' : Char).toNat ≤ d.toNat := hn.1
    have h57 : d.toNat ≤ ('9' : Char).toNat := hn.2
    have h48 : 48 ≤ d.toNat := h48
    have h57 : d.toNat ≤ 57 := h57
    simp [nonDigit, h48, h57] at this

theorem bitstream_noNumber (e : BErr) : NoNumber (Stderr.bitstreamCauses e) := by
  intro m hm
  cases e with
  | cursor e =>
    have he : Stderr.cursorText e = m := Option.some.inj hm
    have : Begins cursorHeads e.ctorIdx (Stderr.cursorText e) := by cases e <;> exact begins_bare rfl
    rw [← he]
    exact begins_char (by unfold cursorHeads; repeat constructor) (by decide +kernel) this
  | badBlockInfoCode v | badAbbrevOpEnc v =>
    have he : Stderr.noDiscriminant _ v = m := Option.some.inj hm
    rw [← he]
    exact begins_char (l := ["No discriminant in enum `"]) (i := 0) (by repeat constructor) (by decide +kernel) (begins_with rfl)
  | _ => cases hm

theorem failure_report (plain : Char → Bool) (utf8 : Str) (f : Stderr.Failure) :
    ∃ m cs, f.causes plain utf8 = m :: cs ∧ '\n' ∉ m ∧ NoNumber (m :: cs) := by
  have hn : Control '\n' := Or.inl (by decide)
  cases f with
  | opening e =>
    obtain ⟨m, cs, h, _⟩ := bitstream_leads e
    refine ⟨m, cs, h, ?_, h ▸ bitstream_noNumber e⟩
    exact fun hm => clean_bitstream e m (h ▸ List.mem_cons_self) _ hm hn
  | mapping e =>
    cases e with
    | parse e =>
      have hc : NoControl "error while parsing the bitstream".toList := by clean_text
      refine ⟨_, _, rfl, fun hm => hc _ hm hn, ?_⟩
      obtain ⟨m, cs, h, hb⟩ := bitstream_leads e
      rw [h]
      intro x hx
      rw [← Option.some.inj hx]
      exact begins_char (by unfold bitstreamHeads; repeat constructor) (by decide +kernel) hb
    | unroll m =>
      have := clean_unroll m
      have hc : NoControl ("error while unrolling the bitstream: ".toList ++ Stderr.unrollText m) := by clean_text
      exact ⟨_, _, rfl, fun hm => hc _ hm hn, fun x hx => nomatch hx⟩
    | map e =>
      have hc : NoControl "error while mapping the bitsteam".toList := by clean_text
      refine ⟨_, _, rfl, fun hm => hc _ hm hn, ?_⟩
      have hl : Leads blockMapHeads e.ctorIdx (Stderr.blockCauses plain utf8 e) := by
        cases e with
        | _ => exact ⟨_, _, rfl, begins_bare rfl⟩
      obtain ⟨m, cs, h, hb⟩ := hl
      rw [h]
      intro x hx
      rw [← Option.some.inj hx]
      exact begins_char (by unfold blockMapHeads; repeat constructor) (by decide +kernel) hb

/-! ## What the program reports -/

/-- C77. The program that maps a file fails with an error of opening the stream, or of mapping it. -/
theorem C77_fails (pf : Profile) (target : Str) (plain : Char → Bool) (bytes : List U8) (f : Stderr.Failure) :
    Stderr.main pf target plain bytes = .err f ↔
      (∃ e, f = .opening e ∧ Bitstream.from pf bytes = .err e) ∨
      (∃ e w s, f = .mapping e ∧ Bitstream.from pf bytes = .ok (w, s) ∧ Bitcode.ofStream pf target s = .err e) := by
  unfold Stderr.main
  cases hs : Bitstream.from pf bytes with
  | ok p =>
    obtain ⟨w, s⟩ := p
    simp only [Out.mapErr_ok, Out.ok_bind]
    cases hb : Bitcode.ofStream pf target s with
    | ok b => simp [hb]
    | err e =>
      constructor
      · intro h
        cases h
        exact .inr ⟨e, w, s, rfl, rfl, hb⟩
      · rintro (⟨e', rfl, h⟩ | ⟨e', w', s', rfl, h, h'⟩)
        · cases h
        · cases h
          rw [hb] at h'
          cases h'
          rfl
    | panic p => simp [hb]
    | diverge => simp [hb]
  | err e => simp [eq_comm]
  | panic p => simp
  | diverge => simp

/-- What the library reports for the file: errors of opening are wrapped. -/
def wrapped : Stderr.Failure → MapperError
  | .opening e => .parse e
  | .mapping e => e

theorem main_tryFrom {pf : Profile} {target : Str} {plain : Char → Bool} {bytes : List U8} {f : Stderr.Failure}
    (h : Stderr.main pf target plain bytes = .err f) : Bitcode.tryFrom pf target bytes = .err (wrapped f) := by
  unfold Bitcode.tryFrom
  rcases (C77_fails pf target plain bytes f).1 h with ⟨e, rfl, h1⟩ | ⟨e, w, s, rfl, h1, h2⟩
  · rw [h1]; rfl
  · rw [h1]; exact h2

theorem tryFrom_main {pf : Profile} {target : Str} {bytes : List U8} {e : MapperError} (he : ∀ b, e ≠ .parse b)
    (h : Bitcode.tryFrom pf target bytes = .err e) (plain : Char → Bool) :
    Stderr.main pf target plain bytes = .err (.mapping e) := by
  unfold Bitcode.tryFrom at h
  unfold Stderr.main
  cases hs : Bitstream.from pf bytes with
  | ok p =>
    rw [hs] at h
    have h : Bitcode.ofStream pf target p.2 = .err e := h
    show ((Bitcode.ofStream pf target p.2).mapErr _ >>= _) = _
    rw [h]
    rfl
  | err b => rw [hs] at h; exact absurd (Out.err.inj h).symm (he b)
  | panic p => rw [hs] at h; cases h
  | diverge => rw [hs] at h; cases h

theorem small_align {s : Str} {e : AlignSpecError} (h : TypeFault s e) : SmallAligns e := by
  cases h with
  | prefBelowAbi _ _ h1 h2 _ => exact ⟨h2.2, h1.2⟩
  | tooLarge _ _ h1 _ _ _ => exact h1.2
  | _ => trivial

theorem small_pointer {s : Str} {e : AlignSpecError} (h : PointerFault s e) : SmallAligns e := by
  cases h with
  | _ => trivial

theorem small_layout {s : Str} {e : DataLayoutError} (h : LayoutFault s e) : SmallLayout e := by
  cases h with
  | encoding => trivial
  | spec _ _ _ h =>
    cases h with
    | pointer h => exact small_pointer h
    | type h => exact small_align h
    | nonIntegral _ _ h => cases h with | _ => trivial
    | _ => trivial

theorem small_module {fits : Nat → Prop} {e : ModuleError} (h : ModulesError fits e) : SmallModule e := by
  cases h with
  | layout h =>
    cases h with
    | text => trivial
    | spec _ _ h => exact small_layout h
  | _ => trivial

theorem small_failure {pf : Profile} {target : Str} {plain : Char → Bool} {bytes : List U8} (hlen : bytes.length ≤ 2 ^ 61)
    {f : Stderr.Failure} (h : Stderr.main pf target plain bytes = .err f) : SmallFailure f := by
  have hf := C74_only pf target bytes hlen (main_tryFrom h)
  cases f with
  | opening => trivial
  | mapping e =>
    cases hf with
    | inModule hm => exact small_module hm
    | _ => trivial

theorem program_err {pf : Profile} {target : Str} {plain : Char → Bool} {utf8 text : Str} {bytes : List U8}
    (h : Stderr.program pf target plain utf8 bytes = .err text) :
    ∃ f, Stderr.main pf target plain bytes = .err f ∧ text = Stderr.report (f.causes plain utf8) := by
  unfold Stderr.program at h
  cases hm : Stderr.main pf target plain bytes with
  | err f => rw [hm] at h; exact ⟨f, rfl, (Out.err.inj h).symm⟩
  | _ => rw [hm] at h; cases h

/-- C77. The report is that of the messages of the error and its causes, in lines. -/
theorem C77_report {pf : Profile} {target : Str} {plain : Char → Bool} {utf8 text : Str} {bytes : List U8}
    (h : Stderr.program pf target plain utf8 bytes = .err text) :
    ∃ f lines, Stderr.main pf target plain bytes = .err f ∧ IsReport (f.causes plain utf8) lines ∧ text = unlines lines := by
  obtain ⟨f, h1, rfl⟩ := program_err h
  obtain ⟨m, cs, h2, h3, _⟩ := failure_report plain utf8 f
  obtain ⟨lines, h4, h5⟩ := C77_layout m cs h3
  rw [← h2] at h4 h5
  exact ⟨f, lines, h1, h4, h5⟩

/-- C77. The report determines the error: two runs that report the same failed with the same error. -/
theorem C77_determines {pf pf' : Profile} {target target' : Str} {plain plain' : Char → Bool} {utf8 utf8' text : Str}
    {bytes bytes' : List U8} (hlen : bytes.length ≤ 2 ^ 61) (hlen' : bytes'.length ≤ 2 ^ 61)
    (h : Stderr.program pf target plain utf8 bytes = .err text) (h' : Stderr.program pf' target' plain' utf8' bytes' = .err text) :
    ∃ f, Stderr.main pf target plain bytes = .err f ∧ Stderr.main pf' target' plain' bytes' = .err f := by
  obtain ⟨f, h1, h2⟩ := program_err h
  obtain ⟨f', h1', h2'⟩ := program_err h'
  obtain ⟨m, cs, h3, h4, h5⟩ := failure_report plain utf8 f
  obtain ⟨m', cs', h3', h4', h5'⟩ := failure_report plain' utf8' f'
  have hr := h2.symm.trans h2'
  rw [h3, h3'] at hr
  have hm := report_inj h4 h4' h5 h5' hr
  rw [← h3, ← h3'] at hm
  rw [← C77_messages (small_failure hlen h1) (small_failure hlen' h1') hm] at h1'
  exact ⟨f, h1, h1'⟩

/-! ## The program that prints streams -/

theorem dump_err {pf : Profile} {text : Str} {bytes : List U8} (h : (Stderr.dump pf bytes).2 = .err text) :
    ∃ e, (Dump.main pf bytes).2 = .err e ∧ text = Stderr.report (Stderr.bitstreamCauses e) := by
  unfold Stderr.dump at h
  cases hm : (Dump.main pf bytes).2 with
  | err e => rw [hm] at h; exact ⟨e, rfl, (Out.err.inj h).symm⟩
  | _ => rw [hm] at h; cases h

/-- C77, for the program that prints a stream. -/
theorem C77_dump {pf : Profile} {text : Str} {bytes : List U8} (h : (Stderr.dump pf bytes).2 = .err text) :
    ∃ e lines, (Dump.main pf bytes).2 = .err e ∧ IsReport (Stderr.bitstreamCauses e) lines ∧ text = unlines lines := by
  obtain ⟨e, h1, rfl⟩ := dump_err h
  obtain ⟨m, cs, h2, h3, _⟩ := failure_report (fun _ => true) [] (.opening e)
  have h2 : Stderr.bitstreamCauses e = m :: cs := h2
  obtain ⟨lines, h4, h5⟩ := C77_layout m cs h3
  rw [← h2] at h4 h5
  exact ⟨e, lines, h1, h4, h5⟩

/-- C77, for the program that prints a stream: the report determines the error. -/
theorem C77_dump_determines {pf pf' : Profile} {text : Str} {bytes bytes' : List U8} (h : (Stderr.dump pf bytes).2 = .err text)
    (h' : (Stderr.dump pf' bytes').2 = .err text) : ∃ e, (Dump.main pf bytes).2 = .err e ∧ (Dump.main pf' bytes').2 = .err e := by
  obtain ⟨e, h1, h2⟩ := dump_err h
  obtain ⟨e', h1', h2'⟩ := dump_err h'
  obtain ⟨m, cs, h3, h4, h5⟩ := failure_report (fun _ => true) [] (.opening e)
  obtain ⟨m', cs', h3', h4', h5'⟩ := failure_report (fun _ => true) [] (.opening e')
  have h3 : Stderr.bitstreamCauses e = m :: cs := h3
  have h3' : Stderr.bitstreamCauses e' = m' :: cs' := h3'
  have hr := h2.symm.trans h2'
  rw [h3, h3'] at hr
  have hm := report_inj h4 h4' h5 h5' hr
  rw [← h3, ← h3'] at hm
  rw [← bitstream_inj hm] at h1'
  exact ⟨e, h1, h1'⟩

/-! ## Reports -/

example (pf : Profile) : (Stderr.dump pf [0x42, 0x43, 0xC0, 0xDE, 1, 2, 3, 4]).2 =
    .err ("Error: underlying bitcursor error\n\nCaused by:\n    EOF while reading\n".toList) := by
  cases pf <;> decide +kernel

/-- A file that is too short to be opened. -/
example (pf : Profile) : Stderr.program pf ['x'] (fun _ => true) [] [0x42, 0x43, 0xC0] =
      .err ("Error: underlying bitcursor error\n\nCaused by:\n    too little data to service request\n".toList) := by
  cases pf <;> decide +kernel

/-- A file that ends in the head of a block. -/
example (pf : Profile) : Stderr.program pf ['x'] (fun _ => true) [] [0x42, 0x43, 0xC0, 0xDE, 1, 2, 3, 4] =
      .err ("Error: error while parsing the bitstream\n\nCaused by:\n    0: underlying bitcursor error\n    1: EOF while reading\n".toList) := by
  cases pf <;> decide +kernel

/-- A file that ends in a block. -/
def exShort : List U8 := [0x42, 0x43, 0xC0, 0xDE, 0x21, 2, 3, 4, 0, 0, 0, 0]

theorem exShort_main (pf : Profile) (plain : Char → Bool) :
    Stderr.main pf ['x'] plain exShort = .err (.mapping (.unroll .unexpectedEnd)) := by
  refine tryFrom_main (by intro _ h; cases h) ?_ plain
  cases pf <;> decide +kernel

theorem exShort_report (pf : Profile) (plain : Char → Bool) (utf8 : Str) :
    Stderr.program pf ['x'] plain utf8 exShort =
      .err ("Error: error while unrolling the bitstream: unexpected stream end during unroll\n".toList) := by
  unfold Stderr.program
  rw [exShort_main]
  exact congrArg Out.err (show Stderr.report [_ ++ _] = _ by decide +kernel)

end Verif.Props
