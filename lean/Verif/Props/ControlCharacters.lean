import Verif.Props.ErrorReports

/-! Claim C78: control characters in reports. -/

namespace Verif.Props
open Verif.Spec

/-! ## Reports have the characters of their messages -/

theorem mem_unlines {c : Char} (hc : c ≠ '\n') (ls : List Str) : c ∈ unlines ls ↔ ∃ l ∈ ls, c ∈ l := by
  simp [unlines, hc]

theorem mem_lines {c : Char} (hc : c ≠ '\n') {m : Str} {ls : List Str} (h : HasLines m ls) : c ∈ m ↔ ∃ l ∈ ls, c ∈ l := by
  rw [← mem_unlines hc, ← h.1]
  simp [hc]

theorem mem_column {c : Char} (hc : Control c) {n : Nat} {t : Str} (h : Column n t) : c ∉ t := by
  obtain ⟨k, rfl, _⟩ := h
  have h1 : NoControl (List.replicate k ' ') := by
    intro d hd
    rw [(List.mem_replicate.1 hd).2]
    unfold Control
    decide
  have h2 : NoControl (List.replicate k ' ' ++ (decimal n ++ ": ".toList)) := by clean_text
  exact fun hm => h2 c hm hc

theorem not_blank {c : Char} (hc : Control c) (k : Nat) : c ∉ List.replicate k ' ' := by
  intro hm
  rw [(List.mem_replicate.1 hm).2] at hc
  revert hc
  unfold Control
  decide

theorem some_cons {c : Char} (a : Str) (ls : List Str) : (∃ l ∈ a :: ls, c ∈ l) ↔ c ∈ a ∨ ∃ l ∈ ls, c ∈ l := by simp

theorem some_append {c : Char} (a b : List Str) : (∃ l ∈ a ++ b, c ∈ l) ↔ (∃ l ∈ a, c ∈ l) ∨ ∃ l ∈ b, c ∈ l := by
  simp [or_and_right, exists_or]

theorem some_blank {c : Char} (hc : Control c) (k : Nat) (ls : List Str) :
    (∃ l ∈ ls.map (List.replicate k ' ' ++ ·), c ∈ l) ↔ ∃ l ∈ ls, c ∈ l := by
  have := not_blank hc k
  constructor
  · rintro ⟨l, hl, hm⟩
    obtain ⟨x, hx, rfl⟩ := List.mem_map.1 hl
    exact ⟨x, hx, (List.mem_append.1 hm).resolve_left this⟩
  · rintro ⟨l, hl, hm⟩
    exact ⟨_, List.mem_map_of_mem hl, List.mem_append_right _ hm⟩

theorem mem_numbered {c : Char} (hc : c ≠ '\n') (h : Control c) {n : Nat} {ms lines : List Str} (hn : Numbered n ms lines) :
    (∃ l ∈ lines, c ∈ l) ↔ ∃ m ∈ ms, c ∈ m := by
  induction hn with
  | nil => simp
  | cons hl hcol _ ih =>
    have h1 := mem_column h hcol
    rw [some_cons, some_cons, some_append, some_blank h, ih, mem_lines hc hl, some_cons, List.mem_append]
    simp only [h1, false_or, or_assoc]

theorem mem_report {c : Char} (hc : c ≠ '\n') (h : Control c) {ms lines : List Str} (hr : IsReport ms lines) :
    c ∈ unlines lines ↔ ∃ m ∈ ms, c ∈ m := by
  have h1 : c ∉ "Error: ".toList := fun hm => (show NoControl "Error: ".toList by clean_text) c hm h
  have h2 : c ∉ "Caused by:".toList := fun hm => (show NoControl "Caused by:".toList by clean_text) c hm h
  rw [mem_unlines hc]
  cases hr with
  | alone => rw [some_cons, some_cons, List.mem_append]; simp only [h1, false_or]
  | one _ hl =>
    rw [some_cons, some_cons, some_cons, some_blank h, some_cons, some_cons, mem_lines hc hl, List.mem_append]
    simp only [h1, h2, false_or, List.not_mem_nil, false_and, exists_false, or_false]
  | many _ hn =>
    rw [some_cons, some_cons, some_cons, mem_numbered hc h hn, List.mem_append]
    rw [some_cons (ls := _ :: _ :: _)]
    simp only [h1, h2, false_or, List.not_mem_nil]

/-! ## Messages on datalayouts -/

/-- The control characters of the text are such. -/
def Only (q : Char → Prop) (s : Str) : Prop := ∀ c ∈ s, Control c → q c

theorem only_clean {q : Char → Prop} {s : Str} (h : NoControl s) : Only q s := fun c hc h' => absurd h' (h c hc)

theorem only_append {q : Char → Prop} {a b : Str} (ha : Only q a) (hb : Only q b) : Only q (a ++ b) := fun c hc =>
  (List.mem_append.1 hc).elim (ha c) (hb c)

theorem only_char {q : Char → Prop} {c : Char} (h : q c) : Only q [c] := fun _ hc _ => List.mem_singleton.1 hc ▸ h

/-- The same for all messages. -/
def AllOnly (q : Char → Prop) (ms : List Str) : Prop := ∀ m ∈ ms, Only q m

theorem only_all {q : Char → Prop} {ms : List Str} (h : AllClean ms) : AllOnly q ms := fun m hm => only_clean (h m hm)

theorem only_one {q : Char → Prop} {m : Str} (h : Only q m) : AllOnly q [m] := by
  intro x hx
  rw [List.mem_singleton.1 hx]
  exact h

theorem only_two {q : Char → Prop} {m m' : Str} (h : Only q m) (h' : Only q m') : AllOnly q [m, m'] := by
  intro x hx
  rcases List.mem_cons.1 hx with rfl | hx
  · exact h
  · exact only_one h' x hx

theorem clean_align (a : Align) : NoControl a.text := by
  unfold Align.text
  clean_text

theorem clean_number (e : IntErr) : NoControl (numberMessage e) := by
  cases e <;> dsimp only [-String.reduceToList, numberMessage] <;> clean_text

theorem clean_char {c : Char} (h : ¬ Control c) : NoControl [c] := fun _ hx => List.mem_singleton.1 hx ▸ h

theorem clean_kind {c : Char} (hc : c = 'i' ∨ c = 'v' ∨ c = 'f') : NoControl [c] := by
  refine clean_char ?_
  rcases hc with rfl | rfl | rfl <;> (unfold Control; decide)

/-- The messages on alignments are clean but for those given by the code, with the character that is wrong. -/
theorem clean_alignSpec (e : AlignSpecError) (h : ∀ m, e = .parse m → NoControl m) : AllClean (Stderr.alignSpecCauses e) ∧ NoControl e.text := by
  have ht : NoControl e.text := by
    cases e with
    | parse m =>
      have := h m rfl
      dsimp only [-String.reduceToList, AlignSpecError.text]
      clean_text
    | _ =>
      dsimp only [-String.reduceToList, AlignSpecError.text]
      clean_with [clean_align _, clean_alignError _, clean_widthError _, clean_spaceErrorText _, clean_intError _]
  refine ⟨allClean_cons ht ?_, ht⟩
  cases e <;> clean_with [clean_alignError _, clean_widthError _, clean_spaceErrorText _, clean_intError _]

/-- A message of the code on alignments. -/
theorem only_alignSpec {utf8 m : Str} {q : Char → Prop} (h : Only q m) :
    AllOnly q (Stderr.layoutCauses utf8 (.badAlignSpec (.parse m))) := by
  intro x hx
  have hx : x ∈ [(("cou't parse alignment spec: ".toList ++ (AlignSpecError.parse m).text : Str)), (AlignSpecError.parse m).text] := hx
  have ht : Only q (AlignSpecError.parse m).text := by
    dsimp only [-String.reduceToList, AlignSpecError.text]
    first
      | exact h
      | exact only_append (only_clean (by clean_text)) h
  exact only_two (only_append (only_clean (by clean_text)) ht) ht x hx

theorem clean_layout {utf8 : Str} (hu : NoControl utf8) (e : DataLayoutError) (h1 : ∀ c, e ≠ .unknownSpec c)
    (h2 : ∀ m, e = .badSpecParse m → NoControl m) (h3 : ∀ m, e = .badAlignSpec (.parse m) → NoControl m) :
    AllClean (Stderr.layoutCauses utf8 e) := by
  cases e with
  | badString e =>
    have := clean_stringText hu e
    refine allClean_cons ?_ (clean_string hu e)
    cases e <;> dsimp only [-String.reduceToList, DataLayoutError.text, RecordStringError.text, Option.map, Option.getD] <;> clean_text
  | unknownSpec c => exact absurd rfl (h1 c)
  | badSpecParse m =>
    have := h2 m rfl
    exact allClean_cons (by dsimp only [-String.reduceToList, DataLayoutError.text, Option.getD]; clean_text) allClean_nil
  | badAlignSpec e =>
    obtain ⟨h4, h5⟩ := clean_alignSpec e fun m hm => h3 m (by rw [hm])
    exact allClean_cons (by dsimp only [-String.reduceToList, DataLayoutError.text, Option.getD]; clean_text) h4
  | _ =>
    dsimp only [-String.reduceToList, Stderr.layoutCauses, DataLayoutError.text, Option.getD]
    clean_with [clean_alignError _, clean_spaceErrorText _, clean_intError _]

theorem only_type {utf8 s : Str} (hu : NoControl utf8) {e : AlignSpecError} (h : TypeFault s e) :
    AllOnly (Quotes (.badAlignSpec e)) (Stderr.layoutCauses utf8 (.badAlignSpec e)) := by
  have hq : ∀ m, e = .parse m → NoControl m ∨ Only (Quotes (.badAlignSpec e)) m := by
    intro m hm
    cases h with
    | nothingAggregate => cases hm; exact .inl (by clean_text)
    | noColon _ => cases hm; exact .inr (only_append (only_clean (by clean_text)) (only_char .aggregate))
    | onePart hc _ =>
      cases hm
      have := clean_kind hc
      exact .inl (by clean_text)
    | widthNumber _ _ => cases hm; exact .inl (clean_number _)
    | abiNumber _ _ _ => cases hm; exact .inl (clean_number _)
    | _ => cases hm
  by_cases hp : ∃ m, e = .parse m
  · obtain ⟨m, rfl⟩ := hp
    exact only_alignSpec ((hq m rfl).elim only_clean id)
  · exact only_all (clean_layout hu _ (fun _ h => nomatch h) (fun _ h => nomatch h) fun m hm => absurd ⟨m, by cases hm; rfl⟩ hp)

theorem only_pointer {utf8 s : Str} (hu : NoControl utf8) {e : AlignSpecError} (h : PointerFault s e) :
    AllOnly (Quotes (.badAlignSpec e)) (Stderr.layoutCauses utf8 (.badAlignSpec e)) := by
  refine only_all (clean_layout hu _ (fun _ h => nomatch h) (fun _ h => nomatch h) fun m hm => ?_)
  cases h with
  | fewParts _ _ => cases hm; clean_text
  | abiNumber _ _ _ _ => cases hm; exact clean_number _
  | _ => cases hm

theorem only_spec {utf8 s : Str} (hu : NoControl utf8) {e : DataLayoutError} (h : SpecFault s e) :
    AllOnly (Quotes e) (Stderr.layoutCauses utf8 e) := by
  cases h with
  | unknown _ => exact only_one (only_append (only_clean (by clean_text)) (only_char .spec))
  | functionKind _ _ _ =>
    exact only_one (only_append (only_clean (by clean_text)) (only_append (only_clean (by clean_text)) (only_char .function)))
  | manglingSeparator _ =>
    exact only_one (only_append (only_clean (by clean_text)) (only_append (only_clean (by clean_text)) (only_char .separator)))
  | mangling _ =>
    exact only_one (only_append (only_clean (by clean_text)) (only_append (only_clean (by clean_text)) (only_char .mangling)))
  | pointer h => exact only_pointer hu h
  | type h => exact only_type hu h
  | nonIntegral _ _ h =>
    cases h with
    | zero _ =>
      exact only_all (clean_layout hu _ (fun _ h => nomatch h) (fun m hm => by cases hm; clean_text) (fun _ h => nomatch h))
    | _ => exact only_all (clean_layout hu _ (fun _ h => nomatch h) (fun _ h => nomatch h) (fun _ h => nomatch h))
  | nothingFunction | nothingMangling | noMangling | nothingNative | nothingNonIntegral =>
    exact only_all (clean_layout hu _ (fun _ h => nomatch h) (fun m hm => by cases hm; clean_text) (fun _ h => nomatch h))
  | _ => exact only_all (clean_layout hu _ (fun _ h => nomatch h) (fun _ h => nomatch h) (fun _ h => nomatch h))

theorem only_layout {utf8 : Str} (hu : NoControl utf8) {fits : Nat → Prop} {e : DataLayoutError} (h : LayoutError fits e) :
    AllOnly (Quotes e) (Stderr.layoutCauses utf8 e) := by
  cases h with
  | text =>
    exact only_all (clean_layout hu _ (fun _ h => nomatch h) (fun _ h => nomatch h) (fun _ h => nomatch h))
  | spec _ _ h =>
    cases h with
    | encoding _ _ =>
      exact only_all (clean_layout hu _ (fun _ h => nomatch h) (fun _ h => nomatch h) (fun _ h => nomatch h))
    | spec _ _ _ h => exact only_spec hu h

/-- A character that the error tells is in its message. -/
theorem quoted {utf8 : Str} {e : DataLayoutError} {c : Char} (h : Quotes e c) : ∃ m ∈ Stderr.layoutCauses utf8 e, c ∈ m := by
  cases h with
  | spec => exact ⟨_, List.mem_cons_self, List.mem_append_right _ List.mem_cons_self⟩
  | aggregate =>
    refine ⟨_, List.mem_cons_self, List.mem_append_right _ ?_⟩
    dsimp only [-String.reduceToList, AlignSpecError.text]
    simp only [List.mem_append, List.mem_singleton, or_true]
  | _ => exact ⟨_, List.mem_cons_self, List.mem_append_right _ (List.mem_append_right _ List.mem_cons_self)⟩

/-! ## What characters are in a report -/

/-- C78. A report has a control character, other than the ends of lines, exactly if the error is that of a datalayout text with this
character where it is not expected. -/
theorem C78_exact {pf : Profile} {target : Str} {plain : Char → Bool} {utf8 text : Str} {bytes : List U8}
    (hlen : bytes.length ≤ 2 ^ 61) (hp : PlainClean plain) (hu : NoControl utf8)
    (h : Stderr.program pf target plain utf8 bytes = .err text) {c : Char} (hc : Control c) (hn : c ≠ '\n') :
    c ∈ text ↔ ∃ e, Bitcode.tryFrom pf target bytes = .err (.map (.module (.dataLayoutRecord e))) ∧ Quotes e c := by
  obtain ⟨f, lines, h1, h2, rfl⟩ := C77_report h
  have hf := main_tryFrom h1
  rw [mem_report hn hc h2, hf]
  constructor
  · rintro ⟨m, hm, hcm⟩
    by_cases hd : ∃ d, f = .mapping (.map (.module (.dataLayoutRecord d)))
    · obtain ⟨d, rfl⟩ := hd
      refine ⟨d, rfl, ?_⟩
      have hm : m ∈ "error while mapping the bitsteam".toList :: "error while mapping module".toList ::
        "invalid datalayout record".toList :: Stderr.layoutCauses utf8 d := hm
      have hx : ∀ x : Str, NoControl x → m ≠ x := fun x hx he => hx c (he ▸ hcm) hc
      rcases List.mem_cons.1 hm with rfl | hm
      · exact absurd rfl (hx _ (by clean_text))
      rcases List.mem_cons.1 hm with rfl | hm
      · exact absurd rfl (hx _ (by clean_text))
      rcases List.mem_cons.1 hm with rfl | hm
      · exact absurd rfl (hx _ (by clean_text))
      have hr := C74_only pf target bytes hlen hf
      cases hr with
      | inModule hr =>
        cases hr with
        | layout hr => exact only_layout hu hr m hm c hcm hc
    · exact absurd hc (clean_failure hp hu f (fun d hd' => hd ⟨d, hd'⟩) m hm c hcm)
  · rintro ⟨e, he, hq⟩
    obtain ⟨m, hm, hcm⟩ := quoted (utf8 := utf8) hq
    cases f with
    | opening f => cases he
    | mapping f =>
      cases he
      exact ⟨m, List.mem_cons_of_mem _ (List.mem_cons_of_mem _ (List.mem_cons_of_mem _ hm)), hcm⟩

/-- C78, for all files but those with a wrong datalayout text: the only control characters in the report are the ends of lines.
Missing: datalayout texts, see `C78_exact` and `C78_false`. -/
theorem C78_partial {pf : Profile} {target : Str} {plain : Char → Bool} {utf8 text : Str} {bytes : List U8}
    (hlen : bytes.length ≤ 2 ^ 61) (hp : PlainClean plain) (hu : NoControl utf8)
    (h : Stderr.program pf target plain utf8 bytes = .err text)
    (he : ∀ e, Bitcode.tryFrom pf target bytes ≠ .err (.map (.module (.dataLayoutRecord e)))) :
    ∀ c ∈ text, Control c → c = '\n' := by
  intro c hc hcc
  by_cases hn : c = '\n'
  · exact hn
  · obtain ⟨e, h1, _⟩ := (C78_exact hlen hp hu h hcc hn).1 hc
    exact absurd h1 (he e)

/-- C78, for the program that prints a stream. -/
theorem C78_dump {pf : Profile} {text : Str} {bytes : List U8} (h : (Stderr.dump pf bytes).2 = .err text) :
    ∀ c ∈ text, Control c → c = '\n' := by
  obtain ⟨e, lines, _, h1, rfl⟩ := C77_dump h
  intro c hc hcc
  by_cases hn : c = '\n'
  · exact hn
  · obtain ⟨m, hm, hcm⟩ := (mem_report hn hcc h1).1 hc
    exact absurd hcc (clean_bitstream e m hm c hcm)

/-- C78 is false: every control character of ASCII but the end of a line is in the report of some file. -/
theorem C78_false (pf : Profile) (target : Str) (plain : Char → Bool) (utf8 : Str) (c : Char) (hc : Control c) (hn : c ≠ '\n')
    (ha : c.toNat < 128) :
    ∃ bytes text, Stderr.program pf target plain utf8 bytes = .err text ∧ c ∈ text := by
  have hm : c ∉ "eESPGApivfaFmn".toList := fun hm => (show NoControl "eESPGApivfaFmn".toList by clean_text) c hm hc
  have hd : c ≠ '-' := by rintro rfl; revert hc; unfold Control; decide
  have h1 : SpecFault [c, 'x'] (.unknownSpec c) := .unknown hm
  have h2 : LayoutFault [c, 'x'] (.unknownSpec c) := by
    refine .spec (good := []) (rest := []) ?_ ⟨by simp, ?_, ?_⟩ .nil h1
    · simp only [List.mem_cons, List.not_mem_nil, or_false, forall_eq_or_imp, forall_eq]
      exact ⟨ha, by decide⟩
    · simp only [List.nil_append, forall_eq, List.mem_cons, List.not_mem_nil, or_false, not_or]
      exact ⟨Ne.symm hd, by decide⟩
    · rfl
  have hl : (Spec.utf8 [c, 'x']).length = 2 := by
    unfold Spec.utf8 Spec.utf8Char
    simp [show c.toNat < 0x80 from ha]
  obtain ⟨bytes, hb⟩ := C74_each pf target (.inModule (.layout (.spec (s := [c, 'x']) (by omega) (by omega) h2)))
  have hm : Stderr.program pf target plain utf8 bytes =
      .err (Stderr.report (Stderr.Failure.causes plain utf8 (.mapping (.map (.module (.dataLayoutRecord (.unknownSpec c))))))) := by
    unfold Stderr.program
    rw [tryFrom_main (by intro _ h; cases h) hb plain]
    rfl
  obtain ⟨f, lines, h3, h4, h5⟩ := C77_report hm
  rw [tryFrom_main (by intro _ h; cases h) hb plain] at h3
  obtain ⟨m, h6, h7⟩ := quoted (utf8 := utf8) (.spec (c := c))
  refine ⟨bytes, _, hm, ?_⟩
  rw [h5, mem_report hn hc h4, ← Out.err.inj h3]
  exact ⟨m, List.mem_cons_of_mem _ (List.mem_cons_of_mem _ (List.mem_cons_of_mem _ h6)), h7⟩

/-- The escape character, which terminals act on. -/
example : Control (Char.ofNat 27) ∧ Char.ofNat 27 ≠ '\n' ∧ (Char.ofNat 27).toNat < 128 := by
  unfold Control
  decide

/-- The characters of ASCII that `{:?}` leaves as they are. -/
def visible (c : Char) : Bool := 32 ≤ c.toNat && c.toNat < 127

theorem visible_clean : PlainClean visible := by
  intro c h hc
  unfold visible at h
  unfold Control at hc
  simp at h
  omega

/-- A failure to which the claims apply: the report is free of control characters but the ends of its lines. -/
example (pf : Profile) : ∀ c ∈ "Error: error while unrolling the bitstream: unexpected stream end during unroll\n".toList,
    Control c → c = '\n' := by
  refine C78_partial (pf := pf) (target := ['x']) (plain := visible) (utf8 := []) (bytes := exShort) (by decide) visible_clean
    (fun _ h => nomatch h) (exShort_report pf _ _) fun e h => ?_
  have := main_tryFrom (exShort_main pf visible)
  rw [this] at h
  cases h

end Verif.Props
