import Verif.Props.JoinCases

/-!
# C80: files that are cut off

If the end of a file is missing, one expects that this is noticed, or that at least what is there is as it was in the whole file.
-/

namespace Verif

open Spec

/-! ## Entries -/

/-- C80. The entries that can be read of a stream that is cut off are the first entries of the whole stream, whether or not one of
them, or both, can be read to the end. -/
theorem C80_entries (pf : Profile) {bytes rest : List U8} {b b' : Bitstream} (h : Bitstream.fromRaw bytes = .ok b)
    (h' : Bitstream.fromRaw (bytes ++ rest) = .ok b') {es : List StreamEntry} {c : Bitstream}
    (he : iterate pf es.length b = (es.map .item, c)) : ∃ c', iterate pf es.length b' = (es.map .item, c') := by
  obtain ⟨pre, tail, ms, k, outer, h1, h2, h3⟩ := (C63_prefix pf h es).1 ⟨c, he⟩
  refine (C63_prefix pf h' es).2 ⟨pre, tail ++ bitsOf rest, ms, k, outer, ?_, h2, h3⟩
  have hl : 4 ≤ bytes.length := by
    rcases Props.C25_raw bytes with ⟨-, hl, -⟩ | ⟨-, e⟩ | ⟨-, e⟩
    · exact hl
    · rw [e] at h; cases h
    · rw [e] at h; cases h
  rw [bitsOf_append, List.drop_append_of_le_length (by rw [bitsOf_length]; omega), h1, List.append_assoc]

theorem gives_of_delivers {pf : Profile} {es : List StreamEntry} : ∀ {b : Bitstream}, Delivers pf b es →
    ∃ c, iterate pf es.length b = (es.map .item, c) := by
  induction es with
  | nil => intro b _; exact ⟨_, rfl⟩
  | cons e es ih =>
    rintro b ⟨b', h1, h2⟩
    obtain ⟨c, hc⟩ := ih h2
    exact ⟨c, by simp only [List.length_cons, iterate, h1, hc]; rfl⟩

/-- What is read of a stream that can be read to the end is a beginning of what it delivers. -/
theorem prefix_of_iterate {pf : Profile} {es es' : List StreamEntry} : ∀ {b c : Bitstream}, iterate pf es.length b = (es.map .item, c) →
    Delivers pf b es' → es <+: es' := by
  induction es generalizing es' with
  | nil => intro b c _ _; exact List.nil_prefix
  | cons e es ih =>
    intro b c h hd
    simp only [List.length_cons, iterate, List.map_cons, Prod.mk.injEq, List.cons.injEq] at h
    obtain ⟨⟨h1, h2⟩, h3⟩ := h
    cases es' with
    | nil =>
      obtain ⟨b', hb, -⟩ := hd
      rw [hb] at h1
      cases h1
    | cons e' es' =>
      obtain ⟨b', hb, hd⟩ := hd
      rw [hb] at h1 h2 h3
      cases h1
      exact (List.cons_prefix_cons).2 ⟨rfl, ih (Prod.ext h2 h3) hd⟩

/-! ## Blocks -/

theorem readBack_more (es : List StreamEntry) : ∀ (T T' S : List (BBlock × Forest)),
    es.foldl readBack (T ++ T', S) = (T ++ (es.foldl readBack (T', S)).1, (es.foldl readBack (T', S)).2) := by
  induction es with
  | nil => intro T T' S; rfl
  | cons e es ih =>
    intro T T' S
    simp only [List.foldl_cons]
    rcases e with r | - | s <;> rcases S with _ | ⟨⟨s', t⟩, _ | ⟨⟨s'', t'⟩, S⟩⟩ <;>
      simp only [readBack, ih, List.append_assoc]

theorem complete_prefix {tops tops' : List (BBlock × Forest)} (h : completeEntries tops <+: completeEntries tops') : tops <+: tops' := by
  obtain ⟨es, he⟩ := h
  have h1 := readBack_complete tops' []
  rw [← he, List.foldl_append, readBack_complete] at h1
  have h2 := readBack_more es tops [] []
  rw [List.append_nil] at h2
  rw [List.nil_append, h2] at h1
  exact ⟨_, congrArg Prod.fst h1⟩

/-! ## Files -/

section
variable {pf : Profile} {target : Str} {bytes rest : List U8} {f g : Bitcode}

theorem cut_tops {tops tops' : List (BBlock × Forest)} (h : FirstFile pf target bytes f tops)
    (h' : FirstFile pf target (bytes ++ rest) g tops') : ∃ more, tops' = tops ++ more := by
  obtain ⟨b, hb, hd⟩ := h.delivers
  obtain ⟨b', hb', hd'⟩ := h'.delivers
  obtain ⟨c, hc⟩ := gives_of_delivers hd
  obtain ⟨c', hc'⟩ := C80_entries pf hb hb' hc
  obtain ⟨more, hm⟩ := complete_prefix (prefix_of_iterate hc' hd')
  exact ⟨more, hm.symm⟩

theorem isWrapper_append (h4 : 4 ≤ bytes.length) : IsWrapper (bytes ++ rest) ↔ IsWrapper bytes := by
  unfold IsWrapper
  rcases bytes with _ | ⟨a, _ | ⟨b, _ | ⟨c, _ | ⟨d, l⟩⟩⟩⟩ <;> simp at h4 <;> rfl

/-- The modules of a bare file that is cut off, in those of the whole file. -/
theorem cut_modules (h : Bitcode.tryFrom pf target bytes = .ok f) (h' : Bitcode.tryFrom pf target (bytes ++ rest) = .ok g)
    (hw : ¬ IsWrapper bytes) (hlen : bytes.length + rest.length ≤ 2 ^ 61) :
    ∃ more ms gs, Each (Late pf more) f.modules ms ∧ g.modules = ms ++ gs := by
  obtain ⟨tops, hf⟩ := first_file hw (by omega) h
  have hw' : ¬ IsWrapper (bytes ++ rest) := fun hx => hw ((isWrapper_append hf.long).1 hx)
  obtain ⟨tops', hg⟩ := first_file hw' (by rw [List.length_append]; omega) h'
  obtain ⟨more, rfl⟩ := cut_tops hf hg
  have hin : InOrder more := inOrder_of_none fun b hb => (says_none hg.small hg.says).1 _ ((topsBad_after hf.small hf.says).1 b hb)
  have hs := hg.says.2
  rw [parts_append hin, each_append_left] at hs
  obtain ⟨ms, gs, he, h1, -⟩ := hs
  exact ⟨more, ms, gs, (each_late hf.small hf.says ms).1 h1, he⟩

/-- C80. A file in a wrapper that is cut off within the size that the wrapper declares is refused, and what the error says is that.
If what is missing is only behind that, then mapping ends as before. -/
theorem C80_wrapped (hw : IsWrapper (bytes ++ rest)) (hlen : bytes.length + rest.length ≤ 2 ^ 61) :
    (bytes.length < wrapperSize (bytes ++ rest) + 20 → Bitcode.tryFrom pf target bytes =
      .err (.parse (.cursor (if bytes.length < 20 then cutError (bytes.length % 4) else .invalidLength)))) ∧
    (wrapperSize (bytes ++ rest) + 20 ≤ bytes.length → Bitcode.tryFrom pf target bytes = Bitcode.tryFrom pf target (bytes ++ rest)) := by
  have hsize : 20 ≤ bytes.length → wrapperSize (bytes ++ rest) = wrapperSize bytes ∧ wrapperOffset (bytes ++ rest) = wrapperOffset bytes := by
    intro h
    have key : ∀ n, n + 4 ≤ 20 → word32 ((bytes ++ rest).drop n) = word32 (bytes.drop n) := by
      intro n hn
      rw [List.drop_append_of_le_length (by omega)]
      have hl : 4 ≤ (bytes.drop n).length := by rw [List.length_drop]; omega
      generalize bytes.drop n = l at hl
      rcases l with _ | ⟨a, _ | ⟨b, _ | ⟨c, _ | ⟨d, l⟩⟩⟩⟩ <;> simp at hl <;> rfl
    unfold wrapperSize wrapperOffset
    rw [key 12 (by omega), key 8 (by omega)]
    exact ⟨rfl, rfl⟩
  constructor
  · intro hcut
    refine (C68_bad pf target bytes (by omega) (.error _)).2 ?_
    unfold BytesBad
    refine first_cons.2 (.inl ⟨.error (.cursor (if bytes.length < 20 then cutError (bytes.length % 4) else .invalidLength)), ?_, rfl⟩)
    unfold ContainerBad
    by_cases h4 : bytes.length < 4
    · refine first_cons.2 (.inl ⟨h4, ?_⟩)
      rw [if_pos (by omega), Nat.mod_eq_of_lt h4]
    · have hwb : IsWrapper bytes := (isWrapper_append (by omega)).1 hw
      refine first_cons.2 (.inr ⟨fun _ h => h4 h.1, ?_⟩)
      by_cases h20 : bytes.length < 20
      · exact first_cons.2 (.inl ⟨⟨hwb, h20⟩, by rw [if_pos h20]⟩)
      · refine first_cons.2 (.inr ⟨fun _ h => h20 h.1.2, first_cons.2 (.inl ⟨⟨hwb, ?_⟩, by rw [if_neg h20]⟩)⟩)
        rw [← (hsize (by omega)).1]
        exact hcut
  · intro hcut
    obtain ⟨hs, ho⟩ := hsize (by omega)
    have hwb : IsWrapper bytes := (isWrapper_append (by omega)).1 hw
    have hp : payload (bytes ++ rest) = payload bytes := by
      unfold payload
      rw [if_pos hw, if_pos hwb, hs, ho, List.take_append_of_le_length (by omega)]
    have hc : ContainerBad (bytes ++ rest) = ContainerBad bytes := by
      funext b
      have hl : (bytes ++ rest).length = bytes.length + rest.length := List.length_append
      unfold ContainerBad
      have e1 : ¬ (bytes ++ rest).length < 4 := by omega
      have e2 : ¬ (bytes ++ rest).length < 20 := by omega
      have e3 : ¬ (bytes ++ rest).length < wrapperSize bytes + 20 := by omega
      have e4 : ¬ bytes.length < 4 := by omega
      have e5 : ¬ bytes.length < 20 := by omega
      have e6 : ¬ bytes.length < wrapperSize bytes + 20 := by omega
      have hno : ∀ e : BErr, fails False e = fun _ => False := fun e => by funext b; simp [fails]
      simp only [hs, ho, hw, hwb, e1, e2, e3, e4, e5, e6, hno, not_true_eq_false, false_and, true_and]
    rcases (Bitcode.tryFrom pf target bytes).ok_or_ends with ⟨f, hf⟩ | ⟨bad, hbad⟩
    · rw [hf]
      rw [C68_good pf target _ (by omega)] at hf
      refine ((C68_good pf target _ (by rw [List.length_append]; omega) f).2 ?_).symm
      unfold BytesSay at hf ⊢
      rwa [hp, hc]
    · refine ends_eq hbad ((C68_bad pf target _ (by rw [List.length_append]; omega) bad).2 ?_)
      rw [C68_bad pf target _ (by omega)] at hbad
      unfold BytesBad at hbad ⊢
      rwa [hp, hc]

/-- C80, as far as it is true. If a file that is cut off maps, then to the first modules of the whole file, of which symbol tables may be
missing. -/
theorem C80_cut_partial (h : Bitcode.tryFrom pf target bytes = .ok f) (h' : Bitcode.tryFrom pf target (bytes ++ rest) = .ok g)
    (hlen : bytes.length + rest.length ≤ 2 ^ 61) :
    ∃ ms more, g.modules = ms ++ more ∧ Each (fun m m' => m = m' ∨ m = { m' with symtab := none }) f.modules ms := by
  by_cases hw : IsWrapper bytes
  · have h4 : 4 ≤ bytes.length := by
      refine Classical.byContradiction fun h4 => ?_
      rcases bytes with _ | ⟨a, _ | ⟨b, _ | ⟨c, l⟩⟩⟩
      · cases hw
      · cases hw
      · cases hw
      · rcases l with _ | ⟨d, l⟩
        · cases hw
        · simp at h4
    obtain ⟨h1, h2⟩ := C80_wrapped (pf := pf) (target := target) ((isWrapper_append (rest := rest) h4).2 hw) hlen
    have hl : wrapperSize (bytes ++ rest) + 20 ≤ bytes.length := by
      refine Classical.byContradiction fun hl => ?_
      rw [h1 (by omega)] at h
      cases h
    rw [h2 hl, h'] at h
    cases h
    exact ⟨f.modules, [], (List.append_nil _).symm, rfl, fun i m m' h1 h2 => by rw [h1] at h2; cases h2; exact .inl rfl⟩
  · obtain ⟨more, ms, gs, h1, h2⟩ := cut_modules h h' hw hlen
    refine ⟨ms, gs, h2, h1.1, fun i m m' hm hm' => ?_⟩
    cases h1.2 i m m' hm hm' with
    | own => exact .inl rfl
    | none => exact .inl rfl
    | found hn => exact .inr (by rw [← hn])

/-- C80. If its modules have their symbol tables, then they are the first modules of the whole file. -/
theorem C80_complete (h : Bitcode.tryFrom pf target bytes = .ok f) (h' : Bitcode.tryFrom pf target (bytes ++ rest) = .ok g)
    (hlen : bytes.length + rest.length ≤ 2 ^ 61) (hsym : ∀ m ∈ f.modules, m.symtab ≠ none) : f.modules <+: g.modules := by
  obtain ⟨ms, more, h1, h2, h3⟩ := C80_cut_partial h h' hlen
  have e : ms = f.modules := by
    refine List.ext_getElem? fun i => ?_
    rcases Nat.lt_or_ge i f.modules.length with hi | hi
    · have hm := List.getElem?_eq_getElem hi
      have hm' := List.getElem?_eq_getElem (h2 ▸ hi : i < ms.length)
      rw [hm, hm']
      rcases h3 i _ _ hm hm' with e | e
      · rw [e]
      · exact absurd (by rw [e]) (hsym _ (List.getElem_mem hi))
    · rw [List.getElem?_eq_none hi, List.getElem?_eq_none (by omega)]
  exact ⟨more, by rw [h1, e]⟩

end

/-! ## Examples -/

/-- A module and its string table; and a symbol table, which is behind that. -/
def exCutOff : Items :=
  .block 13 5 (.unabbrev 1 [76, 76, 86, 77] (.unabbrev 2 [0] .nil)) <|
  .block 8 3 (.unabbrev 1 [2] (.block 17 4 (.unabbrev 1 [0] .nil) (.block 14 4 .nil .nil))) <|
  .block 23 3 (.define { scalars := [.lit 1], tail := .blob } (.abbrev 4 1 [99, 102] .nil)) .nil

def exSymbols : Items := .block 25 3 (.define { scalars := [.lit 1], tail := .blob } (.abbrev 4 1 [1, 2] .nil)) .nil

/-- C80 fails for symbol tables: what is cut off can be the symbol table of a module, and that is not noticed. -/
theorem C80_false (pf : Profile) : ∃ bytes rest f g, Bitcode.tryFrom pf "t".toList bytes = .ok f ∧
    Bitcode.tryFrom pf "t".toList (bytes ++ rest) = .ok g ∧ ¬ f.modules <+: g.modules := by
  have key : ((streamBytes 0xdec04342 exCutOff).bind fun x => (streamBytes 0xdec04342 exSymbols).map fun y =>
      match Bitcode.tryFrom pf "t".toList x.1, Bitcode.tryFrom pf "t".toList (join x.1 y.1) with
      | .ok f, .ok g => (f.modules.map (·.symtab), g.modules.map (·.symtab))
      | _, _ => ([], [])) = some ([none], [some ⟨[1, 2]⟩]) := by
    cases pf <;> decide +kernel
  cases hs₁ : streamBytes 0xdec04342 exCutOff with
  | none => rw [hs₁] at key; cases key
  | some x =>
    cases hs₂ : streamBytes 0xdec04342 exSymbols with
    | none => rw [hs₁, hs₂] at key; cases key
    | some y =>
      rw [hs₁, hs₂] at key
      simp only [Option.bind_some, Option.map_some, Option.some.injEq] at key
      split at key
      · next f g hf hg =>
        simp only [Prod.mk.injEq] at key
        refine ⟨x.1, y.1.drop 4, f, g, hf, hg, fun hp => ?_⟩
        have := List.IsPrefix.map (·.symtab) hp
        rw [key.1, key.2] at this
        simp at this
      · cases key

/-- The file before with a symbol table for each of its modules, and twice: `C80_complete` applies. -/
example (pf : Profile) : ∃ bytes rest g, rest ≠ [] ∧ Bitcode.tryFrom pf "t".toList bytes = .ok exBitcode ∧
    Bitcode.tryFrom pf "t".toList (bytes ++ rest) = .ok g ∧ (∀ m ∈ exBitcode.modules, m.symtab ≠ none) ∧ g ≠ exBitcode ∧
    bytes.length + rest.length ≤ 2 ^ 61 := by
  have hm := exFile_maps pf
  have hl : (streamBytes 0xdec04342 exFile).map (fun x => decide (4 < x.1.length ∧ x.1.length ≤ 2 ^ 10)) = some true := by decide +kernel
  cases hs : streamBytes 0xdec04342 exFile with
  | none => rw [hs] at hm; cases hm
  | some x =>
    obtain ⟨bytes, es⟩ := x
    rw [hs] at hm hl
    have hm : Bitcode.tryFrom pf "t".toList bytes = .ok exBitcode := Option.some.inj hm
    simp only [Option.map_some, Option.some.injEq, decide_eq_true_eq] at hl
    obtain ⟨hw, h4⟩ := written_bare hs (by decide)
    refine ⟨bytes, bytes.drop 4, { modules := exBitcode.modules ++ exBitcode.modules }, ?_, hm, ?_, by simp [exBitcode],
      by simp [exBitcode], by rw [List.length_drop]; omega⟩
    · intro h
      have := congrArg List.length h
      rw [List.length_drop] at this
      simp at this
      omega
    · have := C79_join_partial hm hw (written_settled pf hs exFile_noInfo) (by simp [exBitcode]) hw h4 (by omega)
      rw [hm] at this
      exact this

/-- A wrapper for 8 bytes, of which the last is missing. -/
example (pf : Profile) : Bitcode.tryFrom pf "t".toList (wrapperHeader 0 20 8 7 ++ [0x42, 0x43, 0xC0, 0xDE, 1, 2, 3]) =
    .err (.parse (.cursor .invalidLength)) :=
  (C80_wrapped (rest := [4]) (by decide) (by decide)).1 (by decide)

/-- The start of a block, and more. -/
example (pf : Profile) : ∃ bytes rest b b' c, rest ≠ [] ∧ Bitstream.fromRaw bytes = .ok b ∧ Bitstream.fromRaw (bytes ++ rest) = .ok b' ∧
    iterate pf [StreamEntry.subBlock { blockId := 13, len := 12 }].length b =
      ([StreamEntry.subBlock { blockId := 13, len := 12 }].map .item, c) := by
  have key : (match Bitstream.fromRaw [0x42, 0x43, 0xC0, 0xDE, 0x35, 0x14, 0, 0, 3, 0, 0, 0] with
      | .ok b => (iterate pf 1 b).1
      | _ => []) = [.item (.subBlock { blockId := 13, len := 12 })] := by
    cases pf <;> decide +kernel
  split at key
  · next b hb =>
    rcases Props.C25_raw ([0x42, 0x43, 0xC0, 0xDE, 0x35, 0x14, 0, 0, 3, 0, 0, 0] ++ [9, 0, 0, 0]) with ⟨-, -, b', hb', -⟩ | ⟨h, -⟩ | ⟨h, -⟩
    · exact ⟨_, _, b, b', _, by simp, hb, hb', Prod.ext key rfl⟩
    · exact absurd h (by decide)
    · cases h
  · cases key

end Verif
