import Verif.Props.LlvmLayout
import Verif.Props.Costs

/-! C93: files whose modules have datalayouts of LLVM's manual. -/

namespace Verif
open Spec

theorem utf8_ascii {s : Str} (h : ∀ c ∈ s, c.toNat < 128) : (utf8 s).length = s.length := by
  induction s with
  | nil => rfl
  | cons c s ih =>
    have h1 := h c (by simp)
    have h2 := ih fun c hc => h c (by simp [hc])
    simp only [utf8, List.flatMap_cons, List.length_append, List.length_map, List.length_cons] at h2 ⊢
    rw [h2, utf8Char, if_pos h1]
    simp only [List.length_cons, List.length_nil]
    omega

theorem intercalate_ascii {ss : List Str} (h : ∀ s ∈ ss, ∀ c ∈ s, c.toNat < 128) : ∀ c ∈ ['-'].intercalate ss, c.toNat < 128 := by
  induction ss with
  | nil => intro c hc; cases hc
  | cons s ss ih =>
    cases ss with
    | nil => rw [List.intercalate_singleton]; exact h s (by simp)
    | cons t ts =>
      rw [List.intercalate_cons_cons]
      intro c hc
      rcases List.mem_append.1 hc with hc | hc
      · rcases List.mem_append.1 hc with hc | hc
        · exact h s (by simp) c hc
        · rw [List.mem_singleton.1 hc]; decide
      · exact ih (fun s hs => h s (by simp [List.mem_cons.1 hs])) c hc

/-- The text of a datalayout has as many bytes as characters. -/
theorem llvmText_length {specs : List LlvmSpec} (ha : ∀ s ∈ specs, s.Allowed) :
    (utf8 (llvmText specs)).length = (llvmText specs).length := by
  refine utf8_ascii (intercalate_ascii fun t ht c hc => ?_)
  obtain ⟨s, hs, rfl⟩ := List.mem_map.1 ht
  exact (Props.LlvmSpec.plain_text (ha s hs) c hc).1

/-- What a module with such a datalayout says is nothing, unless all specs are usual. -/
theorem says_usual {pf : Profile} {target : Str} {tops : List (BBlock × Forest)} {f : Bitcode} (h : FileSays pf target tops f)
    {p : Parts (BBlock × Forest)} {c : BBlock × Forest} {r : BRecord} {specs : List LlvmSpec} (hp : p ∈ parts tops)
    (hc : p.module = some c) (hr : r ∈ c.2.records) (hr3 : r.code = 3) (hne : specs ≠ []) (ha : ∀ s ∈ specs, s.Allowed)
    (ht : AreBytes r.fields (utf8 (llvmText specs))) : (∀ s ∈ specs, s.Usual) ∧ r.fields.length ≠ 1 := by
  obtain ⟨k, hk⟩ := List.mem_iff_getElem?.1 hp
  obtain ⟨hl, he⟩ := h.2
  have hlt : k < f.modules.length := by have := (List.getElem?_eq_some_iff.1 hk).1; omega
  obtain ⟨c', ctx, fs, as, hc', hm⟩ := (he k p _ hk (List.getElem?_eq_getElem hlt)).module
  rw [hc] at hc'; cases hc'
  have hd := hm.tables.datalayout
  have hmem : r ∈ withCode c.2.records 3 := by
    rw [withCode, List.mem_filter]
    exact ⟨hr, by rw [hr3]; rfl⟩
  generalize withCode c.2.records 3 = l at hd hmem
  generalize ctx.datalayout = d at hd
  cases hd with
  | absent => cases hmem
  | present h' =>
    obtain ⟨s, hs, hsay⟩ := h'
    rw [List.mem_singleton] at hmem
    subst hmem
    have e : s = llvmText specs := by
      have h1 := (holds_iff pf r s).2 hs
      have h2 := (holds_iff pf r (llvmText specs)).2 ⟨ht, hs.2⟩
      rw [h1] at h2
      cases h2
      rfl
    rw [e] at hsay
    exact ⟨(Props.C93_parses_partial specs hne ha).1.1 ⟨d, (Props.C59_accepts _ _).2 hsay⟩, hs.2.1⟩

/-- C93, files. A file does not map if a module in it has a datalayout that LLVM allows, and that has a spec that is not usual or is only one
letter. -/
theorem C93_files (pf : Profile) (target : Str) (bytes : List U8) (hlen : bytes.length ≤ 2 ^ 61) {w : Option BitcodeWrapper}
    {b : Bitstream} (hb : Bitstream.from pf bytes = .ok (w, b)) {tops : List (BBlock × Forest)}
    (hd : Delivers pf b (completeEntries tops)) {p : Parts (BBlock × Forest)} {c : BBlock × Forest} {r : BRecord}
    {specs : List LlvmSpec} (hp : p ∈ parts tops) (hc : p.module = some c) (hr : r ∈ c.2.records) (hr3 : r.code = 3) (hne : specs ≠ [])
    (ha : ∀ s ∈ specs, s.Allowed) (ht : AreBytes r.fields (utf8 (llvmText specs)))
    (hu : (¬ ∀ s ∈ specs, s.Usual) ∨ (llvmText specs).length = 1) (f : Bitcode) : Bitcode.tryFrom pf target bytes ≠ .ok f := by
  intro h
  obtain ⟨w', b', tops', hb', hd', hs⟩ := (C51_bytes pf target bytes hlen f).1 h
  rw [hb] at hb'; cases hb'
  have := (entries_unique (T := tops) (T' := tops') (P := []) (P' := []) (by rw [delivers_unique hd hd'])).1
  subst this
  obtain ⟨h1, h2⟩ := says_usual hs hp hc hr hr3 hne ha ht
  rcases hu with hu | hu
  · exact hu h1
  · refine h2 ?_
    rw [ht, List.length_map, llvmText_length ha, hu]

/-- A module with a datalayout and nothing else. -/
def layoutModule (text : Str) : Tree :=
  .record 1 [2] (.record 3 ((utf8 text).map (·.setWidth 64)) (.block 17 (.record 1 [0] .nil) (.block 14 .nil .nil)))

/-- A file with one such module. -/
def layoutFile (text : Str) : Tree :=
  .block 13 (.record 1 [76, 76] (.record 2 [0] .nil)) (.block 8 (layoutModule text) (.block 23 (.record 1 [97, 97] .nil) .nil))

theorem layoutFile_fine (text : Str) : (layoutFile text).OnlyBlocks ∧ (layoutFile text).NoInfo ∧
    (layoutFile text).weight = (utf8 text).length + 40 := by
  refine ⟨by simp [layoutFile, Tree.OnlyBlocks], by simp [layoutFile, layoutModule, Tree.NoInfo], ?_⟩
  simp only [layoutFile, layoutModule, Tree.weight, List.length_cons, List.length_nil, List.length_map]
  omega

theorem layoutModule_says {pf : Profile} (target : Str) (strtab : Strtab) {text : Str} {d : DataLayout} (hl : 2 ≤ (utf8 text).length)
    (h : LayoutSays text d) :
    ModuleSays pf target strtab (layoutModule text).forest ⟨target, [], []⟩ { hxCtx [] with strtab, datalayout := d } [] [] where
  tables := {
    version := ⟨⟨none, 1, [2]⟩, [], rfl, rfl⟩
    datalayout := by
      refine Optionally.present (a := (⟨none, 3, (utf8 text).map (BitVec.setWidth 64)⟩ : BRecord)) (b := d) ⟨text, ⟨rfl, by simp; omega, fun h => ?_⟩, h⟩
      simp only [List.map_eq_nil_iff] at h
      rw [h] at hl
      simp at hl
    sections := each_nil_left.2 rfl
    gcs := each_nil_left.2 rfl
    strtab := rfl
    types := ⟨(⟨17, 0⟩, .record ⟨none, 1, [0]⟩ .nil), rfl,
      (C40_exact pf (.mk (.ir .type) [⟨none, 1, [0]⟩] []) []).1 (by cases pf <;> decide +kernel)⟩
    symbols := ⟨_, rfl⟩
    groups := .absent
    attributes := .absent
    comdats := each_nil_left.2 rfl }
  triple := .absent
  asm := .absent
  deplibs := each_nil_left.2 rfl
  functions := each_nil_left.2 rfl
  noBodies := rfl
  aliases := each_nil_left.2 rfl

theorem layoutFile_order (text : Str) : InOrder (layoutFile text).tops := by
  intro pre c post h
  simp only [layoutFile, Tree.tops, Tree.forest, Forest.blocks] at h
  match pre, h with
  | [], h => simp only [List.nil_append, List.cons.injEq] at h; rw [← h.1]; exact .inl (by simp)
  | [a], h =>
    simp only [List.cons_append, List.nil_append, List.cons.injEq] at h
    obtain ⟨rfl, rfl, -⟩ := h
    exact .inr ⟨rfl, [], _, [], rfl, rfl, by simp⟩
  | [a, a'], h =>
    simp only [List.cons_append, List.nil_append, List.cons.injEq] at h
    obtain ⟨rfl, rfl, rfl, -⟩ := h
    exact .inl (by simp)
  | a :: a' :: a'' :: pre, h =>
    simp at h

/-- C93, files: whatever datalayout LLVM allows, the file with one module that has it maps if and only if all its specs are usual and it is not
only one letter. -/
theorem C93_files_refuted (pf : Profile) (target : Str) (specs : List LlvmSpec) (hne : specs ≠ []) (ha : ∀ s ∈ specs, s.Allowed)
    (hl : (llvmText specs).length ≤ 2 ^ 29) :
    ∃ bytes es, streamBytes 0xdec04342 (layoutFile (llvmText specs)).items = some (bytes, es) ∧
      ((∃ f, Bitcode.tryFrom pf target bytes = .ok f) ↔ (∀ s ∈ specs, s.Usual) ∧ (llvmText specs).length ≠ 1) := by
  obtain ⟨f1, f2, f3⟩ := layoutFile_fine (llvmText specs)
  rw [llvmText_length ha] at f3
  obtain ⟨bytes, es, h1, h2, h3⟩ := C69_writes 0xdec04342 _ f1 f2 (by omega)
  refine ⟨bytes, es, h1, ?_, ?_⟩
  · rintro ⟨f, h⟩
    rw [C69_maps pf target h1 (by decide) (by omega), h2] at h
    obtain ⟨g1, g2⟩ := says_usual h (p := _) (c := (⟨8, 0⟩, (layoutModule (llvmText specs)).forest))
      (r := ⟨none, 3, (utf8 (llvmText specs)).map (BitVec.setWidth 64)⟩) (.head _) rfl (.tail _ (.head _)) rfl hne ha rfl
    rw [List.length_map, llvmText_length ha] at g2
    exact ⟨g1, g2⟩
  · rintro ⟨hu, h'⟩
    obtain ⟨d, hd⟩ := (Props.C93_parses_partial specs hne ha).1.2 hu
    have hl0 : (llvmText specs).length ≠ 0 := by
      intro h0
      rw [List.length_eq_zero_iff.1 h0] at hd
      exact absurd hd (by intro h; cases h)
    refine ⟨⟨[sharedModule target [97, 97]]⟩, (C69_maps pf target h1 (by decide) (by omega) _).2 ?_⟩
    rw [h2]
    refine ⟨layoutFile_order _, ?_⟩
    have g1 : parts (layoutFile (llvmText specs)).tops =
        [{ identification := (⟨13, 0⟩, .record ⟨none, 1, [76, 76]⟩ (.record ⟨none, 2, [0]⟩ .nil))
           module := some (⟨8, 0⟩, (layoutModule (llvmText specs)).forest)
           strtab := some (⟨23, 0⟩, .record ⟨none, 1, [97, 97]⟩ .nil)
           symtab := none }] := rfl
    rw [g1, each_cons]
    exact ⟨⟨⟨⟨⟨none, 1, [76, 76]⟩, ⟨[], _, rfl, rfl, by simp⟩, rfl, by simp, by simp⟩,
        ⟨⟨none, 2, [0]⟩, [], ⟨[_], [], rfl, rfl, by simp⟩, rfl⟩⟩,
      ⟨_, rfl, ⟨none, 1, [97, 97]⟩, ⟨[], [], rfl, rfl, by simp⟩, rfl, by simp, fun h => by cases h⟩,
      ⟨_, _, [], [], rfl, layoutModule_says target ⟨[97, 97]⟩ (by rw [llvmText_length ha]; omega) ((Props.C59_accepts _ _).1 hd)⟩,
      .inl ⟨rfl, rfl⟩⟩, each_nil_left.2 rfl⟩

/-- The file with the datalayout of 64-bit Linux on x86 maps; that with the one of 32-bit Linux on ARM does not, nor that with `e` alone. -/
example (pf : Profile) (target : Str) :
    (∃ bytes es f, streamBytes 0xdec04342 (layoutFile (llvmText Props.exLinux)).items = some (bytes, es) ∧
      Bitcode.tryFrom pf target bytes = .ok f) ∧
    (∃ bytes es, streamBytes 0xdec04342 (layoutFile (llvmText Props.exArm)).items = some (bytes, es) ∧
      ∀ f, Bitcode.tryFrom pf target bytes ≠ .ok f) ∧
    ∃ bytes es, streamBytes 0xdec04342 (layoutFile ['e']).items = some (bytes, es) ∧ ∀ f, Bitcode.tryFrom pf target bytes ≠ .ok f := by
  refine ⟨?_, ?_, ?_⟩
  · obtain ⟨bytes, es, h1, h2⟩ := C93_files_refuted pf target Props.exLinux (by simp [Props.exLinux])
      (fun s hs => (Props.exLinux_allowed s hs).1) (by decide +kernel)
    obtain ⟨f, hf⟩ := h2.2 ⟨fun s hs => (Props.exLinux_allowed s hs).2, by decide +kernel⟩
    exact ⟨bytes, es, f, h1, hf⟩
  · obtain ⟨bytes, es, h1, h2⟩ := C93_files_refuted pf target Props.exArm (by simp [Props.exArm]) Props.exArm_allowed (by decide +kernel)
    exact ⟨bytes, es, h1, fun f hf => (h2.1 ⟨f, hf⟩).1 (.aggregate 0 (some 32)) (by simp [Props.exArm]) rfl⟩
  · obtain ⟨bytes, es, h1, h2⟩ := C93_files_refuted pf target [.little] (by simp)
      (fun s hs => by rw [List.mem_singleton.1 hs]; trivial) (by decide +kernel)
    exact ⟨bytes, es, h1, fun f hf => (h2.1 ⟨f, hf⟩).2 (by decide +kernel)⟩

/-- The file with the datalayout `a:0` meets the hypotheses of `C93_files`. -/
example : ∃ bytes w b tops p c r, bytes.length ≤ 2 ^ 61 ∧ Bitstream.from .debug bytes = .ok (w, b) ∧
    Delivers .debug b (completeEntries tops) ∧ p ∈ parts tops ∧ p.module = some c ∧ r ∈ c.2.records ∧ r.code = 3 ∧
    (∀ s ∈ [LlvmSpec.aggregate 0 none], s.Allowed) ∧ AreBytes r.fields (utf8 (llvmText [.aggregate 0 none])) ∧
    ¬ ∀ s ∈ [LlvmSpec.aggregate 0 none], s.Usual := by
  have key : (streamBytes 0xdec04342 (layoutFile ['a', ':', '0']).items).map
      (fun x => (x.1.length, x.2.map Entry.toStream)) = some (80, completeEntries
        [(⟨13, 8⟩, .record ⟨none, 1, [76, 76]⟩ (.record ⟨none, 2, [0]⟩ .nil)),
          (⟨8, 36⟩, .record ⟨none, 1, [2]⟩ (.record ⟨none, 3, [97, 58, 48]⟩ (.block ⟨17, 4⟩
            (.record ⟨none, 1, [0]⟩ .nil) (.block ⟨14, 4⟩ .nil .nil)))),
          (⟨23, 8⟩, .record ⟨none, 1, [97, 97]⟩ .nil)]) := by
    decide +kernel
  obtain ⟨⟨bytes, es⟩, h1, h2⟩ := Option.map_eq_some_iff.1 key
  simp only [Prod.mk.injEq] at h2
  obtain ⟨b, hb, -, hd⟩ := Props.C18_stream_roundtrip_from .debug h1 (by decide)
  rw [h2.2] at hd
  refine ⟨bytes, none, b, _, _, _, ⟨none, 3, [97, 58, 48]⟩, by rw [h2.1]; decide, hb, hd, List.mem_cons_self, rfl, .tail _ (.head _), rfl,
    fun s hs => ?_, by unfold AreBytes; decide +kernel, fun h => h (.aggregate 0 none) (by simp) rfl⟩
  rw [List.mem_singleton.1 hs]
  exact ⟨.inl rfl, fun p h => by cases h⟩

end Verif
