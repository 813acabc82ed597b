import Verif.Props.JoinGrammar
import Verif.Props.JoinTops
import Verif.Props.Range

/-!
# C79: files put one after the other

One expects of two files, put one after the other with one magic number, the modules of the first and then those of the second. That is
so if the modules of the first have symbol tables and no abbreviation is registered in it.
-/

namespace Verif

open Spec

/-! ## Containers -/

theorem containerBad_bare {bytes : List U8} (h : ¬ IsWrapper bytes) (h4 : 4 ≤ bytes.length) (b : Bad BErr) :
    ContainerBad bytes b ↔ bytes.length % 4 ≠ 0 ∧ b = .error (.badContainer .unaligned) := by
  unfold ContainerBad
  have h4' : ¬ bytes.length < 4 := by omega
  simp [first_cons, first_nil, fails, h, h4']

theorem join_bare {bytes₁ bytes₂ : List U8} (h : ¬ IsWrapper bytes₁) (h4 : 4 ≤ bytes₁.length) : ¬ IsWrapper (join bytes₁ bytes₂) := by
  unfold IsWrapper at h ⊢
  rcases bytes₁ with _ | ⟨a, _ | ⟨b, _ | ⟨c, _ | ⟨d, l⟩⟩⟩⟩
  · simp at h4
  · simp at h4
  · simp at h4
  · simp at h4
  · exact h

theorem payload_bare {bytes : List U8} (h : ¬ IsWrapper bytes) : payload bytes = bytes := if_neg h

/-! ## The first file -/

theorem from_bare {pf : Profile} {bytes : List U8} (h : ¬ IsWrapper bytes) {w : Option BitcodeWrapper} {b : Bitstream}
    (hb : Bitstream.from pf bytes = .ok (w, b)) : Bitstream.fromRaw bytes = .ok b ∧ 4 ≤ bytes.length ∧ bytes.length % 4 = 0 := by
  have hc := C68_container pf bytes
  rcases Props.C25_detect pf bytes with ⟨hl, e⟩ | ⟨hl, hw, e⟩ | ⟨hl, hw, e⟩
  · rw [e] at hb; cases hb
  · exact absurd hw h
  · rw [e] at hb
    obtain ⟨b', h1, h2⟩ := Out.bind_eq_ok.1 hb
    cases h2
    refine ⟨h1, hl, Classical.byContradiction fun h4 => ?_⟩
    have := (hc _).2 ((containerBad_bare h hl _).2 ⟨h4, rfl⟩)
    rw [e] at this
    exact this.not_ok hb

/-- Blocks of a file that maps. -/
structure FirstFile (pf : Profile) (target : Str) (bytes : List U8) (f : Bitcode) (tops : List (BBlock × Forest)) : Prop where
  long : 4 ≤ bytes.length
  words : bytes.length % 4 = 0
  small : SmallTables pf tops
  says : FileSays pf target tops f
  delivers : ∃ b, Bitstream.fromRaw bytes = .ok b ∧ Delivers pf b (completeEntries tops)

theorem first_file {pf : Profile} {target : Str} {bytes : List U8} {f : Bitcode} (hw : ¬ IsWrapper bytes)
    (hlen : bytes.length ≤ 2 ^ 61) (h : Bitcode.tryFrom pf target bytes = .ok f) : ∃ tops, FirstFile pf target bytes f tops := by
  obtain ⟨w, b, tops, hb, hd, hs⟩ := (C51_bytes pf target bytes hlen f).1 h
  obtain ⟨h1, h2, h3⟩ := from_bare hw hb
  refine ⟨tops, h2, h3, fun c hc bs hbs => ?_, hs, b, h1, hd⟩
  have h1 := table_small (.auto hb) (delivers_iterate hd) hc hbs
  have h2 := from_len hb
  omega

theorem FirstFile.entries {pf : Profile} {target : Str} {bytes : List U8} {f : Bitcode} {tops : List (BBlock × Forest)}
    (h : FirstFile pf target bytes f tops) {ms : List Entry} {k : Ctx} {outer : List Ctx}
    (hs : Stream pf toWord Ctx.start [] 32 ((bitsOf bytes).drop 32) ms k outer) : completeEntries tops = ms.map Entry.toStream := by
  obtain ⟨b, hb, hd⟩ := h.delivers
  exact delivers_unique hd ((C63_accepts pf hb _).2 ⟨ms, k, outer, hs, rfl⟩)

theorem consists_delivers {pf : Profile} {bytes : List U8} {b : Bitstream} {tops : List (BBlock × Forest)}
    (hb : Bitstream.fromRaw bytes = .ok b) (h4 : bytes.length % 4 = 0) (hl : 4 ≤ bytes.length) (hc : Consists pf bytes tops [] none) :
    Delivers pf b (completeEntries tops) := by
  obtain ⟨pre, tail, ms, k, outer, he, hs, hm, rfl⟩ := hc
  rw [List.append_nil] at he
  rw [C63_accepts pf hb]
  refine ⟨ms, k, outer, ?_, by simpa [openEntries] using hm⟩
  rw [he]
  have hlen := congrArg List.length he
  simp only [List.length_drop, bitsOf_length] at hlen
  refine stream_shift hs fun i hi => ?_
  exact toPiece_word (by omega) (by omega)

theorem delivers_consists {pf : Profile} {bytes : List U8} {b : Bitstream} {tops : List (BBlock × Forest)}
    (hb : Bitstream.fromRaw bytes = .ok b) (h4 : bytes.length % 4 = 0) (hl : 4 ≤ bytes.length)
    (hd : Delivers pf b (completeEntries tops)) : Consists pf bytes tops [] none := by
  obtain ⟨ms, k, outer, hs, hm⟩ := (C63_accepts pf hb _).1 hd
  refine ⟨_, [], ms, k, outer, (List.append_nil _).symm, stream_shift hs fun i hi => ?_, by simpa [openEntries] using hm, rfl⟩
  simp only [List.length_drop, bitsOf_length] at hi
  exact (toPiece_word (by omega) (by omega)).symm

/-! ## Both files -/

section
variable {pf : Profile} {target : Str} {bytes₁ bytes₂ : List U8} {f : Bitcode} {tops : List (BBlock × Forest)}

theorem partsBad_after {p : Parts (BBlock × Forest)} {b : Bad MapperError} (h : PartsBad pf p b) : Spec.Bad.after f b = b := by
  have key : ∀ {ε : Type} {g : ε → BlockMapError} {c : Check ε}, under (fun e => .map (g e)) c b → Spec.Bad.after f b = b := by
    rintro ε g c ⟨x | x, -, rfl⟩
    · simp [Bad.map, Spec.Bad.after]
    · rfl
  unfold PartsBad at h
  simp only [first_cons, first_nil, and_false, or_false] at h
  rcases h with ⟨-, rfl⟩ | ⟨-, ⟨c, -, h⟩ | ⟨-, h | ⟨-, ⟨-, rfl⟩ | ⟨-, ⟨c, bs, d, -, -, -, h⟩ | ⟨-, c, -, h⟩⟩⟩⟩⟩
  · simp [Spec.Bad.after]
  · exact key h
  · exact key h
  · simp [Spec.Bad.after]
  · exact key h
  · exact key h

/-- What is wrong with the second file is wrong with both. -/
theorem bad_join (h : FirstFile pf target bytes₁ f tops) (hw : ¬ IsWrapper bytes₁) (hs : Settled pf bytes₁) (hw' : ¬ IsWrapper bytes₂)
    (hl : 4 ≤ bytes₂.length) {bad : Bad MapperError} (hb : BytesBad pf bytes₂ bad) :
    ∃ bad', BytesBad pf (join bytes₁ bytes₂) bad' ∧ ((∀ m ∈ f.modules, m.symtab ≠ none) → bad' = Spec.Bad.after f bad) := by
  obtain ⟨ms, hst⟩ := hs
  have hms := h.entries hst
  have hlj := join_length (first := bytes₁) hl
  have hwj : ¬ IsWrapper (join bytes₁ bytes₂) := join_bare hw h.long
  have h1 := h.long
  have h2 := h.words
  have hcj := containerBad_bare hwj (by omega)
  have hc := containerBad_bare hw' hl
  unfold BytesBad at hb ⊢
  rw [first_cons, first_singleton] at hb
  simp only [first_cons (cs := [_]), first_singleton]
  rcases hb with ⟨x, hx, rfl⟩ | ⟨hno, hb⟩
  · rw [hc] at hx
    obtain ⟨hx, rfl⟩ := hx
    refine ⟨_, .inl ⟨_, (hcj _).2 ⟨by omega, rfl⟩, rfl⟩, fun _ => ?_⟩
    simp [Bad.map, Spec.Bad.after]
  · have h4 : bytes₂.length % 4 = 0 := by
      refine Classical.byContradiction fun h4 => hno _ ⟨_, (hc _).2 ⟨h4, rfl⟩, rfl⟩
    have hnoj : ∀ x, ¬ under MapperError.parse (ContainerBad (join bytes₁ bytes₂)) x := by
      rintro x ⟨y, hy, -⟩
      exact ((hcj y).1 hy).1 (by omega)
    rw [payload_bare hw'] at hb
    obtain ⟨tops', P, fl, hcons, hb⟩ := hb
    have hconsj := consists_join h.long h.words hl h4 hst hms hcons
    simp only [payload_bare hwj]
    obtain ⟨ht, htn⟩ := topsBad_after (tops' := tops') h.small h.says
    rw [first_cons, first_cons, first_cons, first_singleton] at hb
    rcases hb with hb | ⟨hb0, hb⟩
    · exact ⟨_, .inr ⟨hnoj, _, _, _, hconsj, first_cons.2 (.inl (ht _ hb))⟩, fun _ => rfl⟩
    · have hb0j := htn hb0
      have hstop : ∀ {b}, StreamBad fl b → Spec.Bad.after f b = b := by
        rintro b (⟨e, -, rfl⟩ | ⟨s, -, rfl⟩)
        · simp [Spec.Bad.after]
        · rfl
      rcases hb with hb | ⟨hb1, hb⟩
      · exact ⟨_, .inr ⟨hnoj, _, _, _, hconsj, first_cons.2 (.inr ⟨hb0j, first_cons.2 (.inl hb)⟩)⟩, fun _ => (hstop hb).symm⟩
      · rcases hb with ⟨hb, rfl⟩ | ⟨hb2, hb⟩
        · exact ⟨_, .inr ⟨hnoj, _, _, _, hconsj, first_cons.2 (.inr ⟨hb0j, first_cons.2 (.inr ⟨hb1, first_cons.2 (.inl ⟨hb, rfl⟩)⟩)⟩)⟩,
            fun _ => by simp [Spec.Bad.after]⟩
        · have hin := inOrder_of_none hb0
          have hp := parts_append hin tops
          have hlast : ∃ b', All (PartsBad pf) (parts (tops ++ tops')) b' ∧
              ((∀ m ∈ f.modules, m.symtab ≠ none) → b' = Spec.Bad.after f bad) := by
            rw [hp]
            by_cases hq : ∃ y, All (PartsBad pf) ((parts tops).map (withLater tops')) y
            · obtain ⟨y, hy⟩ := hq
              refine ⟨y, all_append.2 (.inl hy), fun hsym => ?_⟩
              rw [all_iff] at hy
              obtain ⟨pre, a, post, he, -, hy⟩ := hy
              have ha : a ∈ (parts tops).map (withLater tops') := by rw [he]; simp
              obtain ⟨p, hp, rfl⟩ := List.mem_map.1 ha
              obtain ⟨m, hm, hpm⟩ := each_left h.says.2 hp
              have hps : p.symtab ≠ none := by
                rcases hpm.symtab with ⟨-, hn⟩ | ⟨c, s, hc, -⟩
                · exact absurd hn (hsym m hm)
                · simp [hc]
              rw [follow_own ((says_modules h.says).2 p hp).1 hps] at hy
              exact absurd hy ((says_none h.small h.says).2 p hp y)
            · refine ⟨bad, all_append.2 (.inr ⟨all_none fun y hy => hq ⟨y, hy⟩, hb⟩), fun _ => ?_⟩
              obtain ⟨pre, p, post, -, -, hpb⟩ := all_iff.1 hb
              exact (partsBad_after hpb).symm
          obtain ⟨b', hb', he⟩ := hlast
          exact ⟨b', .inr ⟨hnoj, _, _, _, hconsj, first_cons.2 (.inr ⟨hb0j, first_cons.2 (.inr ⟨hb1,
            first_cons.2 (.inr ⟨hb2, first_singleton.2 hb'⟩)⟩)⟩)⟩, he⟩

/-- C79. What two files, one after the other, map to: the modules of the first, where those without a symbol table get the first one
in the second file, and the modules of the second. -/
theorem C79_exact (h : Bitcode.tryFrom pf target bytes₁ = .ok f) (hw : ¬ IsWrapper bytes₁) (hs : Settled pf bytes₁)
    (hw' : ¬ IsWrapper bytes₂) (hl : 4 ≤ bytes₂.length) (hlen : bytes₁.length + bytes₂.length ≤ 2 ^ 61) (x : Bitcode) :
    Bitcode.tryFrom pf target (join bytes₁ bytes₂) = .ok x ↔
      ∃ tops₂ g ms, Consists pf bytes₂ tops₂ [] none ∧ Bitcode.tryFrom pf target bytes₂ = .ok g ∧
        Each (Late pf tops₂) f.modules ms ∧ x.modules = ms ++ g.modules := by
  obtain ⟨tops, hf⟩ := first_file hw (by omega) h
  have hlj := join_length (first := bytes₁) hl
  have h1 := hf.long
  have h2 := hf.words
  have hwj : ¬ IsWrapper (join bytes₁ bytes₂) := join_bare hw hf.long
  have key : ∀ {g tops₂}, FirstFile pf target bytes₂ g tops₂ → (Bitcode.tryFrom pf target (join bytes₁ bytes₂) = .ok x ↔
      ∃ ms, Each (Late pf tops₂) f.modules ms ∧ x.modules = ms ++ g.modules) := by
    intro g tops₂ hg
    rw [← says_append hf.small hg.small hf.says hg.says]
    obtain ⟨b₂, hb₂, hd₂⟩ := hg.delivers
    obtain ⟨ms, hst⟩ := hs
    have hcj := consists_join hf.long hf.words hl hg.words hst (hf.entries hst) (delivers_consists hb₂ hg.words hl hd₂)
    have hcont := containerBad_bare hwj (by omega)
    have h4 := hg.words
    rw [C68_good pf target _ (by omega)]
    unfold BytesSay
    rw [payload_bare hwj]
    constructor
    · rintro ⟨hno, tops', hc', hsay⟩
      have hbr : ∃ b, Bitstream.fromRaw (join bytes₁ bytes₂) = .ok b := by
        rcases (Bitstream.from pf (join bytes₁ bytes₂)).ok_or_ends with ⟨⟨w, b⟩, hb⟩ | ⟨bad, hb⟩
        · exact ⟨b, (from_bare hwj hb).1⟩
        · exact absurd ((C68_container pf _ bad).1 hb) (hno bad)
      obtain ⟨b, hb⟩ := hbr
      have e := delivers_unique (consists_delivers hb (by omega) (by omega) hc') (consists_delivers hb (by omega) (by omega) hcj)
      have := (entries_unique (T := tops') (T' := tops ++ tops₂) (P := []) (P' := []) (by rw [e])).1
      rwa [← this]
    · intro hsay
      exact ⟨fun b hb => ((hcont b).1 hb).1 (by omega), _, hcj, hsay⟩
  constructor
  · intro hx
    rcases (Bitcode.tryFrom pf target bytes₂).ok_or_ends with ⟨g, hg⟩ | ⟨bad, hbad⟩
    · obtain ⟨tops₂, hf₂⟩ := first_file hw' (by omega) hg
      obtain ⟨ms, g1, g2⟩ := (key hf₂).1 hx
      obtain ⟨b₂, hb₂, hd₂⟩ := hf₂.delivers
      exact ⟨tops₂, g, ms, delivers_consists hb₂ hf₂.words hl hd₂, hg, g1, g2⟩
    · rw [C68_bad pf target _ (by omega)] at hbad
      obtain ⟨bad', hb', -⟩ := bad_join hf hw hs hw' hl hbad
      rw [← C68_bad pf target _ (by omega)] at hb'
      exact absurd hx hb'.not_ok
  · rintro ⟨tops₂, g, ms, hc, hg, h3, h4⟩
    obtain ⟨tops₂', hf₂⟩ := first_file hw' (by omega) hg
    obtain ⟨b₂, hb₂, hd₂⟩ := hf₂.delivers
    have e := delivers_unique (consists_delivers hb₂ hf₂.words hl hc) hd₂
    have := (entries_unique (T := tops₂) (T' := tops₂') (P := []) (P' := []) (by rw [e])).1
    subst this
    exact (key hf₂).2 ⟨ms, h3, h4⟩

/-- C79. If the modules of the first file have symbol tables, then mapping both files ends as mapping the second, with the modules of
the first before its modules. -/
theorem C79_join_partial (h : Bitcode.tryFrom pf target bytes₁ = .ok f) (hw : ¬ IsWrapper bytes₁) (hs : Settled pf bytes₁)
    (hsym : ∀ m ∈ f.modules, m.symtab ≠ none)
    (hw' : ¬ IsWrapper bytes₂) (hl : 4 ≤ bytes₂.length) (hlen : bytes₁.length + bytes₂.length ≤ 2 ^ 61) :
    Bitcode.tryFrom pf target (join bytes₁ bytes₂) = joined f (Bitcode.tryFrom pf target bytes₂) := by
  have hlj := join_length (first := bytes₁) hl
  rcases (Bitcode.tryFrom pf target bytes₂).ok_or_ends with ⟨g, hg⟩ | ⟨bad, hbad⟩
  · obtain ⟨tops₂, hf₂⟩ := first_file hw' (by omega) hg
    obtain ⟨b₂, hb₂, hd₂⟩ := hf₂.delivers
    rw [hg]
    refine (C79_exact h hw hs hw' hl hlen _).2 ⟨tops₂, g, f.modules, delivers_consists hb₂ hf₂.words hl hd₂, hg, ⟨rfl, ?_⟩, rfl⟩
    intro i m m' h1 h2
    rw [h1] at h2
    cases h2
    exact .own (hsym m (List.mem_of_getElem? h1))
  · obtain ⟨tops, hf⟩ := first_file hw (by omega) h
    obtain ⟨bad', hb', he⟩ := bad_join hf hw hs hw' hl ((C68_bad pf target _ (by omega) _).1 hbad)
    rw [← C68_bad pf target _ (by omega), he hsym] at hb'
    exact ends_eq hb' (joined_ends hbad)

end

end Verif
