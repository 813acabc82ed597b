import Verif.Props.Join

/-!
# C79, continued: where it is not as one expects
-/

namespace Verif

open Spec

/-! ## With the second magic number -/

/-- The bits of the magic number, as they are read after a stream: the start of a definition of an abbreviation with 96 operands, of
which the first is a VBR integer of width 0 and the second an array, which can only be the last but one. -/
theorem magic_noItem (pf : Profile) (pad : Nat → Nat) {k : Ctx} (hk : k.width = 2) (pos : Nat) (rest : List U8) :
    NoItem pf pad k [] pos (bitsOf ([0x42, 0x43, 0xC0, 0xDE] ++ rest)) (.error (.abbrevParse .arrayIndex)) := by
  have hb : bitsOf ([0x42, 0x43, 0xC0, 0xDE] ++ rest) = bitsOfNat 2 2 ++ (rawVbr 5 [0, 6] ++ ((false :: (bitsOfNat 3 2 ++ rawVbr 5 [0])) ++
      (false :: (bitsOfNat 3 3 ++ (bitsOfNat 7 111 ++ bitsOf rest))))) := by
    rw [bitsOf_append, show bitsOf [0x42, 0x43, 0xC0, 0xDE] = bitsOfNat 2 2 ++ (rawVbr 5 [0, 6] ++
      ((false :: (bitsOfNat 3 2 ++ rawVbr 5 [0])) ++ (false :: (bitsOfNat 3 3 ++ bitsOfNat 7 111)))) by decide +kernel]
    simp only [List.append_assoc, List.cons_append]
  refine .define hb (by rw [idBits, hk]; rfl) (.operand (num := 96) (ss := [.enc (.vbr 0)]) rfl ?_ ?_ (by decide) ?_)
  · exact ⟨[0, 6], by simp, by simp, rfl, by rw [if_pos (by decide)]; rfl⟩
  · exact ⟨_, [], (List.append_nil _).symm, ⟨_, rfl, _, rfl, [0], by simp, by simp, rfl, by rw [if_pos (by decide)]; rfl⟩, rfl⟩
  · refine .encoding rfl (.other (n := 3) rfl (.inl rfl) (.inl ⟨rfl, .inr (.inl ⟨fun h => ?_, ?_, rfl⟩)⟩))
    · exact absurd h (by decide)
    · decide

/-- C79. With both magic numbers they never map: a file that maps and is closed, and then the magic number and anything, is always
rejected with the same error, about an abbreviation. -/
theorem C79_headers {pf : Profile} {target : Str} {bytes rest : List U8} {f : Bitcode} (h : Bitcode.tryFrom pf target bytes = .ok f)
    (hw : ¬ IsWrapper bytes) (hc : Closed pf bytes) (h4 : rest.length % 4 = 0) (hlen : bytes.length + 4 + rest.length ≤ 2 ^ 61) :
    Bitcode.tryFrom pf target (bytes ++ ([0x42, 0x43, 0xC0, 0xDE] ++ rest)) = .err (.parse (.abbrevParse .arrayIndex)) := by
  obtain ⟨tops, hf⟩ := first_file hw (by omega) h
  obtain ⟨ms, k, hs⟩ := hc
  have h1 := hf.long
  have h2 := hf.words
  have hlj : (bytes ++ ([0x42, 0x43, 0xC0, 0xDE] ++ rest)).length = bytes.length + (4 + rest.length) := by simp; omega
  have hwj : ¬ IsWrapper (bytes ++ ([0x42, 0x43, 0xC0, 0xDE] ++ rest)) := by
    have := join_bare (bytes₂ := [0, 0, 0, 0] ++ ([0x42, 0x43, 0xC0, 0xDE] ++ rest)) hw hf.long
    exact this
  have hd : ((bitsOf bytes).drop 32).length + 32 = 8 * bytes.length := by
    simp only [List.length_drop, bitsOf_length]
    omega
  have hbase : Base k [] := stream_base hs rfl
  have hwidth : k.width = 2 := congrArg Ctx.width (show { k with info := Ctx.start.info } = Ctx.start from hbase)
  refine (C68_bad pf target _ (by omega) (.error _)).2 ?_
  unfold BytesBad
  rw [first_cons, first_singleton, payload_bare hwj]
  refine .inr ⟨?_, tops, [], some (.error (.abbrevParse .arrayIndex)), ?_, ?_⟩
  · rintro x ⟨y, hy, -⟩
    exact ((containerBad_bare hwj (by omega) y).1 hy).1 (by omega)
  · refine ⟨(bitsOf bytes).drop 32, _, ms, k, [], ?_, stream_shift hs fun i hi => ?_, ?_, magic_noItem pf _ hwidth _ rest⟩
    · rw [bitsOf_append, List.drop_append_of_le_length (by rw [bitsOf_length]; omega)]
    · exact (toPiece_word (by omega) (by omega)).symm
    · rw [hf.entries hs]
      simp [openEntries]
  · exact first_cons.2 (.inr ⟨(says_none hf.small hf.says).1, first_cons.2 (.inl (.inl ⟨_, rfl, rfl⟩))⟩)

/-! ## Examples -/

theorem exFile_noInfo : exFile.NoInfo := by simp [exFile, Items.NoInfo]

/-- What is used of a written file. -/
theorem written_bare {magic : U32} {its : Items} {bytes : List U8} {es : List Entry} (h : streamBytes magic its = some (bytes, es))
    (hm : magic ≠ 0x0B17C0DE) : ¬ IsWrapper bytes ∧ 4 ≤ bytes.length := by
  obtain ⟨b, hb, -⟩ := Props.C18_stream_roundtrip_from .debug h hm
  rcases Props.C25_detect .debug bytes with ⟨hl, e⟩ | ⟨hl, hw, e⟩ | ⟨hl, hw, e⟩
  · rw [e] at hb; cases hb
  · rw [e] at hb
    obtain ⟨r, -, h2⟩ := Out.bind_eq_ok.1 hb
    cases h2
  · exact ⟨hw, hl⟩

/-- `exFile` meets the conditions; so twice `exFile` maps to its module twice. And with the second magic number it does not. -/
example (pf : Profile) : ∃ bytes, Bitcode.tryFrom pf "t".toList bytes = .ok exBitcode ∧
    Bitcode.tryFrom pf "t".toList (join bytes bytes) = .ok { modules := exBitcode.modules ++ exBitcode.modules } ∧
    Bitcode.tryFrom pf "t".toList (bytes ++ bytes) = .err (.parse (.abbrevParse .arrayIndex)) := by
  have hm := exFile_maps pf
  have hl : (streamBytes 0xdec04342 exFile).map (fun x => decide (x.1.length ≤ 2 ^ 10 ∧ x.1.take 4 = [0x42, 0x43, 0xC0, 0xDE] ∧
    x.1.length % 4 = 0)) = some true := by decide +kernel
  cases hs : streamBytes 0xdec04342 exFile with
  | none => rw [hs] at hm; cases hm
  | some x =>
    obtain ⟨bytes, es⟩ := x
    rw [hs] at hm hl
    have hm : Bitcode.tryFrom pf "t".toList bytes = .ok exBitcode := Option.some.inj hm
    simp only [Option.map_some, Option.some.injEq, decide_eq_true_eq] at hl
    obtain ⟨hl, htake, h4⟩ := hl
    obtain ⟨hw, h4'⟩ := written_bare hs (by decide)
    refine ⟨bytes, hm, ?_, ?_⟩
    · rw [C79_join_partial hm hw (written_settled pf hs exFile_noInfo) (by simp [exBitcode]) hw h4' (by omega), hm]
      rfl
    · have := C79_headers (rest := bytes.drop 4) hm hw (written_closed pf hs) (by rw [List.length_drop]; omega) (by
        rw [List.length_drop]; omega)
      rwa [← htake, List.take_append_drop] at this

/-! ## Without symbol tables -/

theorem items_noInfo {t : Tree} (h : t.NoInfo) : t.items.NoInfo := by
  induction t with
  | nil => trivial
  | record code fields rest ih => exact ih h
  | block id body rest ihb ih => exact ⟨h.1, ihb h.2.1, ih h.2.2⟩

/-- C79 fails for symbol tables: if a module of the first file has none and one of the second has one, then the modules of both are not
the result of mapping any bytes, so not of the two files one after the other. -/
theorem C79_symtab_false (pf : Profile) (target : Str) {f g : Bitcode} {m n : BitcodeModule} (hm : m ∈ f.modules) (hmn : m.symtab = none)
    (hn : n ∈ g.modules) (hns : n.symtab ≠ none) {bytes : List U8} (hlen : bytes.length ≤ 2 ^ 61) :
    Bitcode.tryFrom pf target bytes ≠ .ok { modules := f.modules ++ g.modules } := by
  intro h
  have := (C70_only pf target bytes hlen _ h).2
  exact (List.pairwise_append.1 this).2.2 m hm n hn hns hmn

/-- There are such files: `exTwo` is one for both places. -/
theorem C79_symtab_instance (pf : Profile) : ∃ bytes, Bitcode.tryFrom pf "t".toList bytes = .ok exTwo ∧ ¬ IsWrapper bytes ∧
    Settled pf bytes ∧ (∃ m ∈ exTwo.modules, m.symtab = none) ∧ (∃ m ∈ exTwo.modules, m.symtab ≠ none) ∧
    Bitcode.tryFrom pf "t".toList (join bytes bytes) ≠ joined exTwo (Bitcode.tryFrom pf "t".toList bytes) := by
  obtain ⟨ho, hn⟩ := fileTree_fits "t".toList exTwo
  have hwt : (fileTree "t".toList exTwo).weight ≤ 2 ^ 20 := by decide +kernel
  obtain ⟨bytes, es, h1, h2, h3⟩ := C69_writes 0xdec04342 (fileTree "t".toList exTwo) ho hn (by omega)
  have hmap : Bitcode.tryFrom pf "t".toList bytes = .ok exTwo := by
    rw [C69_maps pf _ h1 (by decide) (by omega), h2]
    exact fileTree_says (exTwo_canBe pf)
  obtain ⟨hw, h4⟩ := written_bare h1 (by decide)
  refine ⟨bytes, hmap, hw, written_settled pf h1 (items_noInfo hn), ⟨_, List.mem_cons_of_mem _ List.mem_cons_self, rfl⟩,
    ⟨_, List.mem_cons_self, by simp⟩, ?_⟩
  rw [hmap]
  have hlj := join_length (first := bytes) h4
  exact C79_symtab_false pf _ (f := exTwo) (g := exTwo) (List.mem_cons_of_mem _ List.mem_cons_self) rfl List.mem_cons_self (by simp)
    (by omega)

/-! ## With BLOCKINFO -/

/-- A file that registers an abbreviation for string tables, and has no module. -/
def exInfo : Items :=
  .block 0 2 (.unabbrev 1 [23] (.define { scalars := [.lit 2], tail := .blob } .nil)) .nil

/-- A file with a module, which registers another abbreviation for string tables, and uses it. -/
def exUses : Items :=
  .block 0 2 (.unabbrev 1 [23] (.define { scalars := [.lit 1], tail := .blob } .nil)) <|
  .block 13 5 (.unabbrev 1 [76, 76, 86, 77] (.unabbrev 2 [0] .nil)) <|
  .block 8 3 (.unabbrev 1 [2] (.block 17 4 (.unabbrev 1 [0] .nil) (.block 14 4 .nil .nil))) <|
  .block 23 3 (.abbrev 4 1 [99, 102] .nil) .nil

/-- C79 fails for BLOCKINFO: the abbreviations that the first file registers are still there in the second, before its own, so the
string table is read with another abbreviation, and is not found. Each of the files maps, and is closed. -/
theorem C79_blockinfo_false (pf : Profile) : ∃ bytes₁ bytes₂ g, Bitcode.tryFrom pf "t".toList bytes₁ = .ok { modules := [] } ∧
    Bitcode.tryFrom pf "t".toList bytes₂ = .ok g ∧ g.modules ≠ [] ∧ ¬ IsWrapper bytes₁ ∧ ¬ IsWrapper bytes₂ ∧ Closed pf bytes₁ ∧
    Closed pf bytes₂ ∧ Bitcode.tryFrom pf "t".toList (join bytes₁ bytes₂) = .err (.map (.strtab .missingBlob)) := by
  have hm₁ : (streamBytes 0xdec04342 exInfo).map (fun x => Bitcode.tryFrom pf "t".toList x.1) = some (.ok { modules := [] }) := by
    cases pf <;> decide +kernel
  have hm₂ : (streamBytes 0xdec04342 exUses).map (fun x => match Bitcode.tryFrom pf "t".toList x.1 with
      | .ok g => g.modules.length
      | _ => 0) = some 1 := by
    cases pf <;> decide +kernel
  have hj : ((streamBytes 0xdec04342 exInfo).bind fun x => (streamBytes 0xdec04342 exUses).map fun y =>
      Bitcode.tryFrom pf "t".toList (join x.1 y.1)) = some (.err (.map (.strtab .missingBlob))) := by
    cases pf <;> decide +kernel
  cases hs₁ : streamBytes 0xdec04342 exInfo with
  | none => rw [hs₁] at hm₁; cases hm₁
  | some x =>
    cases hs₂ : streamBytes 0xdec04342 exUses with
    | none => rw [hs₂] at hm₂; cases hm₂
    | some y =>
      obtain ⟨bytes₁, es₁⟩ := x
      obtain ⟨bytes₂, es₂⟩ := y
      rw [hs₁] at hm₁
      rw [hs₂] at hm₂
      rw [hs₁, hs₂] at hj
      simp only [Option.map_some, Option.some.injEq, Option.bind_some] at hm₁ hm₂ hj
      split at hm₂
      · next g hg =>
        exact ⟨bytes₁, bytes₂, g, hm₁, hg, by intro h; simp [h] at hm₂, (written_bare hs₁ (by decide)).1,
          (written_bare hs₂ (by decide)).1, written_closed pf hs₁, written_closed pf hs₂, hj⟩
      · cases hm₂

end Verif
