import Verif.Props.EachReport
import Verif.Props.StopCases

/-!
# C74. Which errors mapping a file can report, and how else it can end
-/

namespace Verif
open Spec Props

/-- There is a file on which mapping does not return, in the way `s`. -/
def Halts (pf : Profile) (target : Str) (s : Stop) : Prop :=
  ∃ bytes : List U8, bytes.length ≤ 2 ^ 61 ∧ (Bitcode.tryFrom pf target bytes).Ends (.stop s)

theorem items_halt {pf : Profile} (target : Str) {its : Items} {p : PanicSite} (h : mapFile pf its = some (.panic p))
    (hl : ((streamBytes 0xdec04342 its).map fun x => decide (x.1.length ≤ 2 ^ 61)) = some true) : Halts pf target (.panic p) := by
  unfold mapFile at h
  rw [Option.map_eq_some_iff] at h
  obtain ⟨x, hx, h⟩ := h
  rw [hx] at hl
  have hl : x.1.length ≤ 2 ^ 61 := by simpa using hl
  exact ⟨x.1, hl, (C67_target pf target _ x.1 hl (.stop (.panic p))).2 h⟩

theorem bytes_happen {pf : Profile} (target : Str) {e : MapperError} (bytes : List U8)
    (h : (Bitcode.tryFrom pf "t".toList bytes = .err e ∧ bytes.length ≤ 2 ^ 61)) : Happens pf target e :=
  ⟨bytes, h.2, (C67_target pf target _ bytes h.2 (.error e)).2 h.1⟩

theorem bytes_halt {pf : Profile} (target : Str) {p : PanicSite} (bytes : List U8)
    (h : (Bitcode.tryFrom pf "t".toList bytes = .panic p ∧ bytes.length ≤ 2 ^ 61)) : Halts pf target (.panic p) :=
  ⟨bytes, h.2, (C67_target pf target _ bytes h.2 (.stop (.panic p))).2 h.1⟩

section
variable {pf : Profile} {target : Str}

theorem each_opening {e : BErr} (h : OpenError e) : Happens pf target (.parse e) := by
  cases h with
  | nothing => exact bytes_happen target [] (by cases pf <;> decide +kernel)
  | cut => exact bytes_happen target [1] (by cases pf <;> decide +kernel)
  | size => exact bytes_happen target (wrapperHeader 0 20 4 7) (by cases pf <;> decide +kernel)
  | behind => exact bytes_happen target (wrapperHeader 0 24 0 7) (by cases pf <;> decide +kernel)
  | words => exact bytes_happen target (wrapperHeader 0 20 1 7 ++ [1]) (by cases pf <;> decide +kernel)
  | noMagic => exact bytes_happen target (wrapperHeader 0 20 0 7) (by cases pf <;> decide +kernel)
  | cutMagic => exact bytes_happen target (wrapperHeader 0 21 4 7 ++ [1, 2, 3, 4]) (by cases pf <;> decide +kernel)

/-- A stream that breaks off after blocks were begun. -/
theorem breaks_off {rest : List U8} {b b₁ : Bitstream} (hb : Bitstream.fromRaw (exMagic ++ rest) = .ok b) {P : List (BBlock × Forest)}
    (hg : Gives pf b (openEntries P) b₁) {e : BErr} (he : (Bitstream.next pf b₁).1 = .error e) :
    Bitcode.tryFrom pf target (exMagic ++ rest) = .err (.parse e) := by
  have hfrom : Bitstream.from pf (exMagic ++ rest) = .ok (none, b) := by
    rcases Props.C25_detect pf (exMagic ++ rest) with ⟨h, -⟩ | ⟨-, h, -⟩ | ⟨-, -, h⟩
    · simp [exMagic] at h; omega
    · exact absurd h (by show ¬ some _ = _; decide)
    · rw [h, hb]; rfl
  have hu := unroll_eq pf (.auto hfrom) (tops := []) (P := P) (b₁ := b₁) (b₂ := (Bitstream.next pf b₁).2) (r := .error e) hg
    (Prod.ext he rfl) (fun _ h => by cases h)
  unfold Bitcode.tryFrom
  rw [hfrom]
  show Bitcode.ofStream pf target b = _
  unfold Bitcode.ofStream
  rw [hu]
  rfl

theorem each_reading {e : BErr} (h : ReadError e) : ∃ bytes, Bitcode.tryFrom pf target bytes = .err (.parse e) := by
  have key (bytes : List U8) (h : Bitcode.tryFrom pf "t".toList bytes = .err (.parse e) ∧ bytes.length ≤ 2 ^ 61) :
      ∃ bytes, Bitcode.tryFrom pf target bytes = .err (.parse e) := (bytes_happen target bytes h).imp fun _ h => h.2
  cases h with
  | nothing => exact key (exMagic ++ pack 4 (exEnter 8 3)) (by cases pf <;> decide +kernel)
  | cut => exact key (exMagic ++ pack 12 (exEnter 8 3 ++ bitsOfNat 3 3 ++ List.replicate 29 true)) (by cases pf <;> decide +kernel)
  | size =>
    exact key (exMagic ++ pack 12 (bitsOfNat 2 1 ++ bitsOfNat 8 8 ++ encVbr 4 64 ++ List.replicate 42 false))
      (by cases pf <;> decide +kernel)
  | vbrWidth =>
    exact key (exMagic ++ pack 12 (exEnter 8 3 ++ bitsOfNat 3 2 ++
      ({ scalars := [.enc (.vbr 1)], tail := .nothing } : Def).bits ++ bitsOfNat 3 4)) (by cases pf <;> decide +kernel)
  | infoCode code h1 h2 h3 =>
    obtain ⟨rest, b, hb, he⟩ := infoCode_stream pf code h1 h2 h3
    exact ⟨_, breaks_off (P := []) hb (.nil _) he⟩
  | encoding n h =>
    rcases h with rfl | rfl | rfl
    · exact key (exMagic ++ pack 4 (bitsOfNat 2 2 ++ bitsOfNat 5 1 ++ [false] ++ bitsOfNat 3 0)) (by cases pf <;> decide +kernel)
    · exact key (exMagic ++ pack 4 (bitsOfNat 2 2 ++ bitsOfNat 5 1 ++ [false] ++ bitsOfNat 3 6)) (by cases pf <;> decide +kernel)
    · exact key (exMagic ++ pack 4 (bitsOfNat 2 2 ++ bitsOfNat 5 1 ++ [false] ++ bitsOfNat 3 7)) (by cases pf <;> decide +kernel)
  | noBid =>
    exact key (exMagic ++ pack 12 (exEnter 0 3 ++ bitsOfNat 3 2 ++ ({ scalars := [.lit 5], tail := .nothing } : Def).bits))
      (by cases pf <;> decide +kernel)
  | recordOutside => exact key (exMagic ++ pack 4 (bitsOfNat 2 3)) (by cases pf <;> decide +kernel)
  | noOperand => exact key (exMagic ++ pack 4 (bitsOfNat 2 2 ++ bitsOfNat 5 0)) (by cases pf <;> decide +kernel)
  | arrayIndex =>
    exact key (exMagic ++ pack 4 (bitsOfNat 2 2 ++ bitsOfNat 5 3 ++ [false] ++ bitsOfNat 3 3)) (by cases pf <;> decide +kernel)
  | arrayOfArrays =>
    exact key (exMagic ++ pack 4 (bitsOfNat 2 2 ++ bitsOfNat 5 2 ++ [false] ++ bitsOfNat 3 3 ++ [false] ++ bitsOfNat 3 3))
      (by cases pf <;> decide +kernel)
  | arrayOfBlobs =>
    exact key (exMagic ++ pack 4 (bitsOfNat 2 2 ++ bitsOfNat 5 2 ++ [false] ++ bitsOfNat 3 3 ++ [false] ++ bitsOfNat 3 5))
      (by cases pf <;> decide +kernel)
  | blobIndex =>
    exact key (exMagic ++ pack 4 (bitsOfNat 2 2 ++ bitsOfNat 5 2 ++ [false] ++ bitsOfNat 3 5)) (by cases pf <;> decide +kernel)
  | undefined id h4 h63 =>
    obtain ⟨rest, b, b', hb, hi, he⟩ := undefined_stream pf id h4 h63
    exact ⟨_, breaks_off (P := [({ blockId := 8, len := 0 }, .nil)]) hb (gives_of_iterate (by exact hi)) he⟩
  | defineOutside =>
    exact key (exMagic ++ pack 4 (bitsOfNat 2 2 ++ ({ scalars := [.lit 5], tail := .nothing } : Def).bits))
      (by cases pf <;> decide +kernel)
  | noWidth => exact key (exMagic ++ pack 4 (bitsOfNat 2 1 ++ bitsOfNat 8 8 ++ bitsOfNat 4 0)) (by cases pf <;> decide +kernel)
  | exitOutside => exact key (exMagic ++ pack 4 (bitsOfNat 2 0)) (by cases pf <;> decide +kernel)


theorem each_file {e : MapperError} (h : FileError (· ≤ 2 ^ 20) e) : ∃ bytes, Bitcode.tryFrom pf target bytes = .err e := by
  have of : Happens pf target e → ∃ bytes, Bitcode.tryFrom pf target bytes = .err e := fun h => h.imp fun _ h => h.2
  cases h with
  | opening h => exact of (each_opening h)
  | reading h => exact each_reading h
  | truncated => exact of (bytes_happen target (exMagic ++ pack 8 (exEnter 8 3)) (by cases pf <;> decide +kernel))
  | unidentified => exact of (items_happen target (its := .block 8 3 .nil .nil) (by cases pf <;> decide +kernel) (by decide +kernel))
  | adjacent =>
    exact of (items_happen target (its := .block 13 5 .nil (.block 8 3 .nil (.block 8 3 .nil .nil))) (by cases pf <;> decide +kernel)
      (by decide +kernel))
  | unexpected id h =>
    have key : ∀ n : Nat, n < 2 ^ 64 → n ∈ [0, 8, 13, 23, 25] → id ≠ BitVec.ofNat 64 n := by
      rintro n hn hm rfl
      rw [BitVec.toNat_ofNat, Nat.mod_eq_of_lt hn] at h
      exact h hm
    have h0 := key 0 (by decide) (by decide)
    have hid : ∀ i : IrBlockId, BlockId.ofU64 id = .ir i → id = BlockId.toU64 (.ir i) := fun i h => by
      rw [← h, BlockId.toU64_ofU64]
    refine of (tree_happens (t := .block id .nil .nil) (by simp [Tree.OnlyBlocks]) (by simpa [Tree.NoInfo] using h0) (by simp [Tree.weight]) ?_)
    have h1 : addTop [] (unrolled id .nil) = .err (.unroll (.unexpectedTopLevel (.ofU64 id))) := by
      unfold addTop
      rw [addTo_id]
      show (match BlockId.ofU64 id with
        | .ir .identification => _ | .ir .module => _ | .ir .strtab => _ | .ir .symtab => _ | id => _) = _
      split
      · next h => exact absurd (hid _ h) (key 13 (by decide) (by decide))
      · next h => exact absurd (hid _ h) (key 8 (by decide) (by decide))
      · next h => exact absurd (hid _ h) (key 23 (by decide) (by decide))
      · next h => exact absurd (hid _ h) (key 25 (by decide) (by decide))
      · rfl
    unfold ofTops
    simp only [Tree.tops, Tree.forest, Forest.blocks, unrollBlocks, List.map_cons, List.map_nil, List.foldlM_cons, List.foldlM_nil]
    rw [show (Forest.nil.addTo (UBlock.new id)) = unrolled id .nil from rfl, h1]
    rfl
  | noStrtab =>
    exact of (items_happen target (its := .block 13 5 .nil (.block 8 3 .nil .nil)) (by cases pf <;> decide +kernel) (by decide +kernel))
  | noModule =>
    exact of (items_happen target (its := .block 13 5 (.unabbrev 1 [97, 98] (.unabbrev 2 [0] .nil)) (.block 23 3 (.unabbrev 1 [97, 98] .nil) .nil)) (by cases pf <;> decide +kernel) (by decide +kernel))
  | strtabMissing =>
    exact of (items_happen target (its := .block 13 5 .nil (.block 8 3 .nil (.block 23 3 .nil .nil))) (by cases pf <;> decide +kernel)
      (by decide +kernel))
  | strtab h =>
    cases h with
    | one =>
      exact of (items_happen target (its := .block 13 5 .nil (.block 8 3 .nil (.block 23 3 (.unabbrev 1 [97] .nil) .nil)))
        (by cases pf <;> decide +kernel) (by decide +kernel))
    | byte =>
      exact of (items_happen target (its := .block 13 5 .nil (.block 8 3 .nil (.block 23 3 (.unabbrev 1 [97, 256] .nil) .nil)))
        (by cases pf <;> decide +kernel) (by decide +kernel))
  | symtabMissing =>
    exact of (items_happen target (its := .block 13 5 (.unabbrev 1 [97, 98] (.unabbrev 2 [0] .nil)) (.block 8 3 (moduleOf .nil) (.block 23 3 (.unabbrev 1 [97, 98] .nil) (.block 25 3 .nil .nil))))
      (by cases pf <;> decide +kernel) (by decide +kernel))
  | symtab h =>
    cases h with
    | one =>
      exact of (items_happen target (its := .block 13 5 (.unabbrev 1 [97, 98] (.unabbrev 2 [0] .nil)) (.block 8 3 (moduleOf .nil) (.block 23 3 (.unabbrev 1 [97, 98] .nil)
        (.block 25 3 (.unabbrev 1 [97] .nil) .nil)))) (by cases pf <;> decide +kernel) (by decide +kernel))
    | byte =>
      exact of (items_happen target (its := .block 13 5 (.unabbrev 1 [97, 98] (.unabbrev 2 [0] .nil)) (.block 8 3 (moduleOf .nil) (.block 23 3 (.unabbrev 1 [97, 98] .nil)
        (.block 25 3 (.unabbrev 1 [97, 256] .nil) .nil)))) (by cases pf <;> decide +kernel) (by decide +kernel))
  | identification e =>
    cases e with
    | missingProducer =>
      exact of (items_happen target (its := .block 13 5 .nil (.block 8 3 .nil (.block 23 3 (.unabbrev 1 [97, 98] .nil) .nil)))
        (by cases pf <;> decide +kernel) (by decide +kernel))
    | badProducer =>
      exact of (items_happen target (its := .block 13 5 (.unabbrev 1 [97] .nil) (.block 8 3 .nil (.block 23 3 (.unabbrev 1 [97, 98] .nil) .nil)))
        (by cases pf <;> decide +kernel) (by decide +kernel))
    | missingEpoch =>
      exact of (items_happen target (its := .block 13 5 (.unabbrev 1 [97, 98] .nil)
        (.block 8 3 .nil (.block 23 3 (.unabbrev 1 [97, 98] .nil) .nil))) (by cases pf <;> decide +kernel) (by decide +kernel))
  | inModule h => exact of (each_module h)

theorem each_stop {s : Stop} (h : FileStops pf s) : Halts pf target s := by
  cases h with
  | hang =>
    have h := C56_linked_list pf
    unfold mapFile at h
    rw [Option.map_eq_some_iff] at h
    obtain ⟨x, hx, h⟩ := h
    have hl : ((streamBytes 0xdec04342 (typesFile (.unabbrev 1 [3] <| .unabbrev 7 [32] <| .unabbrev 19 [110, 111, 100, 101] <|
      .unabbrev 20 [0, 0, 2] <| .unabbrev 8 [1, 0] .nil))).map fun x => decide (x.1.length ≤ 2 ^ 61)) = some true := by decide +kernel
    rw [hx] at hl
    have hl : x.1.length ≤ 2 ^ 61 := by simpa using hl
    exact ⟨x.1, hl, (C67_target pf target _ x.1 hl (.stop .hang)).2 h⟩
  | capacity =>
    exact bytes_halt target (exMagic ++ pack 32 (exEnter 8 3 ++ bitsOfNat 3 3 ++ bitsOfNat 6 1 ++ encVbr 6 (2 ^ 60))) (by cases pf <;> decide +kernel)
  | setBid =>
    exact bytes_halt target (exMagic ++ pack 12 (exEnter 0 3 ++ bitsOfNat 3 3 ++ bitsOfNat 6 1 ++ bitsOfNat 6 0)) (by cases pf <;> decide +kernel)
  | noCode =>
    exact bytes_halt target (exMagic ++ pack 16 (exEnter 8 3 ++ bitsOfNat 3 2 ++
      ({ scalars := [], tail := .array .char6 } : Def).bits ++ bitsOfNat 3 4 ++ bitsOfNat 6 0)) (by cases pf <;> decide +kernel)
  | key =>
    exact items_halt target (its := fileOf (moduleOf (.block 10 3 (.unabbrev 3 [1, 0, 4, 0x6b] .nil) .nil))) (by cases pf <;> decide +kernel)
      (by decide +kernel)
  | unimplemented =>
    exact items_halt target (its := fileOf (moduleOf (.block 9 3 (.unabbrev 1 [0, 0] .nil) .nil))) (by cases pf <;> decide +kernel)
      (by decide +kernel)
  | name =>
    exact items_halt target (its := fileOf (moduleOf (.unabbrev 12 [1, 0xffffffffffffffff, 0] .nil))) (by cases pf <;> decide +kernel)
      (by decide +kernel)
  | number h => subst h; exact bytes_halt target (exMagic ++ [0xFD] ++ List.replicate 15 0xFF) (by decide +kernel)
  | array h => subst h; exact bytes_halt target (exMagic ++ [0x06, 0x03, 0, 0]) (by decide +kernel)
  | text h =>
    subst h
    exact items_halt target (its := fileOf (moduleOf (.unabbrev 5 [] .nil))) (by decide +kernel) (by decide +kernel)

end

/-! ## C74 -/

/-- C74, first half. Whatever the file, the error that mapping it reports is one of `FileError`. -/
theorem C74_only (pf : Profile) (target : Str) (bytes : List U8) (hlen : bytes.length ≤ 2 ^ 61) {e : MapperError}
    (h : Bitcode.tryFrom pf target bytes = .err e) : FileError (fun _ => True) e :=
  (file_only pf bytes).1 e ((C67_file pf target bytes hlen (.error e)).1 h)

/-- C74, second half. Each of these errors, as long as what it holds is not over a million of anything, is reported for some
file. -/
theorem C74_each (pf : Profile) (target : Str) {e : MapperError} (h : FileError (· ≤ 2 ^ 20) e) :
    ∃ bytes, Bitcode.tryFrom pf target bytes = .err e := each_file h

/-- C74, panics and endless loops: exactly those of `FileStops`. -/
theorem C74_stops (pf : Profile) (target : Str) (s : Stop) :
    (∃ bytes : List U8, bytes.length ≤ 2 ^ 61 ∧ (Bitcode.tryFrom pf target bytes).Ends (.stop s)) ↔ FileStops pf s :=
  ⟨fun ⟨bytes, hlen, h⟩ => (file_only pf bytes).2 s ((C67_file pf target bytes hlen (.stop s)).1 h), each_stop⟩

/-- C74, spelled out: no file is refused for something between its blocks, for a version or a table of types that the context
lacks, for a count of fields of a COMDAT, or for the number of an attribute, that are as they should be; and an error of the
reader is one that the reader can report by itself (C73). -/
theorem C74_never (pf : Profile) (target : Str) (bytes : List U8) (hlen : bytes.length ≤ 2 ^ 61) :
    Bitcode.tryFrom pf target bytes ≠ .err (.unroll .topLevelNonBlock) ∧
    (∀ e, Bitcode.tryFrom pf target bytes ≠ .err (.map (.module (.map (.context e))))) ∧
    (∀ e, Bitcode.tryFrom pf target bytes ≠ .err (.map (.module (.functionBlock (.map (.context e)))))) ∧
    (∀ e, Bitcode.tryFrom pf target bytes ≠ .err (.map (.module (.comdatRecord (.map e))))) ∧
    Bitcode.tryFrom pf target bytes ≠ .err (.map (.module (.comdatRecord (.tooShort 3)))) ∧
    Bitcode.tryFrom pf target bytes ≠ .err (.map (.module (.functionRecord (.attribute 0)))) ∧
    (∀ e, Bitcode.tryFrom pf target bytes = .err (.parse e) → OpenError e ∨ ReadError e) := by
  have key : ∀ {e : MapperError}, Bitcode.tryFrom pf target bytes = .err e → FileError (fun _ => True) e := C74_only pf target bytes hlen
  refine ⟨fun h => ?_, fun e h => ?_, fun e h => ?_, fun e h => ?_, fun h => ?_, fun h => ?_, fun e h => ?_⟩
  · cases key h
  · cases key h with | inModule h => cases h
  · cases key h with | inModule h => cases h with | body h => cases h
  · cases key h with | inModule h => cases h with | comdat h => cases h
  · cases key h with | inModule h => cases h with | comdat h => cases h with | length _ h => exact h rfl
  · cases key h with | inModule h => cases h with | function h => cases h with | «attribute» _ h => exact h rfl
  · cases key h with
    | opening h => exact .inl h
    | reading h => exact .inr h

/-- The hypotheses hold of a file that is refused for a reference to the type 7 in a function body, deep in a module. -/
example (pf : Profile) : ∃ bytes : List U8, bytes.length ≤ 2 ^ 61 ∧
    Bitcode.tryFrom pf ['x'] bytes = .err (.map (.module (.functionBlock (.badInst .instBinop (.type 7))))) :=
  each_module (.body (.type 2 .instBinop 7 (by decide) (by decide)))

/-- Errors may hold types: a vector is refused since its elements are structures of two integers. -/
example : FileError (· ≤ 2 ^ 20) (.map (.module (.typeTableBlock (.invalidType (.vectorBadElement
    (.struct none [.integer 8, .integer 8] false)))))) :=
  .inModule (.types (.lane ⟨exTypes, exTypes_canBe, by decide, by decide⟩ (by simp [OkVectorElement, IsFloat, IsInteger, IsTypedPointer])))

end Verif
