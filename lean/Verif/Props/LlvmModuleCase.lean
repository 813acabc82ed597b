import Verif.Props.LlvmModule

/-! C97: a module for which it holds, and one for which it does not. -/

namespace Verif
open Spec

/-! ## A module -/

/-- `define void @main() nounwind section "text"`, or the same function declared. -/
def exFunction (declared : Bool) : LlvmFunction :=
  { exMain with callingConvention := 0, isDeclaration := declared, attributes := some 0, gc := none }

/-- The function in a module for 64-bit Linux, with a COMDAT `main` and an alias `x`. -/
def exLlvmModule (declared : Bool) : LlvmModule where
  triple := utf8 "x86_64-linux".toList
  layout := Props.exLinux
  asm := utf8 "nop\nret".toList
  sections := [utf8 "text".toList]
  gcs := []
  types := [.prim .void, .function (.prim .void) [] false]
  groups := [⟨1, 0xFFFFFFFF, [.enum 18]⟩]
  lists := [[1]]
  comdats := [(⟨utf8 "main".toList, .any⟩, 0)]
  functions := [(exFunction declared, 0)]
  aliases := [(exAlias .external 0, 4)]

/-- The contents of the module block. -/
def exLlvmBody (declared : Bool) : Tree :=
  .record 1 [2]
  (.block 10 (.record 3 [1, 0xFFFFFFFF, 0, 18] .nil)
  (.block 9 (.record 2 [1] .nil)
  (.block 17 (.record 1 [2] (.record 2 [] (.record 21 [0, 0] .nil)))
  (.record 2 (textFields (utf8 "x86_64-linux".toList))
  (.record 3 (textFields (utf8 (llvmText Props.exLinux)))
  (.record 4 (textFields (utf8 "nop\nret".toList))
  (.record 5 (textFields (utf8 "text".toList))
  (.record 12 [0, 4, 1]
  (.record 8 (((exFunction declared).fields 0).map (BitVec.ofNat 64))
  (.record 14 (((exAlias .external 0).fields 4).map (BitVec.ofNat 64))
  (.block 14 .nil
  (if declared then .nil else .block 12 .nil .nil))))))))))))

/-- The contents of the file. -/
def exLlvmTree (declared : Bool) : Tree :=
  .block 13 (.record 1 (textFields (utf8 "LLVM".toList)) (.record 2 [0] .nil))
  (.block 8 (exLlvmBody declared)
  (.block 23 (.record 1 (textFields (utf8 "mainx".toList)) .nil) .nil))

theorem exLlvmModule_allowed (declared : Bool) : (exLlvmModule declared).Allowed (utf8 "mainx".toList) where
  layout := fun s hs => (Props.exLinux_allowed s hs).1
  sections := by show ∀ s ∈ [utf8 "text".toList], s ≠ []; decide +kernel
  gcs := fun s hs => by cases hs
  types := by
    show ∀ t ∈ [Ty.prim .void, .function (.prim .void) [] false], LlvmValid t
    simp only [List.forall_mem_cons]
    exact ⟨.prim _, .function (.prim _) (by simp [OkReturn, IsFunction]) (by simp) (by simp), by simp⟩
  typeCount := by show 2 < 2 ^ 57; decide
  groups := by
    show ∀ g ∈ [(⟨1, 0xFFFFFFFF, [.enum 18]⟩ : LlvmGroup)], g.Allowed
    simp [LlvmGroup.Allowed, LlvmAttr.Allowed]
  groupIds := by show [(1 : U32)].Nodup; decide
  lists := by show ∀ l ∈ [[(1 : U32)]], ∀ id ∈ l, id ∈ [(1 : U32)]; simp
  comdats := by
    intro cc h
    obtain rfl : cc = (⟨utf8 "main".toList, .any⟩, 0) := List.mem_singleton.1 h
    exact ⟨⟨[], utf8 "x".toList, by decide +kernel, rfl⟩, by decide, by decide +kernel⟩
  functions := by
    intro f h
    obtain rfl : f = (exFunction declared, 0) := List.mem_singleton.1 h
    exact {
      name := ⟨[], utf8 "x".toList, by show utf8 "mainx".toList = [] ++ (utf8 "main".toList ++ utf8 "x".toList); decide +kernel, rfl⟩
      type := ⟨_, _, _, rfl⟩
      callingConvention := by show 0 < 2 ^ 10; decide
      attributes := fun i h => by cases h; exact Nat.zero_lt_one
      align := fun k h => by cases h; decide
      «section» := fun i h => by cases h; exact Nat.zero_lt_one
      gc := fun i h => by cases h
      small := by cases declared <;> decide +kernel }
  aliases := by
    intro a h
    obtain rfl : a = (exAlias .external 0, 4) := List.mem_singleton.1 h
    exact ⟨⟨utf8 "main".toList, [], by decide +kernel, by decide +kernel⟩, by show 1 < 2; decide, by decide, by decide +kernel⟩
  small := by decide +kernel

theorem exLlvmModule_types : DeclaresTypes [⟨none, 1, [2]⟩, ⟨none, 2, []⟩, ⟨none, 21, [0, 0]⟩]
    [.prim .void, .function (.prim .void) [] false] := by
  have h0 : Denotes [.prim .void, .function 0 [] false] 0 (.prim .void) := .prim rfl
  refine ⟨[.prim .void, .function 0 [] false], ⟨none, 1, [2]⟩, [], ⟨[], _, rfl, rfl, by simp⟩, rfl, ?_, ?_, rfl, ?_⟩
  · exact .numEntry rfl (.single (.prim (by decide)) (.single (.function (v := 0) (ret := 0) (ps := []) rfl rfl) .nil))
  · intro pre a b post h _ ⟨n, fs, p, hb⟩
    subst hb
    have hm : TyDecl.struct (some n) fs p ∈ [TyDecl.prim .void, .function 0 [] false].tail := by rw [h]; cases pre <;> simp
    simp at hm
  · intro i t hi
    match i, hi with
    | 0, hi => cases hi; exact h0
    | 1, hi => cases hi; exact .function (ps := []) rfl h0 rfl (by simp)

theorem exLlvmModule_body (declared : Bool) : (exLlvmModule declared).WrittenAs (exLlvmBody declared).forest := by
  cases declared
  all_goals
    exact {
      version := by decide +kernel
      triple := by decide +kernel
      layout := by decide +kernel
      asm := by decide +kernel
      sections := by decide +kernel
      libraries := by decide +kernel
      functions := by decide +kernel
      gcs := by decide +kernel
      comdats := by decide +kernel
      aliases := by decide +kernel
      types := ⟨_, rfl, exLlvmModule_types⟩
      symbols := ⟨_, rfl⟩
      groups := .inr ⟨_, rfl, by decide +kernel⟩
      lists := .inr ⟨_, rfl, by decide +kernel⟩
      bodies := by decide +kernel }

theorem exLlvmModule_file (declared : Bool) :
    (exLlvmModule declared).FileOf (utf8 "mainx".toList) "LLVM".toList 0 (exLlvmTree declared).tops :=
  .plain ⟨rfl, rfl⟩ rfl (exLlvmModule_body declared) ⟨rfl, rfl⟩

theorem exLlvmModule_readable : (exLlvmModule true).Readable where
  triple := .inr ⟨by decide +kernel, _, rfl⟩
  layout := ⟨fun s hs => (Props.exLinux_allowed s hs).2, by decide +kernel⟩
  asm := .inr ⟨by decide +kernel, _, rfl⟩
  sections := fun s hs => by
    obtain rfl : s = utf8 "text".toList := List.mem_singleton.1 hs
    exact ⟨by decide +kernel, _, rfl⟩
  gcs := fun s hs => by cases hs
  types := by
    show ∀ t ∈ [Ty.prim .void, .function (.prim .void) [] false], ¬ PointerVector t
    simp [PointerVector]
  groups := by
    intro g hg a ha
    obtain rfl : g = ⟨1, 0xFFFFFFFF, [.enum 18]⟩ := List.mem_singleton.1 hg
    obtain rfl : a = .enum 18 := List.mem_singleton.1 ha
    exact ⟨.noUnwind, by decide +kernel⟩
  comdats := by
    intro cc h
    obtain rfl : cc = (⟨utf8 "main".toList, .any⟩, 0) := List.mem_singleton.1 h
    exact ⟨by decide, by decide +kernel, _, rfl⟩
  functions := by
    intro f h
    obtain rfl : f = (exFunction true, 0) := List.mem_singleton.1 h
    exact ⟨rfl, ⟨by decide +kernel, _, rfl⟩, .c, by decide +kernel⟩
  aliases := by
    intro a h
    obtain rfl : a = (exAlias .external 0, 4) := List.mem_singleton.1 h
    exact ⟨rfl, by decide +kernel, _, rfl⟩

theorem exLlvmModule_written (declared : Bool) : ∃ bytes es, streamBytes 0xdec04342 (exLlvmTree declared).items = some (bytes, es) ∧
    bytes.length ≤ 2 ^ 61 ∧ (exLlvmModule declared).FileOf (utf8 "mainx".toList) "LLVM".toList 0 ((exLlvmTree declared).items.tree false).tops := by
  have hw : (exLlvmTree declared).weight ≤ 1000 := by cases declared <;> decide +kernel
  have hn : (exLlvmTree declared).NoInfo := by
    cases declared <;> simp [exLlvmTree, exLlvmBody, Tree.NoInfo]
  obtain ⟨bytes, es, h1, h2, h3⟩ := C69_writes 0xdec04342 (exLlvmTree declared) (by simp [exLlvmTree, Tree.OnlyBlocks]) hn (by omega)
  refine ⟨bytes, es, h1, by omega, ?_⟩
  rw [h2]
  exact exLlvmModule_file declared

/-- The file with the declared function maps, and the result has its triple and its assembly. -/
example (pf : Profile) (target : Str) : ∃ bytes es f m, streamBytes 0xdec04342 (exLlvmTree true).items = some (bytes, es) ∧
    Bitcode.tryFrom pf target bytes = .ok f ∧ f.modules = [m] ∧ m.identification = ⟨"LLVM".toList, 0⟩ ∧
    (exLlvmModule true).ReportedAs target m.module := by
  obtain ⟨bytes, es, h1, h2, h3⟩ := exLlvmModule_written true
  obtain ⟨h4, h5⟩ := C97_written_partial pf target h1 (by decide) h2 (exLlvmModule_allowed true) (by decide +kernel) h3
  obtain ⟨f, hf⟩ := h4.2 ⟨exLlvmModule_readable, by decide +kernel, fun h => absurd h (by decide +kernel)⟩
  obtain ⟨m, e1, e2, -, e3⟩ := h5 f hf
  exact ⟨bytes, es, f, m, h1, hf, e1, e2, e3⟩

/-- C97 fails: LLVM allows the module with `main` defined, and it can be written, but the file does not map, in no build. -/
theorem C97_refuted (target : Str) : ∃ (M : LlvmModule) (text : List U8) (producer : Str) (its : Items) (bytes : List U8) (es : List Entry),
    streamBytes 0xdec04342 its = some (bytes, es) ∧ bytes.length ≤ 2 ^ 61 ∧ M.Allowed text ∧ 2 ≤ (utf8 producer).length ∧
    M.FileOf text producer 0 (its.tree false).tops ∧ 2 ≤ text.length ∧ (∃ f ∈ M.functions, f.1.isDeclaration = false) ∧
    ∀ pf f, Bitcode.tryFrom pf target bytes ≠ .ok f := by
  obtain ⟨bytes, es, h1, h2, h3⟩ := exLlvmModule_written false
  exact ⟨_, _, _, _, bytes, es, h1, h2, exLlvmModule_allowed false, by decide +kernel, h3, by decide +kernel, ⟨_, .head _, rfl⟩,
    fun pf f => C97_definitions pf target h1 (by decide) h2 (exLlvmModule_allowed false) (by decide +kernel) h3 (.head _) rfl f⟩

/-- The module block of the first file, with the lengths of the blocks in it as they are in the bytes. -/
def exLlvmForest : Forest :=
  .record ⟨none, 1, [2]⟩
  (.block ⟨10, 12⟩ (.record ⟨none, 3, [1, 0xFFFFFFFF, 0, 18]⟩ .nil)
  (.block ⟨9, 4⟩ (.record ⟨none, 2, [1]⟩ .nil)
  (.block ⟨17, 8⟩ (.record ⟨none, 1, [2]⟩ (.record ⟨none, 2, []⟩ (.record ⟨none, 21, [0, 0]⟩ .nil)))
  (.record ⟨none, 2, textFields (utf8 "x86_64-linux".toList)⟩
  (.record ⟨none, 3, textFields (utf8 (llvmText Props.exLinux))⟩
  (.record ⟨none, 4, textFields (utf8 "nop\nret".toList)⟩
  (.record ⟨none, 5, textFields (utf8 "text".toList)⟩
  (.record ⟨none, 12, [0, 4, 1]⟩
  (.record ⟨none, 8, [0, 4, 1, 0, 1, 17, 1, 5, 1, 1, 0, 1, 0, 0, 0, 0, 0, 1, 0, 0, 0]⟩
  (.record ⟨none, 14, [4, 1, 1, 0, 0, 0, 0, 0, 0, 0, 0, 0, 0]⟩
  (.block ⟨14, 4⟩ .nil .nil)))))))))))

theorem exLlvmForest_written : (exLlvmModule true).WrittenAs exLlvmForest where
  version := by decide +kernel
  triple := by decide +kernel
  layout := by decide +kernel
  asm := by decide +kernel
  sections := by decide +kernel
  libraries := by decide +kernel
  functions := by decide +kernel
  gcs := by decide +kernel
  comdats := by decide +kernel
  aliases := by decide +kernel
  types := ⟨_, rfl, exLlvmModule_types⟩
  symbols := ⟨_, rfl⟩
  groups := .inr ⟨_, rfl, by decide +kernel⟩
  lists := .inr ⟨_, rfl, by decide +kernel⟩
  bodies := by decide +kernel

/-- The blocks of the first file. -/
def exLlvmTops : List (BBlock × Forest) :=
  [(⟨13, 12⟩, .record ⟨none, 1, textFields (utf8 "LLVM".toList)⟩ (.record ⟨none, 2, [0]⟩ .nil)), (⟨8, 248⟩, exLlvmForest),
   (⟨23, 12⟩, .record ⟨none, 1, textFields (utf8 "mainx".toList)⟩ .nil)]

theorem exLlvmTops_delivered : ∃ bytes b, bytes.length = 300 ∧ Bitstream.from .debug bytes = .ok (none, b) ∧
    Delivers .debug b (completeEntries exLlvmTops) := by
  have key : (streamBytes 0xdec04342 (exLlvmTree true).items).map (fun x => (x.1.length, x.2.map Entry.toStream)) =
      some (300, completeEntries exLlvmTops) := by
    decide +kernel
  obtain ⟨⟨bytes, es⟩, h1, h2⟩ := Option.map_eq_some_iff.1 key
  simp only [Prod.mk.injEq] at h2
  obtain ⟨b, hb, -, hd⟩ := Props.C18_stream_roundtrip_from .debug h1 (by decide)
  rw [h2.2] at hd
  exact ⟨bytes, b, h2.1, hb, hd⟩

/-- The first file meets the hypotheses of `C97_files_partial`. -/
example : ∃ bytes w b tops M text producer epoch, bytes.length ≤ 2 ^ 61 ∧ Bitstream.from .debug bytes = .ok (w, b) ∧
    Delivers .debug b (completeEntries tops) ∧ LlvmModule.Allowed M text ∧ 2 ≤ (utf8 producer).length ∧
    M.FileOf text producer epoch tops ∧ M.Readable ∧ text.length ≠ 1 ∧ text ≠ [] := by
  obtain ⟨bytes, b, h1, h2, h3⟩ := exLlvmTops_delivered
  exact ⟨bytes, none, b, _, _, _, _, _, by omega, h2, h3, exLlvmModule_allowed true, by decide +kernel,
    .plain ⟨rfl, rfl⟩ rfl exLlvmForest_written ⟨rfl, rfl⟩, exLlvmModule_readable, by decide +kernel, by decide +kernel⟩

end Verif
