import Verif.Mapper.LlvmGlobalSpec
import Verif.Props.Globals
import Verif.Props.Costs

/-! C94: functions as LLVM writes them. -/

namespace Verif
open Spec

/-- The record of a function. -/
def Spec.LlvmFunction.toRecord (f : LlvmFunction) (offset : Nat) : BRecord := ⟨none, 8, (f.fields offset).map (BitVec.ofNat 64)⟩

theorem field_ofNat {l : List Nat} (h : ∀ n ∈ l, n < 2 ^ 64) (i : Nat) : field (l.map (BitVec.ofNat 64)) i = l[i]?.getD 0 := by
  rw [field, List.getElem?_map]
  cases hi : l[i]? with
  | none => rfl
  | some n =>
    have := h n (List.mem_of_getElem? hi)
    simp only [Option.map_some, Option.getD_some, BitVec.toNat_ofNat]
    exact Nat.mod_eq_of_lt this

theorem oneBased_oneUp {α : Type} {l : List α} {i : Option Nat} {a : Option α} : OneBased l (oneUp i) a ↔ Refers l i a := by
  cases i with
  | none =>
    refine ⟨fun h => ?_, fun h => ?_⟩
    · generalize hn : oneUp none = n at h
      cases h with
      | none => trivial
      | some _ => cases hn
    · cases a with
      | none => exact .none
      | some _ => exact h.elim
  | some i =>
    refine ⟨fun h => ?_, fun h => ?_⟩
    · generalize hn : oneUp (some i) = n at h
      cases h with
      | none => cases hn
      | some h =>
        have : i = _ := Nat.succ.inj hn
        subst this
        exact h
    · cases a with
      | none => exact h.elim
      | some _ => exact .some h

theorem stands_linkage {a b : Linkage} : Stands linkageTable .external (llvmLinkage a) b ↔ b = a := by
  have h := linkage_stands (BitVec.ofNat 64 (llvmLinkage a)) b
  have h1 : (BitVec.ofNat 64 (llvmLinkage a)).toNat = llvmLinkage a := by cases a <;> rfl
  have h2 : Linkage.ofU64 (BitVec.ofNat 64 (llvmLinkage a)) = a := by cases a <;> decide +kernel
  rw [h1, h2] at h
  exact h.symm.trans eq_comm

theorem stands_unnamedAddr {a b : UnnamedAddr} : Stands unnamedAddrTable .none (llvmUnnamedAddr a) b ↔ b = a := by
  have h := unnamedAddr_stands (BitVec.ofNat 64 (llvmUnnamedAddr a)) b
  have h1 : (BitVec.ofNat 64 (llvmUnnamedAddr a)).toNat = llvmUnnamedAddr a := by cases a <;> rfl
  have h2 : UnnamedAddr.ofU64 (BitVec.ofNat 64 (llvmUnnamedAddr a)) = a := by cases a <;> decide +kernel
  rw [h1, h2] at h
  exact h.symm.trans eq_comm

theorem mem_visibility {a b : Visibility} : (llvmVisibility a, b) ∈ visibilityTable ↔ b = a := by
  cases a <;> cases b <;> decide

theorem mem_storageClass {a b : DllStorageClass} : (llvmStorageClass a, b) ∈ dllStorageClassTable ↔ b = a := by
  cases a <;> cases b <;> decide

theorem alignNumber_oneUp {k : Option Nat} (h : ∀ n, k = some n → n ≤ 32) {m : MaybeAlign} :
    AlignNumber (oneUp k % 256) m ↔ m.align.map (·.shift.toNat) = k := by
  have hm : oneUp k % 256 = oneUp k := by
    cases k with
    | none => rfl
    | some n => have := h n rfl; exact Nat.mod_eq_of_lt (by show n + 1 < 256; omega)
  rw [hm]
  refine ⟨fun ha => ?_, fun ha => ?_⟩
  · generalize hn : oneUp k = n at ha
    cases ha with
    | none =>
      cases k with
      | none => rfl
      | some _ => cases hn
    | some _ =>
      cases k with
      | none => cases hn
      | some n => exact congrArg some (Nat.succ.inj hn).symm
  · subst ha
    obtain ⟨a⟩ := m
    cases a with
    | none => exact .none
    | some a => exact .some (by have : a.shift.toNat ≤ 32 := h _ rfl; omega)

/-- What the record of a function says is that function, if it has a name. -/
theorem says_function {ctx : MapCtx} {f : LlvmFunction} {offset : Nat} (h : f.Allowed offset ctx) (g : FunctionRecord) :
    FunctionSays ctx (f.toRecord offset).fields g ↔ SameFunction ctx f g ∧ f.name ≠ [] := by
  have hf : ∀ i, field (f.toRecord offset).fields i = (f.fields offset)[i]?.getD 0 := field_ofNat h.small
  have h0 : field (f.toRecord offset).fields 0 = offset := hf 0
  have h1 : field (f.toRecord offset).fields 1 = f.name.length := hf 1
  have h2 : field (f.toRecord offset).fields 2 = f.type := hf 2
  have h3 : field (f.toRecord offset).fields 3 = f.callingConvention := hf 3
  have h4 : field (f.toRecord offset).fields 4 = f.isDeclaration.toNat := hf 4
  have h5 : field (f.toRecord offset).fields 5 = llvmLinkage f.linkage := hf 5
  have h6 : field (f.toRecord offset).fields 6 = oneUp f.attributes := hf 6
  have h7 : field (f.toRecord offset).fields 7 = oneUp f.align := hf 7
  have h8 : field (f.toRecord offset).fields 8 = oneUp f.section := hf 8
  have h9 : field (f.toRecord offset).fields 9 = llvmVisibility f.visibility := hf 9
  have h10 : field (f.toRecord offset).fields 10 = oneUp f.gc := hf 10
  have h11 : field (f.toRecord offset).fields 11 = llvmUnnamedAddr f.unnamedAddr := hf 11
  have h13 : field (f.toRecord offset).fields 13 = llvmStorageClass f.storageClass := hf 13
  obtain ⟨pre, post, hp1, hp2⟩ := h.name
  have name : NameAt ctx.strtab.bytes offset f.name.length g.name ↔ utf8 g.name = f.name ∧ f.name ≠ [] := by
    constructor
    · rintro ⟨h1, pre', post', h2, h3, h4⟩
      rw [hp1] at h2
      obtain ⟨-, h2⟩ := List.append_inj h2 (by omega)
      obtain ⟨h2, -⟩ := List.append_inj h2 h4.symm
      refine ⟨h2.symm, ?_⟩
      intro h0
      rw [h0] at h1
      exact absurd h1 (by decide)
    · rintro ⟨h1, h2⟩
      refine ⟨List.length_pos_iff.2 h2, pre, post, by rw [h1]; exact hp1, hp2, by rw [h1]⟩
  have decl : (g.isDeclaration = true ↔ f.isDeclaration.toNat ≠ 0) ↔ g.isDeclaration = f.isDeclaration := by
    cases g.isDeclaration <;> cases f.isDeclaration <;> decide
  constructor
  · intro hs
    refine ⟨{
      name := (name.1 (h0 ▸ h1 ▸ hs.name)).1
      type := h2 ▸ hs.type
      callingConvention := h3 ▸ hs.callingConvention
      isDeclaration := decl.1 (h4 ▸ hs.isDeclaration)
      linkage := stands_linkage.1 (h5 ▸ hs.linkage)
      attributes := oneBased_oneUp.1 (h6 ▸ hs.attributes)
      align := (alignNumber_oneUp h.align).1 (h7 ▸ hs.alignment)
      «section» := oneBased_oneUp.1 (h8 ▸ hs.section)
      visibility := mem_visibility.1 (h9 ▸ hs.visibility)
      gc := oneBased_oneUp.1 (h10 ▸ hs.gcName)
      unnamedAddr := stands_unnamedAddr.1 (h11 ▸ hs.unnamedAddr)
      storageClass := mem_storageClass.1 (h13 ▸ hs.storageClass) }, (name.1 (h0 ▸ h1 ▸ hs.name)).2⟩
  · rintro ⟨hs, hn⟩
    exact {
      version := h.version
      length := by show 10 ≤ ((f.fields offset).map _).length; simp [LlvmFunction.fields]
      name := by rw [h0, h1]; exact name.2 ⟨hs.name, hn⟩
      type := by rw [h2]; exact hs.type
      callingConvention := by rw [h3]; exact hs.callingConvention
      isDeclaration := by rw [h4]; exact decl.2 hs.isDeclaration
      linkage := by rw [h5]; exact stands_linkage.2 hs.linkage
      attributes := by rw [h6]; exact oneBased_oneUp.2 hs.attributes
      alignment := by rw [h7]; exact (alignNumber_oneUp h.align).2 hs.align
      «section» := by rw [h8]; exact oneBased_oneUp.2 hs.section
      visibility := by rw [h9]; exact mem_visibility.2 hs.visibility
      gcName := by rw [h10]; exact oneBased_oneUp.2 hs.gc
      unnamedAddr := by rw [h11]; exact stands_unnamedAddr.2 hs.unnamedAddr
      storageClass := by rw [h13]; exact mem_storageClass.2 hs.storageClass }

theorem refers_some {α : Type} {l : List α} {i : Option Nat} (h : ∀ n, i = some n → n < l.length) : ∃ a, Refers l i a := by
  cases i with
  | none => exact ⟨none, trivial⟩
  | some n => exact ⟨some _, List.getElem?_eq_getElem (h n rfl)⟩

/-- C94, as far as it holds. The record that LLVM writes of a function maps if and only if the function has a name, the name is UTF-8, and the calling
convention is one of those listed; then it maps to the function that was written. -/
theorem C94_functions_partial (pf : Profile) (ctx : MapCtx) (ht : ctx.strtab.bytes.length < 2 ^ 64) (f : LlvmFunction) (offset : Nat)
    (h : f.Allowed offset ctx) :
    ((∃ g, FunctionRecord.tryMap pf (f.toRecord offset) ctx = .ok g) ↔
      f.name ≠ [] ∧ (∃ s, utf8 s = f.name) ∧ ∃ cc, (f.callingConvention, cc) ∈ callingConventionTable) ∧
    ∀ g, FunctionRecord.tryMap pf (f.toRecord offset) ctx = .ok g → SameFunction ctx f g := by
  refine ⟨⟨?_, ?_⟩, fun g hg => ((says_function h g).1 ((C49_function pf _ ctx ht g).1 hg)).1⟩
  · rintro ⟨g, hg⟩
    obtain ⟨hs, hn⟩ := (says_function h g).1 ((C49_function pf _ ctx ht g).1 hg)
    exact ⟨hn, ⟨_, hs.name⟩, _, hs.callingConvention⟩
  · rintro ⟨hn, ⟨s, hs⟩, cc, hc⟩
    obtain ⟨res, ps, va, hty⟩ := h.type
    obtain ⟨a, ha⟩ := refers_some h.attributes
    obtain ⟨sec, hsec⟩ := refers_some h.section
    obtain ⟨gc, hgc⟩ := refers_some h.gc
    refine ⟨⟨s, ⟨res, ps, va⟩, cc, f.isDeclaration, f.linkage, a, ⟨f.align.map fun k => ⟨BitVec.ofNat 8 k⟩⟩, sec, f.visibility, gc, f.unnamedAddr,
      f.storageClass⟩, (C49_function pf _ ctx ht _).2 ((says_function h _).2 ⟨{
        name := hs, type := hty, callingConvention := hc, isDeclaration := rfl, linkage := rfl, attributes := ha, «section» := hsec,
        visibility := rfl, gc := hgc, unnamedAddr := rfl, storageClass := rfl, align := ?_ }, hn⟩)⟩
    rw [Option.map_map]
    cases hk : f.align with
    | none => rfl
    | some k =>
      have := h.align k hk
      simp only [Option.map_some, Function.comp, BitVec.toNat_ofNat, Option.some.injEq]
      omega

/-- `define weak_odr hidden fastcc void @main() unnamed_addr section ".text" align 16 gc "shadow-stack"`, in the module of `exampleCtx`. -/
def exMain : LlvmFunction where
  name := utf8 "main".toList
  type := 1
  callingConvention := 8
  isDeclaration := false
  linkage := .weakOdr
  attributes := none
  align := some 4
  «section» := some 0
  visibility := .hidden
  gc := some 0
  unnamedAddr := .global
  prologue := 0
  storageClass := .default
  comdat := 0
  prefixData := 0
  personality := 0
  dsoLocal := true
  addressSpace := 0
  partition := (0, 0)

/-- Variants of it: with another name, which is at the given offset, and with another calling convention. -/
theorem exMain_allowed {name : List U8} {cc offset : Nat} (hn : ∃ pre post, exampleCtx.strtab.bytes = pre ++ (name ++ post) ∧ pre.length = offset)
    (hc : cc < 2 ^ 10) : { exMain with name := name, callingConvention := cc }.Allowed offset exampleCtx where
  version := by decide
  name := hn
  type := ⟨_, _, _, rfl⟩
  callingConvention := hc
  attributes := fun i h => by cases h
  align := fun k h => by cases h; decide
  «section» := fun i h => by cases h; decide
  gc := fun i h => by cases h; decide
  small := by
    obtain ⟨pre, post, h1, h2⟩ := hn
    have h3 := congrArg List.length h1
    have h4 : exampleCtx.strtab.bytes.length = 5 := by decide +kernel
    simp only [List.length_append] at h3
    have h5 : name.length < 2 ^ 64 ∧ offset < 2 ^ 64 ∧ cc < 2 ^ 64 := by omega
    intro n hn
    simp only [LlvmFunction.fields, exMain, List.mem_cons, List.not_mem_nil, or_false] at hn
    rcases hn with rfl | rfl | rfl | rfl | rfl | rfl | rfl | rfl | rfl | rfl | rfl | rfl | rfl | rfl | rfl | rfl | rfl | rfl | rfl | rfl | rfl <;>
      first
        | exact h5.1
        | exact h5.2.1
        | exact h5.2.2
        | decide

/-- A function that maps. -/
example (pf : Profile) : exMain.Allowed 0 exampleCtx ∧ FunctionRecord.tryMap pf (exMain.toRecord 0) exampleCtx =
    .ok { name := "main".toList, ty := ⟨.prim .void, [], false⟩, callingConvention := .fast, isDeclaration := false,
          linkage := .weakOdr, attributes := none, alignment := ⟨some ⟨4⟩⟩, «section» := some ".text".toList,
          visibility := .hidden, gcName := some "shadow-stack".toList, unnamedAddr := .global, storageClass := .default } :=
  ⟨exMain_allowed (name := utf8 "main".toList) (cc := 8) ⟨[], [120], by decide +kernel, rfl⟩ (by decide), by cases pf <;> decide +kernel⟩

/-- C94 is false: LLVM allows functions without a name, functions with tail calls (`tailcc`, number 18) and names that are not UTF-8, and they are refused. -/
theorem C94_functions_refuted (pf : Profile) :
    ({ exMain with name := [] }.Allowed 0 exampleCtx ∧
      FunctionRecord.tryMap pf ({ exMain with name := [] }.toRecord 0) exampleCtx = .err (.strtab .badRange)) ∧
    ({ exMain with callingConvention := 18 }.Allowed 0 exampleCtx ∧
      FunctionRecord.tryMap pf ({ exMain with callingConvention := 18 }.toRecord 0) exampleCtx = .err (.callingConvention 18)) ∧
    ({ exMain with name := [0xff] }.Allowed 0 { exampleCtx with strtab := ⟨[0xff]⟩ } ∧ ∃ e,
      FunctionRecord.tryMap pf ({ exMain with name := [0xff] }.toRecord 0) { exampleCtx with strtab := ⟨[0xff]⟩ } = .err (.strtab e)) := by
  refine ⟨⟨exMain_allowed (name := []) (cc := 8) ⟨[], _, rfl, rfl⟩ (by decide), by cases pf <;> decide +kernel⟩,
    ⟨exMain_allowed (name := utf8 "main".toList) (cc := 18) ⟨[], [120], by decide +kernel, rfl⟩ (by decide), by cases pf <;> decide +kernel⟩,
    ⟨{ version := by decide, name := ⟨[], [], rfl, rfl⟩, type := ⟨_, _, _, rfl⟩, callingConvention := by decide,
       attributes := fun i h => (by cases h), align := fun k h => (by cases h; decide), «section» := fun i h => (by cases h; decide),
       gc := fun i h => (by cases h; decide), small := by decide +kernel }, ?_⟩⟩
  have : (match FunctionRecord.tryMap pf ({ exMain with name := [0xff] }.toRecord 0) { exampleCtx with strtab := ⟨[0xff]⟩ } with
      | .err (.strtab _) => true | _ => false) = true := by cases pf <;> decide +kernel
  split at this
  · next e h => exact ⟨e, h⟩
  · cases this

/-- C94, files. A file does not map if a module in it has the record of a function that has no name or another calling convention. -/
theorem C94_files (pf : Profile) (target : Str) (bytes : List U8) (hlen : bytes.length ≤ 2 ^ 61) {w : Option BitcodeWrapper}
    {b : Bitstream} (hb : Bitstream.from pf bytes = .ok (w, b)) {tops : List (BBlock × Forest)}
    (hd : Delivers pf b (completeEntries tops)) {p : Parts (BBlock × Forest)} {c : BBlock × Forest} {r : BRecord} {f : LlvmFunction}
    {offset : Nat} (hp : p ∈ parts tops) (hc : p.module = some c) (hr : r ∈ c.2.records) (hr8 : r.code = 8)
    (hrf : r.fields = (f.toRecord offset).fields) (hs : ∀ n ∈ f.fields offset, n < 2 ^ 64)
    (hu : f.name = [] ∨ ∀ cc, (f.callingConvention, cc) ∉ callingConventionTable) (m : Bitcode) : Bitcode.tryFrom pf target bytes ≠ .ok m := by
  intro h
  obtain ⟨w', b', tops', hb', hd', hsay⟩ := (C51_bytes pf target bytes hlen m).1 h
  rw [hb] at hb'; cases hb'
  have := (entries_unique (T := tops) (T' := tops') (P := []) (P' := []) (by rw [delivers_unique hd hd'])).1
  subst this
  obtain ⟨k, hk⟩ := List.mem_iff_getElem?.1 hp
  obtain ⟨hl, he⟩ := hsay.2
  have hlt : k < m.modules.length := by have := (List.getElem?_eq_some_iff.1 hk).1; omega
  obtain ⟨c', ctx, fs, as, hc', hm⟩ := (he k p _ hk (List.getElem?_eq_getElem hlt)).module
  rw [hc] at hc'; cases hc'
  have hmem : r ∈ withCode c.2.records 8 := by
    rw [withCode, List.mem_filter]
    exact ⟨hr, by rw [hr8]; rfl⟩
  obtain ⟨j, hj⟩ := List.mem_iff_getElem?.1 hmem
  obtain ⟨hl2, he2⟩ := hm.functions
  have hj2 : j < fs.length := by have := (List.getElem?_eq_some_iff.1 hj).1; omega
  have hsays := he2 j r _ hj (List.getElem?_eq_getElem hj2)
  have h1 : field r.fields 1 = f.name.length := by rw [hrf]; exact field_ofNat hs 1
  have h3 : field r.fields 3 = f.callingConvention := by rw [hrf]; exact field_ofNat hs 3
  rcases hu with hu | hu
  · have := hsays.name.1
    rw [h1, hu] at this
    exact absurd this (by decide)
  · exact hu _ (h3 ▸ hsays.callingConvention)

/-! ## Files with one function -/

/-- The types `void` and `void ()`. -/
def voidRecords : List BRecord := [⟨none, 1, [2]⟩, ⟨none, 2, []⟩, ⟨none, 21, [0, 0]⟩]

/-- A module with one function. -/
def functionModule (f : LlvmFunction) (offset : Nat) : Tree :=
  .record 1 [2] (.record 8 (f.toRecord offset).fields (.block 17 (recTree voidRecords) (.block 14 .nil .nil)))

/-- A file with this module and a string table. -/
def functionFile (f : LlvmFunction) (offset : Nat) (text : List U8) : Tree :=
  .block 13 (.record 1 [76, 76] (.record 2 [0] .nil)) (.block 8 (functionModule f offset)
    (.block 23 (.record 1 (text.map (BitVec.setWidth 64)) .nil) .nil))

/-- The tables of the module. -/
def functionCtx (text : List U8) : MapCtx := { hxCtx [.prim .void, .function (.prim .void) [] false] with strtab := ⟨text⟩ }

theorem functionFile_fine (f : LlvmFunction) (offset : Nat) (text : List U8) : (functionFile f offset text).OnlyBlocks ∧
    (functionFile f offset text).NoInfo ∧ (functionFile f offset text).weight = text.length + 67 := by
  refine ⟨by simp [functionFile, Tree.OnlyBlocks], by simp [functionFile, functionModule, Tree.NoInfo, recTree, voidRecords], ?_⟩
  have : (f.toRecord offset).fields.length = 21 := rfl
  simp only [functionFile, functionModule, Tree.weight, List.length_cons, List.length_nil, List.length_map, this, recTree, voidRecords]
  omega

theorem functionModule_says {pf : Profile} (target : Str) {text : List U8} {f : LlvmFunction} {offset : Nat} {g : FunctionRecord}
    (h : FunctionSays (functionCtx text) (f.toRecord offset).fields g) :
    ModuleSays pf target ⟨text⟩ (functionModule f offset).forest ⟨target, [], []⟩ (functionCtx text) [g] [] where
  tables := {
    version := ⟨⟨none, 1, [2]⟩, [], rfl, rfl⟩
    datalayout := .absent
    sections := each_nil_left.2 rfl
    gcs := each_nil_left.2 rfl
    strtab := rfl
    types := ⟨(⟨17, 0⟩, (recTree voidRecords).forest), rfl,
      (C40_exact pf (.mk (.ir .type) voidRecords []) [.prim .void, .function (.prim .void) [] false]).1 (by cases pf <;> decide +kernel)⟩
    symbols := ⟨_, rfl⟩
    groups := .absent
    attributes := .absent
    comdats := each_nil_left.2 rfl }
  triple := .absent
  asm := .absent
  deplibs := each_nil_left.2 rfl
  functions := by
    show Each _ [(⟨none, 8, (f.toRecord offset).fields⟩ : BRecord)] [g]
    exact each_cons.2 ⟨h, each_nil_left.2 rfl⟩
  noBodies := rfl
  aliases := each_nil_left.2 rfl

theorem functionFile_order (f : LlvmFunction) (offset : Nat) (text : List U8) : InOrder (functionFile f offset text).tops := by
  intro pre c post h
  simp only [functionFile, Tree.tops, Tree.forest, Forest.blocks] at h
  match pre, h with
  | [], h => simp only [List.nil_append, List.cons.injEq] at h; rw [← h.1]; exact .inl (by simp)
  | [a], h =>
    simp only [List.cons_append, List.nil_append, List.cons.injEq] at h
    obtain ⟨rfl, rfl, -⟩ := h
    exact .inr ⟨rfl, [], _, [], rfl, rfl, by simp⟩
  | [a, a'], h =>
    simp only [List.cons_append, List.nil_append, List.cons.injEq] at h
    obtain ⟨rfl, rfl, rfl, -⟩ := h
    exact .inl (by simp)
  | a :: a' :: a'' :: pre, h =>
    simp at h

/-- C94, files: whatever function of type `void ()` LLVM allows, the file with one module that has it maps if and only if the function has a name, the
name is UTF-8, and the calling convention is one of those listed. -/
theorem C94_files_refuted (pf : Profile) (target : Str) (f : LlvmFunction) (offset : Nat) (text : List U8) (h2 : 2 ≤ text.length)
    (hl : text.length ≤ 2 ^ 29) (h : f.Allowed offset (functionCtx text)) :
    ∃ bytes es, streamBytes 0xdec04342 (functionFile f offset text).items = some (bytes, es) ∧
      ((∃ m, Bitcode.tryFrom pf target bytes = .ok m) ↔
        f.name ≠ [] ∧ (∃ s, utf8 s = f.name) ∧ ∃ cc, (f.callingConvention, cc) ∈ callingConventionTable) := by
  obtain ⟨f1, f2, f3⟩ := functionFile_fine f offset text
  obtain ⟨bytes, es, h1, h4, h3⟩ := C69_writes 0xdec04342 _ f1 f2 (by omega)
  have ht : (functionCtx text).strtab.bytes.length < 2 ^ 64 := by show text.length < 2 ^ 64; omega
  have g1 : parts (functionFile f offset text).tops =
      [{ identification := (⟨13, 0⟩, .record ⟨none, 1, [76, 76]⟩ (.record ⟨none, 2, [0]⟩ .nil))
         module := some (⟨8, 0⟩, (functionModule f offset).forest)
         strtab := some (⟨23, 0⟩, .record ⟨none, 1, text.map (BitVec.setWidth 64)⟩ .nil)
         symtab := none }] := rfl
  refine ⟨bytes, es, h1, ?_, ?_⟩
  · rintro ⟨m, hm⟩
    rw [C69_maps pf target h1 (by decide) (by omega), h4] at hm
    obtain ⟨-, he⟩ := hm
    rw [g1] at he
    obtain ⟨x, xs, -, hx, -⟩ := each_cons_left.1 he
    obtain ⟨c, hc, r, ⟨pre, post, hr, hcode, hpre⟩, hb, -⟩ := hx.strtab
    cases hc
    obtain ⟨c, ctx, fs, as, hc, hm⟩ := hx.module
    cases hc
    -- the string table is the text
    have hstr : ctx.strtab.bytes = text := by
      rw [hm.tables.strtab]
      simp only [Forest.records] at hr
      match pre, hr with
      | [], hr =>
        simp only [List.nil_append, List.cons.injEq] at hr
        rw [← hr.1] at hb
        have e1 := (areBytes_iff _ _).2 hb
        have e2 := (areBytes_iff (text.map (BitVec.setWidth 64)) text).2 rfl
        rw [e2] at e1
        exact (Option.some.inj e1).symm
      | _ :: _, hr => simp at hr
    have hfs := hm.functions
    rw [show withCode (functionModule f offset).forest.records 8 = [⟨none, 8, (f.toRecord offset).fields⟩] from rfl] at hfs
    obtain ⟨g, gs, -, hg, -⟩ := each_cons_left.1 hfs
    have n0 : field (f.toRecord offset).fields 0 = offset := field_ofNat h.small 0
    have n1 : field (f.toRecord offset).fields 1 = f.name.length := field_ofNat h.small 1
    have n3 : field (f.toRecord offset).fields 3 = f.callingConvention := field_ofNat h.small 3
    obtain ⟨l1, pre', post', l2, l3, l4⟩ := hg.name
    simp only [n0, n1] at l1 l3 l4
    obtain ⟨pre, post, hp1, hp2⟩ := h.name
    rw [hstr, show text = _ from hp1] at l2
    obtain ⟨-, l2⟩ := List.append_inj l2 (by omega)
    obtain ⟨l2, -⟩ := List.append_inj l2 l4.symm
    refine ⟨?_, ⟨_, l2.symm⟩, _, n3 ▸ hg.callingConvention⟩
    intro h0
    rw [h0] at l1
    exact absurd l1 (by decide)
  · intro hu
    obtain ⟨g, hg⟩ := (C94_functions_partial pf _ ht f offset h).1.2 hu
    refine ⟨⟨[sharedModule target text]⟩, (C69_maps pf target h1 (by decide) (by omega) _).2 ?_⟩
    rw [h4]
    refine ⟨functionFile_order _ _ _, ?_⟩
    rw [g1, each_cons]
    refine ⟨⟨⟨⟨⟨none, 1, [76, 76]⟩, ⟨[], _, rfl, rfl, by simp⟩, rfl, by simp, by simp⟩,
        ⟨⟨none, 2, [0]⟩, [], ⟨[_], [], rfl, rfl, by simp⟩, rfl⟩⟩,
      ⟨_, rfl, ⟨none, 1, text.map (BitVec.setWidth 64)⟩, ⟨[], [], rfl, rfl, by simp⟩, rfl, by simp; omega, fun h0 => ?_⟩,
      ⟨_, _, _, [], rfl, functionModule_says target ((C49_function pf _ _ ht g).1 hg)⟩,
      .inl ⟨rfl, rfl⟩⟩, each_nil_left.2 rfl⟩
    simp only [List.map_eq_nil_iff] at h0
    rw [h0] at h2
    simp at h2

/-- `define void @main()` and `define void @0()`, in a file with the string table `main`. -/
def exVoid (name : List U8) : LlvmFunction := { exMain with name := name, callingConvention := 0, «section» := none, gc := none }

theorem exVoid_allowed {name : List U8} (h : ∃ post, utf8 "main".toList = name ++ post) : (exVoid name).Allowed 0 (functionCtx (utf8 "main".toList)) where
  version := by decide
  name := let ⟨post, h⟩ := h; ⟨[], post, h, rfl⟩
  type := ⟨_, _, _, rfl⟩
  callingConvention := by show 0 < 2 ^ 10; decide
  attributes := fun i h => by cases h
  align := fun k h => by cases h; decide
  «section» := fun i h => by cases h
  gc := fun i h => by cases h
  small := by
    obtain ⟨post, h⟩ := h
    have h3 := congrArg List.length h
    have h4 : (utf8 "main".toList).length = 4 := by decide +kernel
    simp only [List.length_append] at h3
    have h5 : name.length < 2 ^ 64 := by omega
    intro n hn
    simp only [LlvmFunction.fields, exVoid, exMain, List.mem_cons, List.not_mem_nil, or_false] at hn
    rcases hn with rfl | rfl | rfl | rfl | rfl | rfl | rfl | rfl | rfl | rfl | rfl | rfl | rfl | rfl | rfl | rfl | rfl | rfl | rfl | rfl | rfl <;>
      first
        | exact h5
        | decide

/-- The first file maps, the second does not. -/
example (pf : Profile) (target : Str) :
    (∃ bytes es m, streamBytes 0xdec04342 (functionFile (exVoid (utf8 "main".toList)) 0 (utf8 "main".toList)).items = some (bytes, es) ∧
      Bitcode.tryFrom pf target bytes = .ok m) ∧
    ∃ bytes es, streamBytes 0xdec04342 (functionFile (exVoid []) 0 (utf8 "main".toList)).items = some (bytes, es) ∧
      ∀ m, Bitcode.tryFrom pf target bytes ≠ .ok m := by
  refine ⟨?_, ?_⟩
  · obtain ⟨bytes, es, h1, h2⟩ := C94_files_refuted pf target (exVoid (utf8 "main".toList)) 0 (utf8 "main".toList) (by decide +kernel)
      (by decide +kernel) (exVoid_allowed ⟨[], by decide +kernel⟩)
    obtain ⟨m, hm⟩ := h2.2 ⟨by decide +kernel, ⟨_, rfl⟩, .c, by decide +kernel⟩
    exact ⟨bytes, es, m, h1, hm⟩
  · obtain ⟨bytes, es, h1, h2⟩ := C94_files_refuted pf target (exVoid []) 0 (utf8 "main".toList) (by decide +kernel)
      (by decide +kernel) (exVoid_allowed ⟨_, rfl⟩)
    exact ⟨bytes, es, h1, fun m hm => (h2.1 ⟨m, hm⟩).1 rfl⟩

/-- A file with `define void @0()` meets the hypotheses of `C94_files`. -/
example : ∃ bytes w b tops p c r f offset, bytes.length ≤ 2 ^ 61 ∧ Bitstream.from .debug bytes = .ok (w, b) ∧
    Delivers .debug b (completeEntries tops) ∧ p ∈ parts tops ∧ p.module = some c ∧ r ∈ c.2.records ∧ r.code = 8 ∧
    r.fields = (LlvmFunction.toRecord f offset).fields ∧ (∀ n ∈ f.fields offset, n < 2 ^ 64) ∧ f.name = [] := by
  have key : (streamBytes 0xdec04342 (functionFile (exVoid []) 0 [97, 97]).items).map
      (fun x => (x.1.length, x.2.map Entry.toStream)) = some (96, completeEntries
        [(⟨13, 8⟩, .record ⟨none, 1, [76, 76]⟩ (.record ⟨none, 2, [0]⟩ .nil)),
          (⟨8, 52⟩, .record ⟨none, 1, [2]⟩ (.record ⟨none, 8, [0, 0, 1, 0, 0, 17, 0, 5, 0, 1, 0, 1, 0, 0, 0, 0, 0, 1, 0, 0, 0]⟩ (.block ⟨17, 8⟩
            (.record ⟨none, 1, [2]⟩ (.record ⟨none, 2, []⟩ (.record ⟨none, 21, [0, 0]⟩ .nil))) (.block ⟨14, 4⟩ .nil .nil)))),
          (⟨23, 8⟩, .record ⟨none, 1, [97, 97]⟩ .nil)]) := by
    decide +kernel
  obtain ⟨⟨bytes, es⟩, h1, h2⟩ := Option.map_eq_some_iff.1 key
  simp only [Prod.mk.injEq] at h2
  obtain ⟨b, hb, -, hd⟩ := Props.C18_stream_roundtrip_from .debug h1 (by decide)
  rw [h2.2] at hd
  exact ⟨bytes, none, b, _, _, _, ⟨none, 8, [0, 0, 1, 0, 0, 17, 0, 5, 0, 1, 0, 1, 0, 0, 0, 0, 0, 1, 0, 0, 0]⟩, exVoid [], 0,
    by rw [h2.1]; decide, hb, hd, List.mem_cons_self, rfl, .tail _ (.head _), rfl, by decide +kernel, by decide +kernel, rfl⟩

end Verif
