import Verif.Mapper.LlvmAliasSpec
import Verif.Props.LlvmFunction

/-! C96: aliases and COMDATs as LLVM writes them. -/

namespace Verif
open Spec

/-- The record of an alias. -/
def Spec.WrittenAlias.toRecord (a : WrittenAlias) (offset : Nat) : BRecord := ⟨none, 14, (a.fields offset).map (BitVec.ofNat 64)⟩

/-- The record of a COMDAT. -/
def Spec.WrittenComdat.toRecord (c : WrittenComdat) (offset : Nat) : BRecord := ⟨none, 12, (c.fields offset).map (BitVec.ofNat 64)⟩

theorem nameAt_iff {bytes name : List U8} {offset : Nat} (h : ∃ pre post, bytes = pre ++ (name ++ post) ∧ pre.length = offset) (s : Str) :
    NameAt bytes offset name.length s ↔ utf8 s = name ∧ name ≠ [] := by
  obtain ⟨pre, post, hp1, hp2⟩ := h
  constructor
  · rintro ⟨h1, pre', post', h2, h3, h4⟩
    rw [hp1] at h2
    obtain ⟨-, h2⟩ := List.append_inj h2 (by omega)
    obtain ⟨h2, -⟩ := List.append_inj h2 h4.symm
    refine ⟨h2.symm, ?_⟩
    intro h0
    rw [h0] at h1
    exact absurd h1 (by decide)
  · rintro ⟨h1, h2⟩
    exact ⟨List.length_pos_iff.2 h2, pre, post, by rw [h1]; exact hp1, hp2, by rw [h1]⟩

/-- What the record of an alias says: the properties are those of the fields before. -/
theorem says_alias {ctx : MapCtx} {a : WrittenAlias} {offset : Nat} (h : a.Allowed offset ctx) (b : Alias) :
    AliasSays ctx (a.toRecord offset).fields b ↔
      (utf8 b.name = a.name ∧ a.name ≠ []) ∧ ctx.typeTable[a.type]? = some b.ty ∧ b.valueIndex.toNat = a.addressSpace ∧
      Stands linkageTable .external a.aliasee b.linkage ∧ (llvmLinkage a.linkage, b.visibility) ∈ visibilityTable ∧
      (llvmVisibility a.visibility, b.storageClass) ∈ dllStorageClassTable ∧
      Stands threadLocalModeTable .generalDynamicTls (llvmStorageClass a.storageClass) b.tlsMode ∧
      Stands unnamedAddrTable .none (llvmThreadLocalMode a.tlsMode) b.unnamedAddr ∧
      Stands runtimePreemptionTable .dsoPreemptable (llvmUnnamedAddr a.unnamedAddr) b.preemptionSpecifier := by
  have hf : ∀ i, field (a.toRecord offset).fields i = (a.fields offset)[i]?.getD 0 := field_ofNat h.small
  have h0 : field (a.toRecord offset).fields 0 = offset := hf 0
  have h1 : field (a.toRecord offset).fields 1 = a.name.length := hf 1
  have h2 : field (a.toRecord offset).fields 2 = a.type := hf 2
  have h3 : field (a.toRecord offset).fields 3 = a.addressSpace := hf 3
  have h4 : field (a.toRecord offset).fields 4 = a.aliasee := hf 4
  have h5 : field (a.toRecord offset).fields 5 = llvmLinkage a.linkage := hf 5
  have h6 : field (a.toRecord offset).fields 6 = llvmVisibility a.visibility := hf 6
  have h7 : field (a.toRecord offset).fields 7 = llvmStorageClass a.storageClass := hf 7
  have h8 : field (a.toRecord offset).fields 8 = llvmThreadLocalMode a.tlsMode := hf 8
  have h9 : field (a.toRecord offset).fields 9 = llvmUnnamedAddr a.unnamedAddr := hf 9
  have hl : 5 ≤ (a.toRecord offset).fields.length := by show 5 ≤ ((a.fields offset).map _).length; simp [WrittenAlias.fields]
  rw [← nameAt_iff h.name]
  generalize (a.toRecord offset).fields = fs at hl h0 h1 h2 h3 h4 h5 h6 h7 h8 h9
  rw [← h0, ← h1, ← h2, ← h3, ← h4, ← h5, ← h6, ← h7, ← h8, ← h9]
  constructor
  · intro hs
    exact ⟨hs.name, hs.type, hs.valueIndex, hs.linkage, hs.visibility, hs.storageClass, hs.tlsMode, hs.unnamedAddr, hs.preemptionSpecifier⟩
  · rintro ⟨g1, g2, g3, g4, g5, g6, g7, g8, g9⟩
    exact ⟨h.version, hl, g1, g2, g3, g4, g5, g6, g7, g8, g9⟩

theorem linkage_read {a : WrittenAlias} {offset : Nat} {ctx : MapCtx} (h : a.Allowed offset ctx) {v : Visibility} :
    (llvmLinkage a.linkage, v) ∈ visibilityTable ↔ a.linkage = .external ∧ v = .default := by
  have hl := h.linkage
  generalize a.linkage = l at hl
  cases l <;> cases v <;> first | decide | (exact absurd hl (by decide))

/-- C96, as far as it holds. The record that LLVM writes of an alias maps if and only if the alias has external linkage and a name, and the name is UTF-8.
Then the name and the type are those that were written; all of it is, if and only if the alias is `Plain`. -/
theorem C96_aliases_partial (pf : Profile) (ctx : MapCtx) (ht : ctx.strtab.bytes.length < 2 ^ 64) (a : WrittenAlias) (offset : Nat)
    (h : a.Allowed offset ctx) :
    ((∃ b, Alias.tryMap pf (a.toRecord offset) ctx = .ok b) ↔ a.linkage = .external ∧ a.name ≠ [] ∧ ∃ s, utf8 s = a.name) ∧
    ∀ b, Alias.tryMap pf (a.toRecord offset) ctx = .ok b →
      utf8 b.name = a.name ∧ ctx.typeTable[a.type]? = some b.ty ∧ (SameAlias ctx a b ↔ a.Plain) := by
  have small (n : Nat) (hn : n ∈ a.fields offset) : (BitVec.ofNat 64 n).toNat = n := by
    rw [BitVec.toNat_ofNat]; exact Nat.mod_eq_of_lt (h.small n hn)
  refine ⟨⟨?_, ?_⟩, fun b hb => ?_⟩
  · rintro ⟨b, hb⟩
    obtain ⟨⟨g1, g2⟩, -, -, -, g3, -⟩ := (says_alias h b).1 ((C49_alias pf _ ctx ht b).1 hb)
    exact ⟨((linkage_read h).1 g3).1, g2, _, g1⟩
  · rintro ⟨hl, hn, s, hs⟩
    have e3 := small a.addressSpace (by simp [WrittenAlias.fields])
    have e4 := small a.aliasee (by simp [WrittenAlias.fields])
    have e7 := small (llvmStorageClass a.storageClass) (by simp [WrittenAlias.fields])
    have e8 := small (llvmThreadLocalMode a.tlsMode) (by simp [WrittenAlias.fields])
    have e9 := small (llvmUnnamedAddr a.unnamedAddr) (by simp [WrittenAlias.fields])
    obtain ⟨sc, hsc⟩ : ∃ sc, (llvmVisibility a.visibility, sc) ∈ dllStorageClassTable := by
      cases a.visibility
      · exact ⟨.default, by decide⟩
      · exact ⟨.import, by decide⟩
      · exact ⟨.export, by decide⟩
    refine ⟨⟨s, ctx.typeTable[a.type]'h.type, BitVec.ofNat 64 a.addressSpace, .ofU64 (BitVec.ofNat 64 a.aliasee), .default, sc,
      .ofU64 (BitVec.ofNat 64 (llvmStorageClass a.storageClass)), .ofU64 (BitVec.ofNat 64 (llvmThreadLocalMode a.tlsMode)),
      .ofU64 (BitVec.ofNat 64 (llvmUnnamedAddr a.unnamedAddr))⟩, (C49_alias pf _ ctx ht _).2 ((says_alias h _).2 ?_)⟩
    have l4 := (linkage_stands (BitVec.ofNat 64 a.aliasee) _).1 rfl
    have l7 := (threadLocal_stands (BitVec.ofNat 64 (llvmStorageClass a.storageClass)) _).1 rfl
    have l8 := (unnamedAddr_stands (BitVec.ofNat 64 (llvmThreadLocalMode a.tlsMode)) _).1 rfl
    have l9 := (preemption_stands (BitVec.ofNat 64 (llvmUnnamedAddr a.unnamedAddr)) _).1 rfl
    rw [e4] at l4
    rw [e7] at l7
    rw [e8] at l8
    rw [e9] at l9
    exact ⟨⟨hs, hn⟩, List.getElem?_eq_getElem h.type, e3, l4, (linkage_read h).2 ⟨hl, rfl⟩, hsc, l7, l8, l9⟩
  · obtain ⟨⟨g1, g2⟩, g3, g4, g5, g6, g7, g8, g9, g10⟩ := (says_alias h b).1 ((C49_alias pf _ ctx ht b).1 hb)
    obtain ⟨k1, k2⟩ := (linkage_read h).1 g6
    have e4 := small a.aliasee (by simp [WrittenAlias.fields])
    refine ⟨g1, g3, fun hs => ?_, fun hp => ?_⟩
    · have v : a.visibility = .default := by rw [← hs.visibility]; exact k2
      rw [v] at g7
      have sc : a.storageClass = .default := by
        rw [← hs.storageClass]
        generalize b.storageClass = x at g7
        cases x <;> first | rfl | exact absurd g7 (by decide)
      rw [sc] at g8
      have tls : a.tlsMode = .notThreadLocal := by
        rw [← hs.tlsMode]
        exact ((threadLocal_stands 0 _).2 g8).symm
      rw [tls] at g9
      have un : a.unnamedAddr = .none := by
        rw [← hs.unnamedAddr]
        exact ((unnamedAddr_stands 0 _).2 g9).symm
      rw [un] at g10
      have dso : b.preemptionSpecifier = .dsoPreemptable := ((preemption_stands 0 _).2 g10).symm
      refine ⟨by rw [← hs.aliasee, g4], fun l hl => ?_, k1, v, sc, tls, un, ?_⟩
      · rw [hs.linkage, k1, ← e4] at g5
        have h1 := (linkage_stands _ _).2 g5
        have h2 := (linkage_stands (BitVec.ofNat 64 a.aliasee) l).2 (.inl (by rw [e4]; exact hl))
        rw [← h2, h1]
      · have := hs.dsoLocal
        rw [dso] at this
        cases hd : a.dsoLocal with
        | false => rfl
        | true => rw [hd] at this; cases this
    · refine ⟨g1, g3, by rw [g4, hp.aliasee], ?_, by rw [k2, hp.visibility], ?_, ?_, ?_, ?_⟩
      · rw [hp.linkage]
        rcases g5 with g5 | ⟨-, g5⟩
        · exact hp.number _ g5
        · exact g5
      · rw [hp.visibility] at g7
        rw [hp.storageClass]
        generalize b.storageClass = x at g7
        cases x <;> first | rfl | exact absurd g7 (by decide)
      · rw [hp.storageClass] at g8
        rw [hp.tlsMode]
        exact ((threadLocal_stands 0 _).2 g8).symm
      · rw [hp.tlsMode] at g9
        rw [hp.unnamedAddr]
        exact ((unnamedAddr_stands 0 _).2 g9).symm
      · rw [hp.unnamedAddr] at g10
        rw [hp.dsoLocal]
        exact ((preemption_stands 0 _).2 g10).symm

theorem says_comdat {version : U64} (hv : 2 ≤ version.toNat) {bytes : List U8} {c : WrittenComdat} {offset : Nat} (h : c.Allowed offset bytes)
    (d : Comdat) :
    ComdatSays version bytes (c.toRecord offset).fields d ↔
      (utf8 d.name = c.name ∧ c.name ≠ []) ∧ reportedKind c.kind = some d.selectionKind := by
  have hs : ∀ n ∈ c.fields offset, n < 2 ^ 64 := by
    intro n hn
    simp only [WrittenComdat.fields, List.mem_cons, List.not_mem_nil, or_false] at hn
    rcases hn with rfl | rfl | rfl
    · exact h.small.1
    · exact h.small.2
    · cases c.kind <;> decide
  have hf : ∀ i, field (c.toRecord offset).fields i = (c.fields offset)[i]?.getD 0 := field_ofNat hs
  have h0 : field (c.toRecord offset).fields 0 = offset := hf 0
  have h1 : field (c.toRecord offset).fields 1 = c.name.length := hf 1
  have h2 : field (c.toRecord offset).fields 2 = llvmSelectionKind c.kind := hf 2
  have kind : (llvmSelectionKind c.kind, d.selectionKind) ∈ selectionKindTable ↔ reportedKind c.kind = some d.selectionKind := by
    cases c.kind <;> cases d.selectionKind <;> decide
  rw [← nameAt_iff h.name, ← kind, ← h2]
  constructor
  · intro g
    exact ⟨by have := g.name; rw [h0, h1] at this; exact this, g.selectionKind⟩
  · rintro ⟨g1, g2⟩
    exact ⟨hv, rfl, by rw [h0, h1]; exact g1, g2⟩

/-- C96, as far as it holds. The record that LLVM writes of a COMDAT maps if and only if its kind is not `samesize` and it has a name in UTF-8. Then the name
is the one that was written, and the kind is another one. -/
theorem C96_comdats_partial (pf : Profile) (ctx : PartialMapCtx) (v : U64) (hver : ctx.version = some v) (hv : 2 ≤ v.toNat)
    (ht : ctx.strtab.bytes.length < 2 ^ 64) (c : WrittenComdat) (offset : Nat) (h : c.Allowed offset ctx.strtab.bytes) :
    ((∃ d, Comdat.tryMap pf (c.toRecord offset) ctx = .ok d) ↔ c.kind ≠ .sameSize ∧ c.name ≠ [] ∧ ∃ s, utf8 s = c.name) ∧
    ∀ d, Comdat.tryMap pf (c.toRecord offset) ctx = .ok d →
      utf8 d.name = c.name ∧ reportedKind c.kind = some d.selectionKind ∧ d.selectionKind ≠ c.kind := by
  have iff (d : Comdat) := (C49_comdat pf (c.toRecord offset) ctx v hver ht d).trans (says_comdat hv h d)
  refine ⟨⟨?_, ?_⟩, fun d hd => ?_⟩
  · rintro ⟨d, hd⟩
    obtain ⟨⟨g1, g2⟩, g3⟩ := (iff d).1 hd
    refine ⟨?_, g2, _, g1⟩
    intro hk
    rw [hk] at g3
    cases g3
  · rintro ⟨hk, hn, s, hs⟩
    obtain ⟨k, hk⟩ : ∃ k, reportedKind c.kind = some k := by
      generalize c.kind = k at hk
      cases k <;> first | exact ⟨_, rfl⟩ | exact absurd rfl hk
    exact ⟨⟨k, s⟩, (iff _).2 ⟨⟨hs, hn⟩, hk⟩⟩
  · obtain ⟨⟨g1, g2⟩, g3⟩ := (iff d).1 hd
    refine ⟨g1, g3, ?_⟩
    intro hk
    rw [← hk] at g3
    generalize d.selectionKind = k at g3
    cases k <;> cases g3

/-- `@x = alias void (), ptr @main` in the module of `exampleCtx`, where `@main` has the number 3; and variants of it. -/
def exAlias (linkage : Linkage) (aliasee : Nat) : WrittenAlias where
  name := utf8 "x".toList
  type := 1
  addressSpace := 0
  aliasee := aliasee
  linkage := linkage
  visibility := .default
  storageClass := .default
  tlsMode := .notThreadLocal
  unnamedAddr := .none
  dsoLocal := false
  partition := (0, 0)

theorem exAlias_allowed {linkage : Linkage}
    (h : linkage ∈ [.external, .internal, .private, .weakAny, .weakOdr, .linkOnceAny, .linkOnceOdr, .availableExternally]) {n : Nat}
    (hn : n < 2 ^ 64) : (exAlias linkage n).Allowed 4 exampleCtx where
  version := by decide
  name := ⟨utf8 "main".toList, [], by show exampleCtx.strtab.bytes = utf8 "main".toList ++ (utf8 "x".toList ++ []); decide +kernel, by decide +kernel⟩
  type := by show 1 < 2; decide
  linkage := h
  small := by
    intro m hm
    simp only [WrittenAlias.fields, exAlias, List.mem_cons, List.not_mem_nil, or_false] at hm
    rcases hm with rfl | rfl | rfl | rfl | rfl | rfl | rfl | rfl | rfl | rfl | rfl | rfl | rfl <;>
      first
        | exact hn
        | decide
        | (cases linkage <;> decide)

/-- C96 is false: an alias of the value with the number 3 is reported as one of the value with the number 0 and with internal linkage; an internal alias is
refused; the kind `any` is reported as `exactmatch`, and `samesize` is refused. -/
theorem C96_refuted (pf : Profile) :
    ((exAlias .external 3).Allowed 4 exampleCtx ∧ ∃ b, Alias.tryMap pf ((exAlias .external 3).toRecord 4) exampleCtx = .ok b ∧
      b.valueIndex = 0 ∧ b.linkage = .internal ∧ ¬ SameAlias exampleCtx (exAlias .external 3) b) ∧
    ((exAlias .internal 3).Allowed 4 exampleCtx ∧ Alias.tryMap pf ((exAlias .internal 3).toRecord 4) exampleCtx = .err (.visibility 3)) ∧
    ∀ ctx : PartialMapCtx, ctx.version = some 2 → ctx.strtab = exampleCtx.strtab →
      Comdat.tryMap pf ((⟨utf8 "main".toList, .any⟩ : WrittenComdat).toRecord 0) ctx = .ok ⟨.exactMatch, "main".toList⟩ ∧
      ∀ d, Comdat.tryMap pf ((⟨utf8 "main".toList, .sameSize⟩ : WrittenComdat).toRecord 0) ctx ≠ .ok d := by
  refine ⟨⟨exAlias_allowed (by decide) (by decide), ?_⟩, ⟨exAlias_allowed (by decide) (by decide), by cases pf <;> decide +kernel⟩, ?_⟩
  · refine ⟨⟨"x".toList, .function (.prim .void) [] false, 0, .internal, .default, .default, .notThreadLocal, .none, .dsoPreemptable⟩,
      by cases pf <;> decide +kernel, rfl, rfl, fun h => ?_⟩
    exact absurd h.linkage (by decide)
  · intro ctx h1 h2
    have ht : ctx.strtab.bytes.length < 2 ^ 64 := by rw [h2]; decide +kernel
    have hal (k : SelectionKind) : (⟨utf8 "main".toList, k⟩ : WrittenComdat).Allowed 0 ctx.strtab.bytes :=
      ⟨⟨[], [120], by rw [h2]; show exampleCtx.strtab.bytes = [] ++ (utf8 "main".toList ++ [120]); decide +kernel, rfl⟩,
        by show 0 < 2 ^ 64 ∧ (utf8 "main".toList).length < 2 ^ 64; decide +kernel⟩
    refine ⟨?_, fun d hd => ?_⟩
    · rw [C49_comdat pf _ ctx 2 h1 ht, says_comdat (by decide) (hal _)]
      exact ⟨⟨rfl, by decide +kernel⟩, rfl⟩
    · exact ((C96_comdats_partial pf ctx 2 h1 (by decide) ht _ 0 (hal .sameSize)).1.1 ⟨d, hd⟩).1 rfl

/-- A plain alias, which maps to what was written: that of the value with the number 0. -/
example (pf : Profile) : (exAlias .external 0).Allowed 4 exampleCtx ∧ (exAlias .external 0).Plain ∧
    ∃ b, Alias.tryMap pf ((exAlias .external 0).toRecord 4) exampleCtx = .ok b ∧ SameAlias exampleCtx (exAlias .external 0) b := by
  have h1 : (exAlias .external 0).Allowed 4 exampleCtx := exAlias_allowed (by decide) (by decide)
  have h2 : (exAlias .external 0).Plain := by
    refine ⟨rfl, fun l h => ?_, rfl, rfl, rfl, rfl, rfl, rfl⟩
    change (0, l) ∈ linkageTable at h
    cases l <;> first | rfl | exact absurd h (by decide)
  obtain ⟨g1, g2⟩ := C96_aliases_partial pf exampleCtx (by decide +kernel) _ 4 h1
  obtain ⟨b, hb⟩ := g1.2 ⟨rfl, by decide +kernel, _, rfl⟩
  exact ⟨h1, h2, b, hb, (g2 b hb).2.2.2 h2⟩

/-! ## Files -/

/-- C96, files. A file does not map if a module in it has the record of an alias that has no name or a linkage that aliases can have other than
`external`, or the record of a COMDAT that has no name or the kind `samesize`. -/
theorem C96_files (pf : Profile) (target : Str) (bytes : List U8) (hlen : bytes.length ≤ 2 ^ 61) {w : Option BitcodeWrapper}
    {b : Bitstream} (hb : Bitstream.from pf bytes = .ok (w, b)) {tops : List (BBlock × Forest)}
    (hd : Delivers pf b (completeEntries tops)) {p : Parts (BBlock × Forest)} {c : BBlock × Forest} {r : BRecord}
    (hp : p ∈ parts tops) (hc : p.module = some c) (hr : r ∈ c.2.records)
    (hu : (r.code = 14 ∧ ∃ a offset, r.fields = (WrittenAlias.toRecord a offset).fields ∧ (∀ n ∈ a.fields offset, n < 2 ^ 64) ∧
        (a.name = [] ∨ a.linkage ∈ [.internal, .private, .weakAny, .weakOdr, .linkOnceAny, .linkOnceOdr, .availableExternally])) ∨
      (r.code = 12 ∧ ∃ d offset, r.fields = (WrittenComdat.toRecord d offset).fields ∧ (∀ n ∈ d.fields offset, n < 2 ^ 64) ∧
        (d.name = [] ∨ d.kind = .sameSize))) (m : Bitcode) : Bitcode.tryFrom pf target bytes ≠ .ok m := by
  intro h
  obtain ⟨w', b', tops', hb', hd', hsay⟩ := (C51_bytes pf target bytes hlen m).1 h
  rw [hb] at hb'; cases hb'
  have := (entries_unique (T := tops) (T' := tops') (P := []) (P' := []) (by rw [delivers_unique hd hd'])).1
  subst this
  obtain ⟨k, hk⟩ := List.mem_iff_getElem?.1 hp
  obtain ⟨hl, he⟩ := hsay.2
  have hlt : k < m.modules.length := by have := (List.getElem?_eq_some_iff.1 hk).1; omega
  obtain ⟨c', ctx, fs, as, hc', hm⟩ := (he k p _ hk (List.getElem?_eq_getElem hlt)).module
  rw [hc] at hc'; cases hc'
  rcases hu with ⟨hcode, a, offset, hrf, hs, hu⟩ | ⟨hcode, d, offset, hrf, hs, hu⟩
  · have hmem : r ∈ withCode c.2.records 14 := by
      rw [withCode, List.mem_filter]
      exact ⟨hr, by rw [hcode]; rfl⟩
    obtain ⟨j, hj⟩ := List.mem_iff_getElem?.1 hmem
    obtain ⟨hl2, he2⟩ := hm.aliases
    have hj2 : j < as.length := by have := (List.getElem?_eq_some_iff.1 hj).1; omega
    have hsays := he2 j r _ hj (List.getElem?_eq_getElem hj2)
    have h1 : field r.fields 1 = a.name.length := by rw [hrf]; exact field_ofNat hs 1
    have h5 : field r.fields 5 = llvmLinkage a.linkage := by rw [hrf]; exact field_ofNat hs 5
    rcases hu with hu | hu
    · have := hsays.name.1
      rw [h1, hu] at this
      exact absurd this (by decide)
    · have hv := hsays.visibility
      rw [h5] at hv
      generalize (as[j]).visibility = v at hv
      generalize a.linkage = l at hv hu
      cases l <;> cases v <;> first | exact absurd hv (by decide) | exact absurd hu (by decide)
  · have hmem : r ∈ withCode c.2.records 12 := by
      rw [withCode, List.mem_filter]
      exact ⟨hr, by rw [hcode]; rfl⟩
    obtain ⟨j, hj⟩ := List.mem_iff_getElem?.1 hmem
    obtain ⟨hl2, he2⟩ := hm.tables.comdats
    have hj2 : j < ctx.comdats.length := by have := (List.getElem?_eq_some_iff.1 hj).1; omega
    have hsays := he2 j r _ hj (List.getElem?_eq_getElem hj2)
    have h1 : field r.fields 1 = d.name.length := by rw [hrf]; exact field_ofNat hs 1
    have h2 : field r.fields 2 = llvmSelectionKind d.kind := by rw [hrf]; exact field_ofNat hs 2
    rcases hu with hu | hu
    · have := hsays.name.1
      rw [h1, hu] at this
      exact absurd this (by decide)
    · have hv := hsays.selectionKind
      rw [h2, hu] at hv
      generalize (ctx.comdats[j]).selectionKind = v at hv
      cases v <;> exact absurd hv (by decide)

/-- A module with one COMDAT and one alias. -/
def aliasModule (d : WrittenComdat) (off : Nat) (a : WrittenAlias) (offset : Nat) : Tree :=
  .record 1 [2] (.record 12 (d.toRecord off).fields (.record 14 (a.toRecord offset).fields
    (.block 17 (recTree voidRecords) (.block 14 .nil .nil))))

/-- A file with this module and a string table. -/
def aliasFile (d : WrittenComdat) (off : Nat) (a : WrittenAlias) (offset : Nat) (text : List U8) : Tree :=
  .block 13 (.record 1 [76, 76] (.record 2 [0] .nil)) (.block 8 (aliasModule d off a offset)
    (.block 23 (.record 1 (text.map (BitVec.setWidth 64)) .nil) .nil))

theorem aliasFile_fine (d : WrittenComdat) (off : Nat) (a : WrittenAlias) (offset : Nat) (text : List U8) :
    (aliasFile d off a offset text).OnlyBlocks ∧ (aliasFile d off a offset text).NoInfo ∧
    (aliasFile d off a offset text).weight = text.length + 65 := by
  refine ⟨by simp [aliasFile, Tree.OnlyBlocks], by simp [aliasFile, aliasModule, Tree.NoInfo, recTree, voidRecords], ?_⟩
  have h1 : (a.toRecord offset).fields.length = 13 := rfl
  have h2 : (d.toRecord off).fields.length = 3 := rfl
  simp only [aliasFile, aliasModule, Tree.weight, List.length_cons, List.length_nil, List.length_map, h1, h2, recTree, voidRecords]
  omega

theorem aliasModule_says {pf : Profile} (target : Str) {text : List U8} {d : WrittenComdat} {off : Nat} {a : WrittenAlias} {offset : Nat}
    {x : Comdat} {y : Alias} (hx : ComdatSays 2 text (d.toRecord off).fields x)
    (hy : AliasSays { functionCtx text with comdats := [x] } (a.toRecord offset).fields y) :
    ModuleSays pf target ⟨text⟩ (aliasModule d off a offset).forest ⟨target, [], []⟩ { functionCtx text with comdats := [x] } [] [y] where
  tables := {
    version := ⟨⟨none, 1, [2]⟩, [], rfl, rfl⟩
    datalayout := .absent
    sections := each_nil_left.2 rfl
    gcs := each_nil_left.2 rfl
    strtab := rfl
    types := ⟨(⟨17, 0⟩, (recTree voidRecords).forest), rfl,
      (C40_exact pf (.mk (.ir .type) voidRecords []) [.prim .void, .function (.prim .void) [] false]).1 (by cases pf <;> decide +kernel)⟩
    symbols := ⟨_, rfl⟩
    groups := .absent
    attributes := .absent
    comdats := by
      show Each _ [(⟨none, 12, (d.toRecord off).fields⟩ : BRecord)] [x]
      exact each_cons.2 ⟨hx, each_nil_left.2 rfl⟩ }
  triple := .absent
  asm := .absent
  deplibs := each_nil_left.2 rfl
  functions := each_nil_left.2 rfl
  noBodies := rfl
  aliases := by
    show Each _ [(⟨none, 14, (a.toRecord offset).fields⟩ : BRecord)] [y]
    exact each_cons.2 ⟨hy, each_nil_left.2 rfl⟩

theorem aliasFile_order (d : WrittenComdat) (off : Nat) (a : WrittenAlias) (offset : Nat) (text : List U8) :
    InOrder (aliasFile d off a offset text).tops := by
  intro pre c post h
  simp only [aliasFile, Tree.tops, Tree.forest, Forest.blocks] at h
  match pre, h with
  | [], h => simp only [List.nil_append, List.cons.injEq] at h; rw [← h.1]; exact .inl (by simp)
  | [a], h =>
    simp only [List.cons_append, List.nil_append, List.cons.injEq] at h
    obtain ⟨rfl, rfl, -⟩ := h
    exact .inr ⟨rfl, [], _, [], rfl, rfl, by simp⟩
  | [a, a'], h =>
    simp only [List.cons_append, List.nil_append, List.cons.injEq] at h
    obtain ⟨rfl, rfl, rfl, -⟩ := h
    exact .inl (by simp)
  | a :: a' :: a'' :: pre, h =>
    simp at h

/-- C96, files: whatever COMDAT and whatever alias of type `void` or `void ()` LLVM allows, the file with one module that has both maps if and only if
both have names in UTF-8, the kind of the COMDAT is not `samesize`, and the linkage of the alias is `external`. -/
theorem C96_files_refuted (pf : Profile) (target : Str) (d : WrittenComdat) (off : Nat) (a : WrittenAlias) (offset : Nat) (text : List U8)
    (h2 : 2 ≤ text.length) (hl : text.length ≤ 2 ^ 29) (hd : d.Allowed off text) (ha : a.Allowed offset (functionCtx text)) :
    ∃ bytes es, streamBytes 0xdec04342 (aliasFile d off a offset text).items = some (bytes, es) ∧
      ((∃ m, Bitcode.tryFrom pf target bytes = .ok m) ↔
        (d.kind ≠ .sameSize ∧ d.name ≠ [] ∧ ∃ s, utf8 s = d.name) ∧ a.linkage = .external ∧ a.name ≠ [] ∧ ∃ s, utf8 s = a.name) := by
  obtain ⟨f1, f2, f3⟩ := aliasFile_fine d off a offset text
  obtain ⟨bytes, es, h1, h4, h3⟩ := C69_writes 0xdec04342 _ f1 f2 (by omega)
  have ht : text.length < 2 ^ 64 := by omega
  have g1 : parts (aliasFile d off a offset text).tops =
      [{ identification := (⟨13, 0⟩, .record ⟨none, 1, [76, 76]⟩ (.record ⟨none, 2, [0]⟩ .nil))
         module := some (⟨8, 0⟩, (aliasModule d off a offset).forest)
         strtab := some (⟨23, 0⟩, .record ⟨none, 1, text.map (BitVec.setWidth 64)⟩ .nil)
         symtab := none }] := rfl
  refine ⟨bytes, es, h1, ?_, ?_⟩
  · rintro ⟨m, hm⟩
    rw [C69_maps pf target h1 (by decide) (by omega), h4] at hm
    obtain ⟨-, he⟩ := hm
    rw [g1] at he
    obtain ⟨x, xs, -, hx, -⟩ := each_cons_left.1 he
    obtain ⟨c, hc, r, ⟨pre, post, hr, hcode, hpre⟩, hb, -⟩ := hx.strtab
    cases hc
    obtain ⟨c, ctx, fs, as, hc, hm⟩ := hx.module
    cases hc
    -- the string table is the text
    have hstr : ctx.strtab.bytes = text := by
      rw [hm.tables.strtab]
      simp only [Forest.records] at hr
      match pre, hr with
      | [], hr =>
        simp only [List.nil_append, List.cons.injEq] at hr
        rw [← hr.1] at hb
        have e1 := (areBytes_iff _ _).2 hb
        have e2 := (areBytes_iff (text.map (BitVec.setWidth 64)) text).2 rfl
        rw [e2] at e1
        exact (Option.some.inj e1).symm
      | _ :: _, hr => simp at hr
    have hds := hm.tables.comdats
    rw [show withCode (aliasModule d off a offset).forest.records 12 = [⟨none, 12, (d.toRecord off).fields⟩] from rfl] at hds
    obtain ⟨u, us, -, hu, -⟩ := each_cons_left.1 hds
    rw [hstr] at hu
    obtain ⟨⟨u1, u2⟩, u3⟩ := (says_comdat hu.version hd u).1 hu
    have has := hm.aliases
    rw [show withCode (aliasModule d off a offset).forest.records 14 = [⟨none, 14, (a.toRecord offset).fields⟩] from rfl] at has
    obtain ⟨v, vs, -, hv, -⟩ := each_cons_left.1 has
    have e0 : field (a.toRecord offset).fields 0 = offset := field_ofNat ha.small 0
    have e1 : field (a.toRecord offset).fields 1 = a.name.length := field_ofNat ha.small 1
    have e5 : field (a.toRecord offset).fields 5 = llvmLinkage a.linkage := field_ofNat ha.small 5
    have hname := hv.name
    simp only [e0, e1, hstr] at hname
    obtain ⟨v1, v2⟩ := (nameAt_iff ha.name _).1 hname
    have hvis := hv.visibility
    simp only [e5] at hvis
    refine ⟨⟨?_, u2, _, u1⟩, ((linkage_read ha).1 hvis).1, v2, _, v1⟩
    intro hk
    rw [hk] at u3
    cases u3
  · rintro ⟨⟨hk, hn, s, hs⟩, hu⟩
    obtain ⟨k, hk⟩ : ∃ k, reportedKind d.kind = some k := by
      generalize d.kind = k at hk
      cases k <;> first | exact ⟨_, rfl⟩ | exact absurd rfl hk
    have hx := (says_comdat (version := 2) (by decide) hd ⟨k, s⟩).2 ⟨⟨hs, hn⟩, hk⟩
    have ha' : a.Allowed offset { functionCtx text with comdats := [⟨k, s⟩] } := ⟨ha.version, ha.name, ha.type, ha.linkage, ha.small⟩
    obtain ⟨y, hy⟩ := (C96_aliases_partial pf { functionCtx text with comdats := [⟨k, s⟩] } ht a offset ha').1.2 hu
    refine ⟨⟨[sharedModule target text]⟩, (C69_maps pf target h1 (by decide) (by omega) _).2 ?_⟩
    rw [h4]
    refine ⟨aliasFile_order _ _ _ _ _, ?_⟩
    rw [g1, each_cons]
    refine ⟨⟨⟨⟨⟨none, 1, [76, 76]⟩, ⟨[], _, rfl, rfl, by simp⟩, rfl, by simp, by simp⟩,
        ⟨⟨none, 2, [0]⟩, [], ⟨[_], [], rfl, rfl, by simp⟩, rfl⟩⟩,
      ⟨_, rfl, ⟨none, 1, text.map (BitVec.setWidth 64)⟩, ⟨[], [], rfl, rfl, by simp⟩, rfl, by simp; omega, fun h0 => ?_⟩,
      ⟨_, _, [], _, rfl, aliasModule_says target hx ((C49_alias pf _ _ ht y).1 hy)⟩,
      .inl ⟨rfl, rfl⟩⟩, each_nil_left.2 rfl⟩
    simp only [List.map_eq_nil_iff] at h0
    rw [h0] at h2
    simp at h2

theorem exAlias_file {linkage : Linkage}
    (h : linkage ∈ [.external, .internal, .private, .weakAny, .weakOdr, .linkOnceAny, .linkOnceOdr, .availableExternally]) :
    (exAlias linkage 3).Allowed 4 (functionCtx (utf8 "mainx".toList)) :=
  let h' := exAlias_allowed (n := 3) h (by decide)
  ⟨by decide, h'.name, by show 1 < 2; decide, h, h'.small⟩

/-- A file with an external alias and a COMDAT of the kind `any` maps; that with an internal alias does not. -/
example (pf : Profile) (target : Str) :
    (∃ bytes es m, streamBytes 0xdec04342 (aliasFile ⟨utf8 "main".toList, .any⟩ 0 (exAlias .external 3) 4 (utf8 "mainx".toList)).items =
      some (bytes, es) ∧ Bitcode.tryFrom pf target bytes = .ok m) ∧
    ∃ bytes es, streamBytes 0xdec04342 (aliasFile ⟨utf8 "main".toList, .any⟩ 0 (exAlias .internal 3) 4 (utf8 "mainx".toList)).items =
      some (bytes, es) ∧ ∀ m, Bitcode.tryFrom pf target bytes ≠ .ok m := by
  have hd : (⟨utf8 "main".toList, .any⟩ : WrittenComdat).Allowed 0 (utf8 "mainx".toList) := ⟨⟨[], [120], by decide +kernel, rfl⟩, by decide +kernel⟩
  refine ⟨?_, ?_⟩
  · obtain ⟨bytes, es, h1, h2⟩ := C96_files_refuted pf target _ 0 _ 4 _ (by decide +kernel) (by decide +kernel) hd
      (exAlias_file (linkage := .external) (by decide))
    obtain ⟨m, hm⟩ := h2.2 ⟨⟨by decide, by decide +kernel, _, rfl⟩, rfl, by decide +kernel, _, rfl⟩
    exact ⟨bytes, es, m, h1, hm⟩
  · obtain ⟨bytes, es, h1, h2⟩ := C96_files_refuted pf target _ 0 _ 4 _ (by decide +kernel) (by decide +kernel) hd
      (exAlias_file (linkage := .internal) (by decide))
    exact ⟨bytes, es, h1, fun m hm => absurd (h2.1 ⟨m, hm⟩).2.1 (by decide)⟩

/-- A file with an internal alias meets the hypotheses of `C96_files`. -/
example : ∃ bytes w b tops p c r, bytes.length ≤ 2 ^ 61 ∧ Bitstream.from .debug bytes = .ok (w, b) ∧
    Delivers .debug b (completeEntries tops) ∧ p ∈ parts tops ∧ p.module = some c ∧ r ∈ c.2.records ∧ r.code = 14 ∧
    ∃ a offset, r.fields = (WrittenAlias.toRecord a offset).fields ∧ (∀ n ∈ a.fields offset, n < 2 ^ 64) ∧
      a.linkage ∈ [.internal, .private, .weakAny, .weakOdr, .linkOnceAny, .linkOnceOdr, .availableExternally] := by
  have key : (streamBytes 0xdec04342 (aliasFile ⟨[97], .any⟩ 0 (exAlias .internal 3) 1 [97, 120]).items).map
      (fun x => (x.1.length, x.2.map Entry.toStream)) = some (92, completeEntries
        [(⟨13, 8⟩, .record ⟨none, 1, [76, 76]⟩ (.record ⟨none, 2, [0]⟩ .nil)),
          (⟨8, 48⟩, .record ⟨none, 1, [2]⟩ (.record ⟨none, 12, [0, 1, 1]⟩ (.record ⟨none, 14, [1, 1, 1, 0, 3, 3, 0, 0, 0, 0, 0, 0, 0]⟩
            (.block ⟨17, 8⟩ (.record ⟨none, 1, [2]⟩ (.record ⟨none, 2, []⟩ (.record ⟨none, 21, [0, 0]⟩ .nil))) (.block ⟨14, 4⟩ .nil .nil))))),
          (⟨23, 8⟩, .record ⟨none, 1, [97, 120]⟩ .nil)]) := by
    decide +kernel
  obtain ⟨⟨bytes, es⟩, h1, h2⟩ := Option.map_eq_some_iff.1 key
  simp only [Prod.mk.injEq] at h2
  obtain ⟨b, hb, -, hd⟩ := Props.C18_stream_roundtrip_from .debug h1 (by decide)
  rw [h2.2] at hd
  exact ⟨bytes, none, b, _, _, _, ⟨none, 14, [1, 1, 1, 0, 3, 3, 0, 0, 0, 0, 0, 0, 0]⟩,
    by rw [h2.1]; decide, hb, hd, List.mem_cons_self, rfl, .tail _ (.tail _ (.head _)), rfl,
    exAlias .internal 3, 1, by decide +kernel, by decide +kernel, by decide⟩

end Verif
