import Verif.Props.LlvmModules

/-! C97: the types that are left out there. -/

namespace Verif
open Spec

/-- Records of types that LLVM writes and that stand for no list of types as C97 has them: a structure has a name of one byte, or a named structure comes
directly after another structure, or a type refers to itself. -/
def LeftOut (rs : List BRecord) : Prop :=
  (∃ r ∈ rs, r.code = 19 ∧ r.fields.length = 1) ∨
  ∃ ds n r rest, FirstWith 1 rs r ∧ r.fields = n :: rest ∧ n.toNat < 2 ^ 57 ∧ Lists [] rs ds ∧ ds.length = n.toNat ∧ (¬ Regular ds ∨ ¬ Acyclic ds)

theorem leftOut_says {pf : Profile} {rs : List BRecord} (h : LeftOut rs) (ts : List Ty) : ¬ TypesSay pf rs ts := by
  intro hs
  have hs := (C40_exact pf (UBlock.mk (.ir .type) rs []) ts).2 hs
  rcases h with ⟨r, h1, h2, h3⟩ | ⟨ds, n, r, rest, h1, h2, h3, h4, h5, h6⟩
  · exact C42_short_name_rejected pf (UBlock.mk (.ir .type) rs []) r h1 h2 h3 ts hs
  · by_cases hr : Regular ds
    · rcases h6 with h6 | h6
      · exact h6 hr
      · exact C41_recursive_never_maps pf (UBlock.mk (.ir .type) rs []) n ds ⟨r, rest, h1, h2⟩ h3 h4 hr h6 ts hs
    · obtain ⟨e, he⟩ := C42_adjacent_rejected pf (UBlock.mk (.ir .type) rs []) n ds ⟨r, rest, h1, h2⟩ h3 h4 h5 hr
      rw [he] at hs
      cases hs

theorem leftOut_file {pf : Profile} {target : Str} {tops : List (BBlock × Forest)} {p : Parts (BBlock × Forest)} {c d : BBlock × Forest}
    (hp : p ∈ parts tops) (hc : p.module = some c) (hcd : c.2.withId 17 = [d]) (ht : LeftOut d.2.records) (f : Bitcode) :
    ¬ FileSays pf target tops f := by
  intro h
  obtain ⟨k, hk⟩ := List.mem_iff_getElem?.1 hp
  obtain ⟨hl, he⟩ := h.2
  have hlt : k < f.modules.length := by have := (List.getElem?_eq_some_iff.1 hk).1; omega
  obtain ⟨c', ctx, fs, as, hc', hm⟩ := (he k p _ hk (List.getElem?_eq_getElem hlt)).module
  rw [hc] at hc'; cases hc'
  obtain ⟨d', hd', hts⟩ := hm.tables.types
  rw [hcd] at hd'; cases hd'
  exact leftOut_says ht _ hts

/-- C97, the types that are left out there: a file with a module that has such types does not map, whatever else is in it. -/
theorem C97_types (pf : Profile) (target : Str) (bytes : List U8) (hlen : bytes.length ≤ 2 ^ 61) {w : Option BitcodeWrapper}
    {b : Bitstream} (hb : Bitstream.from pf bytes = .ok (w, b)) {tops : List (BBlock × Forest)}
    (hd : Delivers pf b (completeEntries tops)) {p : Parts (BBlock × Forest)} {c d : BBlock × Forest} (hp : p ∈ parts tops)
    (hc : p.module = some c) (hcd : c.2.withId 17 = [d]) (ht : LeftOut d.2.records) (f : Bitcode) : Bitcode.tryFrom pf target bytes ≠ .ok f := by
  intro h
  obtain ⟨w', b', tops', hb', hd', hs⟩ := (C51_bytes pf target bytes hlen f).1 h
  rw [hb] at hb'; cases hb'
  have := (entries_unique (T := tops) (T' := tops') (P := []) (P' := []) (by rw [delivers_unique hd hd'])).1
  subst this
  exact leftOut_file hp hc hcd ht f hs

/-- The linked list is left out, and so are two named structures in a row and a structure with the name `a`. -/
theorem leftOut_cases : LeftOut linkedList.records ∧
    LeftOut [⟨none, 1, [2]⟩, ⟨none, 19, [97, 97]⟩, ⟨none, 20, [0]⟩, ⟨none, 19, [98, 98]⟩, ⟨none, 20, [0]⟩] ∧
    LeftOut [⟨none, 1, [1]⟩, ⟨none, 19, [97]⟩, ⟨none, 20, [0]⟩] := by
  refine ⟨.inr ⟨[.integer 32, .struct (some ['n', 'o', 'd', 'e']) [0, 2] false, .pointer 1 ⟨0⟩], 3, ⟨none, 1, [3]⟩, [], ⟨[], _, rfl, rfl, by simp⟩, rfl,
      by decide, ?_, rfl, .inr ?_⟩,
    .inr ⟨[.struct (some ['a', 'a']) [] false, .struct (some ['b', 'b']) [] false], 2, ⟨none, 1, [2]⟩, [], ⟨[], _, rfl, rfl, by simp⟩, rfl, by decide, ?_,
      rfl, .inl ?_⟩,
    .inl ⟨_, .tail _ (.head _), rfl, rfl⟩⟩
  · refine .numEntry rfl (.single (.integer (w := 32) rfl rfl (by decide)) ?_)
    refine .name (s := ['n', 'o', 'd', 'e']) rfl (by decide +kernel) (by decide) ?_
    refine .named (r := ⟨none, 20, [0, 0, 2]⟩) (p := 0) (fs := [0, 2]) rfl rfl ?_
    exact .single (.pointer (p := 1) (a := 0) rfl rfl (by decide)) .nil
  · rintro ⟨rank, h⟩
    have h1 := h 1 _ rfl 2 (by simp [TyDecl.refs])
    have h2 := h 2 _ rfl 1 (by simp [TyDecl.refs])
    omega
  · refine .numEntry rfl (.name (s := ['a', 'a']) rfl (by decide +kernel) (by decide) ?_)
    refine .named (r := ⟨none, 20, [0]⟩) (p := 0) (fs := []) rfl rfl ?_
    refine .name (s := ['b', 'b']) rfl (by decide +kernel) (by decide) ?_
    exact .named (r := ⟨none, 20, [0]⟩) (p := 0) (fs := []) rfl rfl .nil
  · intro h
    exact h [] _ _ [] rfl ⟨_, _, _, rfl⟩ ⟨_, _, _, rfl⟩

/-- The contents of a file with a module that has the linked list. -/
def exListTree : Tree :=
  .block 13 (.record 1 (textFields (utf8 "LLVM".toList)) (.record 2 [0] .nil))
  (.block 8 (.block 17 (.record 1 [3] (.record 7 [32] (.record 19 [0x6e, 0x6f, 0x64, 0x65] (.record 20 [0, 0, 2] (.record 8 [1, 0] .nil))))) .nil)
  (.block 23 (.record 1 (textFields (utf8 "mainx".toList)) .nil) .nil))

/-- Its table of types. -/
def exListTypes : Forest :=
  .record ⟨none, 1, [3]⟩ (.record ⟨none, 7, [32]⟩ (.record ⟨none, 19, [0x6e, 0x6f, 0x64, 0x65]⟩ (.record ⟨none, 20, [0, 0, 2]⟩
    (.record ⟨none, 8, [1, 0]⟩ .nil))))

/-- Its blocks. -/
def exListTops : List (BBlock × Forest) :=
  [(⟨13, 12⟩, .record ⟨none, 1, textFields (utf8 "LLVM".toList)⟩ (.record ⟨none, 2, [0]⟩ .nil)), (⟨8, 36⟩, .block ⟨17, 24⟩ exListTypes .nil),
   (⟨23, 12⟩, .record ⟨none, 1, textFields (utf8 "mainx".toList)⟩ .nil)]

/-- The file meets the hypotheses of `C97_types`. -/
example : ∃ bytes w b tops p c d, bytes.length ≤ 2 ^ 61 ∧ Bitstream.from .debug bytes = .ok (w, b) ∧ Delivers .debug b (completeEntries tops) ∧
    p ∈ parts tops ∧ p.module = some c ∧ c.2.withId 17 = [d] ∧ LeftOut d.2.records := by
  have key : (streamBytes 0xdec04342 exListTree.items).map (fun x => (x.1.length, x.2.map Entry.toStream)) =
      some (88, completeEntries exListTops) := by
    decide +kernel
  obtain ⟨⟨bytes, es⟩, h1, h2⟩ := Option.map_eq_some_iff.1 key
  simp only [Prod.mk.injEq] at h2
  obtain ⟨b, hb, -, hd⟩ := Props.C18_stream_roundtrip_from .debug h1 (by decide)
  rw [h2.2] at hd
  exact ⟨bytes, none, b, exListTops, _, (⟨8, 36⟩, .block ⟨17, 24⟩ exListTypes .nil), (⟨17, 24⟩, exListTypes), by omega, hb, hd, .head _, rfl, rfl,
    leftOut_cases.1⟩

end Verif
