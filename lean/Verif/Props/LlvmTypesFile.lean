import Verif.Props.LlvmTypes
import Verif.Props.MapLogTypes
import Verif.Props.Costs

/-! C90: files with vectors of opaque pointers. -/

namespace Verif
open Spec

theorem pointerVector_invalid {t : Ty} (h : PointerVector t) : ¬ Valid t := by
  obtain ⟨m, a, rfl | rfl⟩ := h <;> intro h
  · cases h with
    | fixedVector _ h6 => rcases h6 with ⟨_, _, h6⟩ | ⟨_, h6⟩ | ⟨_, _, h6⟩ <;> cases h6
  · cases h with
    | scalableVector _ h6 => rcases h6 with ⟨_, _, h6⟩ | ⟨_, h6⟩ | ⟨_, _, h6⟩ <;> cases h6

theorem declares_unique {pf : Profile} {rs : List BRecord} {ds ds' : List TyDecl} (h : Declares pf rs ds) (h' : Declares pf rs ds') :
    ds = ds' := by
  obtain ⟨n, s, -, -, h3, -, rfl⟩ := (declares_iff pf (b := .mk (.ir .type) rs [])).1 h
  obtain ⟨n', s', -, -, h3', -, rfl⟩ := (declares_iff pf (b := .mk (.ir .type) rs [])).1 h'
  rw [h3] at h3'
  cases h3'
  rfl

/-- What a file with such a type says is nothing. -/
theorem says_no_pointerVector {pf : Profile} {target : Str} {tops : List (BBlock × Forest)} {f : Bitcode} (h : FileSays pf target tops f)
    {p : Parts (BBlock × Forest)} {c d : BBlock × Forest} {ds : List TyDecl} {i : Nat} {t : Ty} (hp : p ∈ parts tops)
    (hc : p.module = some c) (hcd : c.2.withId 17 = [d]) (hds : Declares pf d.2.records ds) (ht : Denotes ds i t) :
    ¬ PointerVector t := by
  obtain ⟨k, hk⟩ := List.mem_iff_getElem?.1 hp
  obtain ⟨hl, he⟩ := h.2
  have hlt : k < f.modules.length := by have := (List.getElem?_eq_some_iff.1 hk).1; omega
  obtain ⟨c', ctx, fs, as, hc', hm⟩ := (he k p _ hk (List.getElem?_eq_getElem hlt)).module
  rw [hc] at hc'; cases hc'
  obtain ⟨d', hd', ds', hds', hts, hall⟩ := hm.tables.types
  rw [hcd] at hd'; cases hd'
  have := declares_unique hds hds'
  subst this
  have hi : i < ctx.typeTable.length := by rw [hts]; exact denotes_lt ht
  obtain ⟨h1, h2⟩ := hall i _ (List.getElem?_eq_getElem hi)
  rw [← ht.unique h1] at h2
  exact fun h => pointerVector_invalid h h2

/-- C90, files. A file does not map if a type of a module in it is a vector of opaque pointers. -/
theorem C90_files (pf : Profile) (target : Str) (bytes : List U8) (hlen : bytes.length ≤ 2 ^ 61) {w : Option BitcodeWrapper}
    {b : Bitstream} (hb : Bitstream.from pf bytes = .ok (w, b)) {tops : List (BBlock × Forest)}
    (hd : Delivers pf b (completeEntries tops)) {p : Parts (BBlock × Forest)} {c d : BBlock × Forest} {ds : List TyDecl} {i : Nat} {t : Ty}
    (hp : p ∈ parts tops) (hc : p.module = some c) (hcd : c.2.withId 17 = [d]) (hds : Declares pf d.2.records ds)
    (ht : Denotes ds i t) (hv : PointerVector t) (f : Bitcode) : Bitcode.tryFrom pf target bytes ≠ .ok f := by
  intro h
  obtain ⟨w', b', tops', hb', hd', hs⟩ := (C51_bytes pf target bytes hlen f).1 h
  rw [hb] at hb'; cases hb'
  have := (entries_unique (T := tops) (T' := tops') (P := []) (P' := []) (by rw [delivers_unique hd hd'])).1
  subst this
  exact says_no_pointerVector hs hp hc hcd hds ht hv

/-- The records of a table with two types: with code 25, `ptr addrspace(a)` and `<n x ptr addrspace(a)>`; with code 7, `ia` and `<n x ia>`. -/
def vectorRecords (code a n : U64) : List BRecord := [⟨none, 1, [2]⟩, ⟨none, code, [a]⟩, ⟨none, 12, [n, 0]⟩]

/-- C90, files: there are files all of whose types LLVM allows and that are refused for their types. Whatever the number of elements, the file with one module
whose types are `ptr` and `<n x ptr>` does not map, and the same file with `i8` in the place of `ptr` does. -/
theorem C90_files_refuted (pf : Profile) (target : Str) (n : U64) (hn : n ≠ 0) :
    LlvmValid (.fixedVector n (.opaquePointer ⟨0⟩)) ∧
    (∃ bytes es, streamBytes 0xdec04342 (sharing (vectorRecords 25 0 n) [97, 97] 1).items = some (bytes, es) ∧
      ∀ f, Bitcode.tryFrom pf target bytes ≠ .ok f) ∧
    ∃ bytes es f, streamBytes 0xdec04342 (sharing (vectorRecords 7 8 n) [97, 97] 1).items = some (bytes, es) ∧
      Bitcode.tryFrom pf target bytes = .ok f := by
  have fine : ∀ code a, (sharing (vectorRecords code a n) [97, 97] 1).weight ≤ 2 ^ 10 := fun code a => by
    rw [(sharing_fine _ _ _).2.2, recTree_weight]
    simp [vectorRecords]
  have plain : ∀ code a, ∀ r ∈ vectorRecords code a n, r.abbrevId = none := by simp [vectorRecords]
  refine ⟨.fixedVector (.opaquePointer _) (.inr (.inr (.inr ⟨_, rfl⟩))) hn, ?_, ?_⟩
  · obtain ⟨f1, f2, -⟩ := sharing_fine (vectorRecords 25 0 n) [97, 97] 1
    have f3 := fine 25 0
    obtain ⟨bytes, es, h1, h2, h3⟩ := C69_writes 0xdec04342 _ f1 f2 (by omega)
    refine ⟨bytes, es, h1, fun f h => ?_⟩
    rw [C69_maps pf target h1 (by decide) (by omega), h2] at h
    have h0 : Denotes [.opaquePointer ⟨0⟩, .vector false n 0] 0 (.opaquePointer ⟨0⟩) := .opaquePointer rfl
    refine says_no_pointerVector h (p := _) (c := (⟨8, 0⟩, (typesModule (vectorRecords 25 0 n)).forest))
      (d := (⟨17, 0⟩, (recTree (vectorRecords 25 0 n)).forest)) (ds := [.opaquePointer ⟨0⟩, .vector false n 0]) (.head _) rfl rfl ?_
      (.fixedVector (i := 1) rfl h0) ⟨n, ⟨0⟩, .inl rfl⟩
    exact ⟨2, [], ⟨⟨none, 1, [2]⟩, [], ⟨[], _, rfl, rfl, by simp⟩, rfl⟩, by decide, .count rfl (.single (.says (.opaquePointer (a := 0) rfl rfl
      (by decide))) (.single (.says (.fixedVector (n := n) (e := 0) rfl rfl rfl)) .nil)), rfl⟩
  · obtain ⟨f1, f2, -⟩ := sharing_fine (vectorRecords 7 8 n) [97, 97] 1
    have f3 := fine 7 8
    obtain ⟨bytes, es, h1, h2, h3⟩ := C69_writes 0xdec04342 _ f1 f2 (by omega)
    have ht : TypesSay pf (vectorRecords 7 8 n) [.integer 8, .fixedVector n (.integer 8)] := by
      have h0 : Denotes [.integer 8, .vector false n 0] 0 (.integer 8) := .integer rfl
      have v0 : Valid (.integer 8) := .integer (by decide) (by decide)
      refine ⟨[.integer 8, .vector false n 0], ⟨2, [], ⟨⟨none, 1, [2]⟩, [], ⟨[], _, rfl, rfl, by simp⟩, rfl⟩, by decide,
        .count rfl (.single (.wide (w := 8) rfl rfl) (.single (.says (.fixedVector (n := n) (e := 0) rfl rfl rfl)) .nil)), rfl⟩,
        rfl, ?_⟩
      intro i t hi
      match i, hi with
      | 0, hi => cases hi; exact ⟨h0, v0⟩
      | 1, hi => cases hi; exact ⟨.fixedVector rfl h0, .fixedVector v0 (.inr (.inl ⟨_, rfl⟩))⟩
    refine ⟨bytes, es, ⟨List.replicate 1 (sharedModule target [97, 97])⟩, h1, (C69_maps pf target h1 (by decide) (by omega) _).2 ?_⟩
    rw [h2]
    exact sharing_says target (plain _ _) ht [97, 97] (by decide) 1

/-- The file of `C90_files_refuted` with `<2 x ptr>` meets the hypotheses of `C90_files`. -/
example : ∃ bytes w b tops p c d ds i t, bytes.length ≤ 2 ^ 61 ∧ Bitstream.from .debug bytes = .ok (w, b) ∧
    Delivers .debug b (completeEntries tops) ∧ p ∈ parts tops ∧ p.module = some c ∧ c.2.withId 17 = [d] ∧
    Declares .debug d.2.records ds ∧ Denotes ds i t ∧ PointerVector t := by
  have key : (streamBytes 0xdec04342 (sharing (vectorRecords 25 0 2) [97, 97] 1).items).map
      (fun x => (x.1.length, x.2.map Entry.toStream)) = some (84, completeEntries
        [(⟨13, 8⟩, .record ⟨none, 1, [76, 76]⟩ (.record ⟨none, 2, [0]⟩ .nil)),
          (⟨8, 40⟩, .record ⟨none, 1, [2]⟩ (.block ⟨17, 12⟩
            (.record ⟨none, 1, [2]⟩ (.record ⟨none, 25, [0]⟩ (.record ⟨none, 12, [2, 0]⟩ .nil))) (.block ⟨14, 4⟩ .nil .nil))),
          (⟨23, 8⟩, .record ⟨none, 1, [97, 97]⟩ .nil)]) := by
    decide +kernel
  obtain ⟨⟨bytes, es⟩, h1, h2⟩ := Option.map_eq_some_iff.1 key
  simp only [Prod.mk.injEq] at h2
  obtain ⟨b, hb, -, hd⟩ := Props.C18_stream_roundtrip_from .debug h1 (by decide)
  rw [h2.2] at hd
  exact ⟨bytes, none, b, _, _, _, _, [.opaquePointer ⟨0⟩, .vector false 2 0], 1, .fixedVector 2 (.opaquePointer ⟨0⟩),
    by rw [h2.1]; decide, hb, hd, List.mem_cons_self, rfl, rfl,
    ⟨2, [], ⟨⟨none, 1, [2]⟩, [], ⟨[], _, rfl, rfl, by simp⟩, rfl⟩, by decide, .count rfl (.single (.says (.opaquePointer (a := 0) rfl rfl
      (by decide))) (.single (.says (.fixedVector (n := 2) (e := 0) rfl rfl rfl)) .nil)), rfl⟩,
    .fixedVector (e := 0) rfl (.opaquePointer rfl), 2, ⟨0⟩, .inl rfl⟩

end Verif
