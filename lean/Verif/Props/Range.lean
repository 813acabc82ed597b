import Verif.Mapper.RangeSpec
import Verif.Props.Written

/-!
# C70: what mapping can give

Which values are the result of mapping some bytes: every one that keeps a few rules, and no other.
-/

namespace Verif
open Spec

theorem holds_held {pf : Profile} {r : BRecord} {s : Str} (h : Holds pf r s) : HeldText pf s := by
  obtain ⟨h1, h2, h3⟩ := h
  unfold AreBytes at h1
  refine ⟨fun h => h2 (by rw [h1, List.length_map]; exact h), fun h => h3 ?_⟩
  subst h
  simpa [utf8] using h1

theorem held_holds {pf : Profile} {s : Str} (h : HeldText pf s) (a : Option U64) (code : U64) :
    Holds pf { abbrevId := a, code := code, fields := bytesFields (utf8 s) } s := by
  refine ⟨rfl, by simpa [bytesFields] using h.1, fun h0 => h.2 ?_⟩
  have h0 : utf8 s = [] := by simpa [bytesFields] using h0
  refine Classical.byContradiction fun hs => utf8_ne_nil hs h0

theorem holdsBytes_held {pf : Profile} {r : BRecord} {bs : List U8} (h : HoldsBytes pf r bs) : HeldBytes pf bs := by
  obtain ⟨h1, h2, h3⟩ := h
  unfold AreBytes at h1
  refine ⟨fun h => h2 (by rw [h1, List.length_map]; exact h), fun h => h3 ?_⟩
  subst h
  simpa using h1

theorem held_holdsBytes {pf : Profile} {bs : List U8} (h : HeldBytes pf bs) (a : Option U64) (code : U64) :
    HoldsBytes pf { abbrevId := a, code := code, fields := bytesFields bs } bs :=
  ⟨rfl, by simpa [bytesFields] using h.1, fun h0 => h.2 (by simpa [bytesFields] using h0)⟩

/-! ## No other -/

theorem each_exists {α β : Type} {P : α → β → Prop} {l : List α} {m : List β} (h : Each P l m) {b : β} (hb : b ∈ m) :
    ∃ a ∈ l, P a b := by
  obtain ⟨i, hi, rfl⟩ := List.getElem_of_mem hb
  have hi' : i < l.length := by rw [← h.1]; exact hi
  exact ⟨l[i], List.getElem_mem _, h.2 i _ _ (List.getElem?_eq_getElem hi') (List.getElem?_eq_getElem hi)⟩

theorem partsSay_canBe {pf : Profile} {target : Str} {p : Parts (BBlock × Forest)} {m : BitcodeModule}
    (h : PartsSay pf target p m) : ModuleCanBe pf target m := by
  obtain ⟨⟨⟨r, -, hr⟩, -⟩, ⟨c, -, rs, -, hs⟩, ⟨cm, ctx, fs, as, -, hm⟩, hsym⟩ := h
  refine ⟨holds_held hr, holdsBytes_held hs, fun s hs => ?_, ?_, ?_, fun d hd => ?_⟩
  · rcases hsym with ⟨-, h⟩ | ⟨c, s', -, h, rs, -, hb⟩
    · rw [h] at hs
      cases hs
    · rw [h] at hs
      cases hs
      exact holdsBytes_held hb
  · have := hm.triple
    generalize withCode cm.2.records 2 = l at this
    cases this with
    | absent => exact .inl rfl
    | present h => exact .inr (holds_held h)
  · have := hm.asm
    generalize withCode cm.2.records 4 = l at this
    generalize m.module.asm = ls at this
    cases this with
    | absent => exact .inl rfl
    | present h =>
      obtain ⟨s, h1, -, h2, rfl⟩ := h
      exact .inr ⟨h2, holds_held h1⟩
  · obtain ⟨r, -, h⟩ := each_exists hm.deplibs hd
    exact holds_held h

theorem parts_symtab {pf : Profile} {target : Str} (tops : List (BBlock × Forest)) :
    ∀ {ms : List BitcodeModule}, Each (PartsSay pf target) (parts tops) ms →
      (∀ m ∈ ms, m.symtab ≠ none → ∃ c ∈ tops, c.1.blockId = 25) ∧
      ms.Pairwise fun a b => b.symtab ≠ none → a.symtab ≠ none := by
  induction tops with
  | nil =>
    intro ms h
    rw [parts, each_nil_left] at h
    subst h
    exact ⟨by simp, .nil⟩
  | cons c cs ih =>
    intro ms h
    unfold parts at h
    split at h
    · rw [each_cons_left] at h
      obtain ⟨m, ms', rfl, hm, hms⟩ := h
      obtain ⟨i1, i2⟩ := ih hms
      have hfirst : (m.symtab ≠ none ↔ ∃ d ∈ cs, d.1.blockId = 25) := by
        rcases hm.symtab with ⟨h1, h2⟩ | ⟨d, s, h1, h2, -⟩
        · rw [h2]
          simp only [ne_eq, not_true, false_iff, not_exists, not_and]
          exact fun d hd h => by simpa [h] using List.find?_eq_none.1 h1 d hd
        · rw [h2]
          refine ⟨fun _ => ⟨d, List.mem_of_find?_eq_some h1, by simpa using List.find?_some h1⟩, fun _ => by simp⟩
      refine ⟨fun x hx hs => ?_, List.pairwise_cons.2 ⟨fun x hx hs => hfirst.2 (i1 x hx hs), i2⟩⟩
      rcases List.mem_cons.1 hx with rfl | hx
      · obtain ⟨d, hd, h⟩ := hfirst.1 hs
        exact ⟨d, List.mem_cons_of_mem _ hd, h⟩
      · obtain ⟨d, hd, h⟩ := i1 x hx hs
        exact ⟨d, List.mem_cons_of_mem _ hd, h⟩
    · obtain ⟨i1, i2⟩ := ih h
      refine ⟨fun x hx hs => ?_, i2⟩
      obtain ⟨d, hd, h⟩ := i1 x hx hs
      exact ⟨d, List.mem_cons_of_mem _ hd, h⟩

theorem fileSays_canBe {pf : Profile} {target : Str} {tops : List (BBlock × Forest)} {f : Bitcode}
    (h : FileSays pf target tops f) : FileCanBe pf target f :=
  ⟨fun _ hm => let ⟨_, _, hp⟩ := each_exists h.2 hm; partsSay_canBe hp, (parts_symtab tops h.2).2⟩

/-! ## Every one -/

theorem forest_textRecords (code : U64) (ts : List Str) (rest : Tree) :
    (textRecords code ts rest).forest.records =
        ts.map (fun s => { abbrevId := none, code := code, fields := bytesFields (utf8 s) }) ++ rest.forest.records ∧
      (textRecords code ts rest).forest.blocks = rest.forest.blocks := by
  unfold textRecords
  induction ts with
  | nil => exact ⟨rfl, rfl⟩
  | cons s ts ih => exact ⟨by simpa [Tree.forest, Forest.records] using ih.1, by simpa [Tree.forest, Forest.blocks] using ih.2⟩

theorem moduleTree_records (target : Str) (m : Module) :
    (moduleTree target m).forest.records =
      [{ abbrevId := none, code := 1, fields := [2] }] ++
      ((if m.triple = target then [] else [m.triple]).map
          (fun s => { abbrevId := none, code := 2, fields := bytesFields (utf8 s) }) ++
        ((if m.asm = [] then [] else [['\n'].intercalate m.asm]).map
          (fun s => { abbrevId := none, code := 4, fields := bytesFields (utf8 s) }) ++
          m.deplibs.map fun s => { abbrevId := none, code := 6, fields := bytesFields (utf8 s) })) := by
  unfold moduleTree
  simp only [Tree.forest, Forest.records, (forest_textRecords _ _ _).1, List.append_nil, List.singleton_append]

theorem moduleTree_blocks (target : Str) (m : Module) :
    (moduleTree target m).forest.blocks =
      [({ blockId := 17, len := 0 }, .record { abbrevId := none, code := 1, fields := [0] } .nil),
        ({ blockId := 14, len := 0 }, .nil)] := by
  unfold moduleTree
  simp only [Tree.forest, Forest.blocks, (forest_textRecords _ _ _).2]

theorem filter_codes (ts : List Str) (code : U64) (n : Nat) (fields : Str → List U64) :
    (ts.map fun s => ({ abbrevId := none, code := code, fields := fields s } : BRecord)).filter (fun r => r.code.toNat == n) =
      if code.toNat = n then ts.map fun s => { abbrevId := none, code := code, fields := fields s } else [] := by
  split
  case isTrue h => exact List.filter_eq_self.2 (by simp [h])
  case isFalse h => exact List.filter_eq_nil_iff.2 (by simp [h])

theorem moduleTree_code (target : Str) (m : Module) (n : Nat) :
    withCode (moduleTree target m).forest.records n =
      (if n = 1 then [{ abbrevId := none, code := 1, fields := [2] }] else []) ++
      ((if n = 2 then (if m.triple = target then [] else [m.triple]).map
          (fun s => { abbrevId := none, code := 2, fields := bytesFields (utf8 s) }) else []) ++
        ((if n = 4 then (if m.asm = [] then [] else [['\n'].intercalate m.asm]).map
          (fun s => { abbrevId := none, code := 4, fields := bytesFields (utf8 s) }) else []) ++
          if n = 6 then m.deplibs.map fun s => { abbrevId := none, code := 6, fields := bytesFields (utf8 s) } else [])) := by
  unfold withCode
  rw [moduleTree_records]
  simp only [List.filter_append, filter_codes, eq_comm (b := n)]
  congr 1
  by_cases h : n = 1
  · subst h
    rfl
  · rw [if_neg h]
    exact List.filter_eq_nil_iff.2 (by simp; omega)

/-- The tables of the module in `fileTree`. -/
def plainCtx (strtab : Strtab) : MapCtx where
  version := 2
  datalayout := .default
  sectionTable := []
  gcTable := []
  strtab := strtab
  attributeGroups := []
  attributes := []
  typeTable := []
  comdats := []

theorem each_map_right {α β : Type} {P : β → α → Prop} {f : α → β} {l : List α} (h : ∀ a ∈ l, P (f a) a) : Each P (l.map f) l :=
  ⟨by simp, fun i a b h1 h2 => by
    rw [List.getElem?_map, h2] at h1
    cases h1
    exact h b (List.mem_of_getElem? h2)⟩

theorem moduleTree_says {pf : Profile} {target : Str} {bm : BitcodeModule} (h : ModuleCanBe pf target bm) :
    ModuleSays pf target bm.strtab (moduleTree target bm.module).forest bm.module (plainCtx bm.strtab) [] [] := by
  have nil : ∀ {α β : Type} {P : α → β → Prop}, Each P [] [] := by intros; exact each_nil_left.2 rfl
  refine
    { tables :=
        { version := ⟨_, [], by rw [moduleTree_code]; rfl, rfl⟩
          datalayout := by rw [moduleTree_code]; exact .absent
          sections := by rw [moduleTree_code]; exact nil
          gcs := by rw [moduleTree_code]; exact nil
          strtab := rfl
          types := ⟨_, by unfold Forest.withId; rw [moduleTree_blocks]; rfl, [], ?_, rfl, by simp [plainCtx]⟩
          symbols := ⟨_, by unfold Forest.withId; rw [moduleTree_blocks]; rfl⟩
          groups := by unfold Forest.withId; rw [moduleTree_blocks]; exact .absent
          attributes := by unfold Forest.withId; rw [moduleTree_blocks]; exact .absent
          comdats := by rw [moduleTree_code]; exact nil }
      triple := ?_
      asm := ?_
      deplibs := ?_
      functions := by rw [moduleTree_code]; exact nil
      noBodies := by unfold Forest.withId; rw [moduleTree_blocks]; rfl
      aliases := by rw [moduleTree_code]; exact nil }
  · exact ⟨0, [], ⟨_, [], ⟨[], [], rfl, rfl, by simp⟩, rfl⟩, by decide, .count rfl .nil, rfl⟩
  · rw [moduleTree_code]
    by_cases ht : bm.module.triple = target
    · simpa [ht] using .absent
    · simpa [ht] using .present (held_holds (h.triple.resolve_left ht) none 2)
  · rw [moduleTree_code]
    by_cases ht : bm.module.asm = []
    · simpa [ht] using .absent
    · obtain ⟨h1, h2⟩ := h.asm.resolve_left ht
      simpa [ht] using Optionally.present (P := fun r ls => ∃ s, Holds pf r s ∧ Lines s ls)
        ⟨_, held_holds h2 none 4, ht, h1, rfl⟩
  · rw [moduleTree_code]
    simpa using each_map_right (P := Holds pf) fun d hd => held_holds (h.deplibs d hd) none 6

/-- The blocks of `partsTree`. -/
def partsBlocks (target : Str) (m : BitcodeModule) : List (BBlock × Forest) :=
  [({ blockId := 13, len := 0 }, .record { abbrevId := none, code := 1, fields := bytesFields (utf8 m.identification.producer) } <|
      .record { abbrevId := none, code := 2, fields := [m.identification.epoch] } .nil),
    ({ blockId := 8, len := 0 }, (moduleTree target m.module).forest),
    ({ blockId := 23, len := 0 }, .record { abbrevId := none, code := 1, fields := bytesFields m.strtab.bytes } .nil)] ++
  m.symtab.toList.map fun s =>
    ({ blockId := 25, len := 0 }, .record { abbrevId := none, code := 1, fields := bytesFields s.bytes } .nil)

theorem partsTree_tops (target : Str) (m : BitcodeModule) (rest : Tree) :
    (partsTree target m rest).tops = partsBlocks target m ++ rest.tops := by
  unfold partsTree partsBlocks Tree.tops
  cases m.symtab <;> rfl

theorem inOrder_parts (target : Str) (m : BitcodeModule) {tops : List (BBlock × Forest)} (h : InOrder tops) :
    InOrder (partsBlocks target m ++ tops) := by
  have go : ∀ l : List (BBlock × Forest), InOrder l → ∀ xs : List (BBlock × Forest),
      (∀ pre c post, xs = pre ++ c :: post → c.1.blockId ∈ [13, 23, 25] ∨
        (c.1.blockId = 8 ∧ ∃ a i b, pre = a ++ i :: b ∧ i.1.blockId = 13 ∧ ∀ d ∈ b, d.1.blockId ∈ [23, 25])) →
      InOrder (xs ++ l) := by
    intro l hl xs hxs pre c post he
    rcases List.append_eq_append_iff.1 he with ⟨a, rfl, h2⟩ | ⟨a, h1, h2⟩
    · rcases hl a c post h2 with h | ⟨h3, a', i, b, rfl, h4, h5⟩
      · exact .inl h
      · exact .inr ⟨h3, xs ++ a', i, b, by simp, h4, h5⟩
    · cases a with
      | nil =>
        rcases hl [] c post (by simpa using h2.symm) with h | ⟨h3, a', i, b, h6, h4, h5⟩
        · exact .inl h
        · simp at h6
      | cons d a =>
        simp only [List.cons_append, List.cons.injEq] at h2
        obtain ⟨rfl, -⟩ := h2
        exact hxs pre _ a h1
  refine go tops h _ fun pre c post he => ?_
  unfold partsBlocks at he
  rcases pre with _ | ⟨x0, _ | ⟨x1, _ | ⟨x2, pre⟩⟩⟩
  · simp only [List.cons_append, List.nil_append, List.cons.injEq] at he
    rw [← he.1]
    exact .inl (by simp)
  · simp only [List.cons_append, List.nil_append, List.cons.injEq] at he
    rw [← he.2.1]
    refine .inr ⟨rfl, [], x0, [], rfl, by rw [← he.1], by simp⟩
  · simp only [List.cons_append, List.nil_append, List.cons.injEq] at he
    rw [← he.2.2.1]
    exact .inl (by simp)
  · simp only [List.cons_append, List.nil_append, List.cons.injEq] at he
    have hc : c ∈ pre ++ c :: post := by simp
    rw [← he.2.2.2] at hc
    obtain ⟨s, -, rfl⟩ := List.mem_map.1 hc
    exact .inl (by simp)

theorem partsBlocks_parts (target : Str) (m : BitcodeModule) (tops : List (BBlock × Forest)) :
    ∃ i c s, parts (partsBlocks target m ++ tops) =
      { identification := i, module := some c, strtab := some s,
        symtab := (m.symtab.toList.map (fun s => (({ blockId := 25, len := 0 }, .record { abbrevId := none, code := 1, fields := bytesFields s.bytes } .nil) : BBlock × Forest)) ++ tops).find? fun d => d.1.blockId == 25 } :: parts tops ∧
      i.2.records = [{ abbrevId := none, code := 1, fields := bytesFields (utf8 m.identification.producer) },
        { abbrevId := none, code := 2, fields := [m.identification.epoch] }] ∧
      c.2 = (moduleTree target m.module).forest ∧
      s.2.records = [{ abbrevId := none, code := 1, fields := bytesFields m.strtab.bytes }] := by
  unfold partsBlocks
  cases m.symtab <;> exact ⟨_, _, _, rfl, rfl, rfl, rfl⟩

theorem fileTree_says {pf : Profile} {target : Str} {f : Bitcode} (h : FileCanBe pf target f) :
    FileSays pf target (fileTree target f).tops f := by
  obtain ⟨ms⟩ := f
  obtain ⟨h1, h2⟩ := h
  unfold FileSays fileTree
  dsimp only at h1 h2 ⊢
  suffices InOrder (ms.foldr (partsTree target) .nil).tops ∧
      Each (PartsSay pf target) (parts (ms.foldr (partsTree target) .nil).tops) ms ∧
      ((∃ c ∈ (ms.foldr (partsTree target) .nil).tops, c.1.blockId = 25) → ∃ m ∈ ms, m.symtab ≠ none) from ⟨this.1, this.2.1⟩
  induction ms with
  | nil => exact ⟨fun pre c post h => by simp [Tree.tops, Tree.forest, Forest.blocks] at h, each_nil_left.2 rfl,
      by simp [Tree.tops, Tree.forest, Forest.blocks]⟩
  | cons m ms ih =>
    rw [List.pairwise_cons] at h2
    obtain ⟨i1, i2, i3⟩ := ih (fun x hx => h1 x (List.mem_cons_of_mem _ hx)) h2.2
    have hm := h1 m (by simp)
    rw [List.foldr_cons, partsTree_tops]
    refine ⟨inOrder_parts target m i1, ?_, ?_⟩
    · obtain ⟨i, c, s, hp, hi, hc, hs⟩ := partsBlocks_parts target m (ms.foldr (partsTree target) .nil).tops
      rw [hp, each_cons]
      refine ⟨?_, i2⟩
      refine
        { identification := ⟨⟨_, ⟨[], _, hi, rfl, by simp⟩, held_holds hm.producer none 1⟩,
            ⟨_, [], ⟨[_], [], hi, rfl, by simp⟩, rfl⟩⟩
          strtab := ⟨s, rfl, _, ⟨[], [], hs, rfl, by simp⟩, held_holdsBytes hm.strtab none 1⟩
          module := ⟨c, _, [], [], rfl, by rw [hc]; exact moduleTree_says hm⟩
          symtab := ?_ }
      cases hy : m.symtab with
      | some y =>
        exact .inr ⟨_, y, rfl, rfl, _, ⟨[], [], rfl, rfl, by simp⟩, held_holdsBytes (hm.symtab y hy) none 1⟩
      | none =>
        refine .inl ⟨List.find?_eq_none.2 fun d hd => ?_, rfl⟩
        intro h25
        obtain ⟨x, hx, hne⟩ := i3 ⟨d, by simpa using hd, by simpa using h25⟩
        exact h2.1 x hx hne hy
    · rintro ⟨c, hc, h25⟩
      rcases List.mem_append.1 hc with hc | hc
      · cases hy : m.symtab with
        | some y => exact ⟨m, by simp, by simp [hy]⟩
        | none =>
          unfold partsBlocks at hc
          rw [hy] at hc
          simp at hc
          rcases hc with rfl | rfl | rfl <;> simp at h25
      · obtain ⟨x, hx, hne⟩ := i3 ⟨c, hc, h25⟩
        exact ⟨x, List.mem_cons_of_mem _ hx, hne⟩

theorem textRecords_noInfo (code : U64) (ts : List Str) (rest : Tree) (h : rest.NoInfo) : (textRecords code ts rest).NoInfo := by
  unfold textRecords
  induction ts with
  | nil => exact h
  | cons s ts ih => exact ih

theorem fileTree_fits (target : Str) (f : Bitcode) : (fileTree target f).OnlyBlocks ∧ (fileTree target f).NoInfo := by
  unfold fileTree
  induction f.modules with
  | nil => exact ⟨trivial, trivial⟩
  | cons m ms ih =>
    have hm : (moduleTree target m.module).NoInfo := by
      unfold moduleTree
      simp only [Tree.NoInfo]
      exact ⟨by decide, trivial, by decide, trivial,
        textRecords_noInfo _ _ _ (textRecords_noInfo _ _ _ (textRecords_noInfo _ _ _ trivial))⟩
    rw [List.foldr_cons]
    unfold partsTree
    cases m.symtab with
    | none => exact ⟨ih.1, by decide, trivial, by decide, hm, by decide, trivial, ih.2⟩
    | some s => exact ⟨ih.1, by decide, trivial, by decide, hm, by decide, trivial, by decide, trivial, ih.2⟩

/-- C70. What mapping gives keeps the rules. -/
theorem C70_only (pf : Profile) (target : Str) (bytes : List U8) (hlen : bytes.length ≤ 2 ^ 61) (f : Bitcode)
    (h : Bitcode.tryFrom pf target bytes = .ok f) : FileCanBe pf target f := by
  obtain ⟨w, b, tops, -, -, hs⟩ := (C51_bytes pf target bytes hlen f).1 h
  exact fileSays_canBe hs

/-- C70. Everything that keeps the rules, if it is not too large for the fields with the lengths of blocks, is what mapping some
bytes gives. -/
theorem C70_every (pf : Profile) (target : Str) (f : Bitcode) (h : FileCanBe pf target f)
    (hw : (fileTree target f).weight ≤ 2 ^ 30) :
    ∃ bytes, bytes.length ≤ 4 + 10 * (fileTree target f).weight ∧ Bitcode.tryFrom pf target bytes = .ok f := by
  obtain ⟨ho, hn⟩ := fileTree_fits target f
  obtain ⟨bytes, es, h1, h2, h3⟩ := C69_writes 0xdec04342 (fileTree target f) ho hn hw
  refine ⟨bytes, h3, ?_⟩
  rw [C69_maps pf target h1 (by decide) (by omega), h2]
  exact fileTree_says h

/-! Two modules, the first with a symbol table, with assembly, libraries and names outside ASCII. -/

def exTwo : Bitcode where
  modules :=
    [{ identification := { producer := "LLVM15".toList, epoch := 0 }
       module := { triple := "x86_64-unknown-linux-gnu".toList, asm := ["nop".toList, [], "ret".toList], deplibs := ["m\u00e9".toList] }
       strtab := ⟨[102, 0, 255]⟩
       symtab := some ⟨[1, 2]⟩ },
     { identification := { producer := "\u00e9".toList, epoch := 7 }
       module := { triple := "t".toList, asm := [], deplibs := [] }
       strtab := ⟨[0, 0]⟩
       symtab := none }]

theorem exTwo_canBe (pf : Profile) : FileCanBe pf "t".toList exTwo := by
  refine ⟨?_, .cons ?_ (.cons ?_ .nil)⟩
  · intro m hm
    simp only [exTwo, List.mem_cons, List.not_mem_nil, or_false] at hm
    rcases hm with rfl | rfl
    · refine ⟨⟨by decide +kernel, by simp⟩, ⟨by decide, by simp⟩, ?_, .inr ⟨by decide +kernel, by simp⟩,
        .inr ⟨by decide +kernel, by decide +kernel, fun h => absurd h (by decide +kernel)⟩, ?_⟩
      · rintro s ⟨⟩
        exact ⟨by decide, by simp⟩
      · simp only [List.mem_cons, List.not_mem_nil, or_false]
        rintro d rfl
        exact ⟨by decide +kernel, fun h => absurd h (by decide +kernel)⟩
    · exact ⟨⟨by decide +kernel, by simp⟩, ⟨by decide, by simp⟩, by simp, .inl rfl, .inl rfl, by simp⟩
  · simp
  · simp

example (pf : Profile) : ∃ bytes, Bitcode.tryFrom pf "t".toList bytes = .ok exTwo := by
  obtain ⟨bytes, -, h⟩ := C70_every pf _ exTwo (exTwo_canBe pf) (by decide +kernel)
  exact ⟨bytes, h⟩

/-! The other way round, with the symbol table in the second module only, it is not the result of mapping anything, nor is a
triple of one byte other than the default one. -/

example (pf : Profile) (bytes : List U8) (hlen : bytes.length ≤ 2 ^ 61) :
    Bitcode.tryFrom pf "t".toList bytes ≠ .ok { modules := exTwo.modules.reverse } := by
  intro h
  have := (C70_only pf _ bytes hlen _ h).2
  simp [exTwo] at this

example (pf : Profile) (bytes : List U8) (hlen : bytes.length ≤ 2 ^ 61) (f : Bitcode) (m : BitcodeModule) (hm : m ∈ f.modules)
    (ht : m.module.triple = "x".toList) : Bitcode.tryFrom pf "t".toList bytes ≠ .ok f := by
  intro h
  rcases ((C70_only pf _ bytes hlen _ h).1 m hm).triple with h | h
  · rw [ht] at h
    simp at h
  · rw [ht] at h
    exact h.1 (by decide)

end Verif
