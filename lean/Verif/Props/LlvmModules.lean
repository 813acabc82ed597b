import Verif.Mapper.LlvmModulesSpec
import Verif.Props.LlvmModuleCase

/-! C98: files with several modules, as LLVM writes them. -/

namespace Verif
open Spec

theorem moduleBlocks_inOrder {Ps : List ProducedModule} {front back : List (BBlock × Forest)} (h : ModuleBlocks Ps front)
    (hb : ∀ d ∈ back, d.1.blockId ∈ [(23 : U64), 25]) : InOrder (front ++ back) := by
  induction h with
  | nil =>
    intro pre c post e
    have := hb c (by rw [show back = pre ++ c :: post from e]; simp)
    exact .inl (.tail _ this)
  | @cons P Ps i c tops h1 h2 h3 h4 ih =>
    intro pre d post e
    match pre, e with
    | [], e => rw [← (List.cons.inj e).1, h1.1]; exact .inl (by simp)
    | [a], e =>
      simp only [List.cons_append, List.nil_append, List.cons.injEq] at e
      obtain ⟨rfl, rfl, -⟩ := e
      exact .inr ⟨h2, [], _, [], rfl, h1.1, by simp⟩
    | a :: a' :: pre, e =>
      simp only [List.cons_append, List.cons.injEq] at e
      rcases ih pre d post e.2.2 with h | ⟨g1, u, j, v, g2, g3, g4⟩
      · exact .inl h
      · exact .inr ⟨g1, a :: a' :: u, j, v, by rw [g2]; rfl, g3, g4⟩

theorem moduleBlocks_find {Ps : List ProducedModule} {front back : List (BBlock × Forest)} (h : ModuleBlocks Ps front) {id : U64}
    (hid : id ∈ [(23 : U64), 25]) : (front ++ back).find? (fun d => d.1.blockId == id) = back.find? fun d => d.1.blockId == id := by
  have h13 : ((13 : U64) == id) = false := by
    rcases List.mem_cons.1 hid with rfl | hid
    · decide
    · rw [List.mem_singleton.1 hid]; decide
  have h8 : ((8 : U64) == id) = false := by
    rcases List.mem_cons.1 hid with rfl | hid
    · decide
    · rw [List.mem_singleton.1 hid]; decide
  induction h with
  | nil => rfl
  | cons h1 h2 h3 h4 ih =>
    rw [List.cons_append, List.cons_append, List.find?_cons, h1.1, h13]
    show List.find? _ (_ :: _) = _
    rw [List.find?_cons, h2, h8]
    exact ih

/-- How the blocks of the file are grouped. -/
theorem moduleBlocks_parts {Ps : List ProducedModule} {front back : List (BBlock × Forest)} (h : ModuleBlocks Ps front)
    (hb : ∀ d ∈ back, d.1.blockId ∈ [(23 : U64), 25]) :
    Each (fun P p => ∃ i c, p = ⟨i, some c, back.find? (fun d => d.1.blockId == 23), back.find? fun d => d.1.blockId == 25⟩ ∧
      IsIdentification i P.producer P.epoch ∧ P.module.WrittenAs c.2) Ps (parts (front ++ back)) := by
  induction h with
  | nil =>
    rw [each_nil_left, List.nil_append]
    induction back with
    | nil => rfl
    | cons d back ih =>
      have hd := hb d List.mem_cons_self
      have : ¬ d.1.blockId = 13 := by
        intro e; rw [e] at hd; exact absurd hd (by decide)
      rw [parts, if_neg this]
      exact ih fun d hd => hb d (.tail _ hd)
  | @cons P Ps i c tops h1 h2 h3 h4 ih =>
    rw [List.cons_append, List.cons_append, parts, if_pos h1.1]
    have hc : ¬ c.1.blockId = 13 := by rw [h2]; decide
    rw [show parts (c :: (tops ++ back)) = parts (tops ++ back) by rw [parts, if_neg hc]]
    refine each_cons.2 ⟨⟨i, c, ?_, h1, h3⟩, ih⟩
    have find (id : U64) (hid : id ∈ [(23 : U64), 25]) (h8 : ((8 : U64) == id) = false) :
        (c :: (tops ++ back)).find? (fun d => d.1.blockId == id) = back.find? fun d => d.1.blockId == id := by
      rw [List.find?_cons, h2, h8]
      exact moduleBlocks_find h4 hid
    rw [find 23 (by decide) (by decide), find 25 (by decide) (by decide)]
    have : ((c :: (tops ++ back)).takeWhile fun d => d.1.blockId != 13).find? (fun d => d.1.blockId == 8) = some c := by
      rw [List.takeWhile_cons_of_pos (by rw [h2]; decide), List.find?_cons, h2]
      rfl
    rw [this]

/-- What one of the modules says. -/
theorem part_read (pf : Profile) (target : Str) {P : ProducedModule} {i c s : BBlock × Forest} {y : Option (BBlock × Forest)} {text : List U8}
    {symbols : Option (List U8)} (hM : P.module.Allowed text) (hp : 2 ≤ (utf8 P.producer).length) (h1 : IsIdentification i P.producer P.epoch)
    (h2 : P.module.WrittenAs c.2) (h3 : IsBytes s 23 text)
    (h4 : (y = none ∧ symbols = none) ∨ ∃ b bytes, y = some b ∧ symbols = some bytes ∧ IsBytes b 25 bytes) :
    ((∃ m, PartsSay pf target ⟨i, some c, some s, y⟩ m) ↔
      P.module.Readable ∧ ReadableBytes pf text ∧ ∀ bytes, symbols = some bytes → ReadableBytes pf bytes) ∧
    ∀ m, PartsSay pf target ⟨i, some c, some s, y⟩ m → P.ReportedAs target text symbols m := by
  obtain ⟨k1, k2⟩ := module_read pf target hM h2
  have sym (o : Option Symtab) : ((y = none ∧ o = none) ∨ ∃ c s, y = some c ∧ o = some s ∧ TableSays pf c.2.records s.bytes) ↔
      o.map (·.bytes) = symbols ∧ ∀ bytes, symbols = some bytes → ReadableBytes pf bytes := by
    rcases h4 with ⟨rfl, rfl⟩ | ⟨b, bytes, rfl, rfl, hb⟩
    · constructor
      · rintro (⟨-, rfl⟩ | ⟨_, _, h, -⟩)
        · exact ⟨rfl, fun _ h => by cases h⟩
        · cases h
      · rintro ⟨h, -⟩
        exact .inl ⟨rfl, by simpa using h⟩
    · constructor
      · rintro (⟨h, -⟩ | ⟨_, t, h, rfl, ht⟩)
        · cases h
        · cases h
          obtain ⟨g1, g2⟩ := (bytes_say hb _).1 ht
          exact ⟨by rw [← g1]; rfl, fun _ h => by cases h; exact g2⟩
      · rintro ⟨h, hr⟩
        cases o with
        | none => cases h
        | some t =>
          refine .inr ⟨b, t, rfl, rfl, (bytes_say hb _).2 ⟨?_, hr _ rfl⟩⟩
          simpa using h
  constructor
  · constructor
    · rintro ⟨m, hm⟩
      obtain ⟨s', e1, e2⟩ := hm.strtab
      cases e1
      obtain ⟨e3, e4⟩ := (bytes_say h3 _).1 e2
      obtain ⟨c', ctx, fs, as, e5, e6⟩ := hm.module
      cases e5
      rw [show m.strtab = ⟨text⟩ by rw [← e3]] at e6
      exact ⟨k1.1 ⟨_, _, _, _, e6⟩, e4, ((sym _).1 hm.symtab).2⟩
    · rintro ⟨hr, ht, hs⟩
      obtain ⟨m, ctx, fs, as, hm⟩ := k1.2 hr
      refine ⟨{ identification := ⟨P.producer, P.epoch⟩, module := m, strtab := ⟨text⟩, symtab := symbols.map .mk },
        (producer_says h1 hp _).2 ⟨rfl, rfl⟩, ⟨s, rfl, (bytes_say h3 _).2 ⟨rfl, ht⟩⟩, ⟨c, ctx, fs, as, rfl, hm⟩, (sym _).2 ⟨?_, hs⟩⟩
      cases symbols <;> rfl
  · intro m hm
    obtain ⟨s', e1, e2⟩ := hm.strtab
    cases e1
    obtain ⟨e3, e4⟩ := (bytes_say h3 _).1 e2
    obtain ⟨c', ctx, fs, as, e5, e6⟩ := hm.module
    cases e5
    rw [show m.strtab = ⟨text⟩ by rw [← e3]] at e6
    obtain ⟨g1, g2⟩ := (producer_says h1 hp _).1 hm.identification
    exact ⟨by rw [← g1, ← g2], e3, ((sym _).1 hm.symtab).1, k2 _ _ _ _ e6⟩

theorem each_of_each {α β γ : Type} {P : α → β → Prop} {Q : β → γ → Prop} {R : α → γ → Prop} {l : List α} {m : List β} {n : List γ}
    (h1 : Each P l m) (h2 : Each Q m n) (h : ∀ a b c, P a b → Q b c → R a c) : Each R l n := by
  refine ⟨by rw [h2.1, h1.1], fun i a c ha hc => ?_⟩
  have hi : i < m.length := by
    rw [← h2.1]
    exact (List.getElem?_eq_some_iff.1 hc).1
  exact h a m[i] c (h1.2 i a _ ha (List.getElem?_eq_getElem hi)) (h2.2 i _ c (List.getElem?_eq_getElem hi) hc)

theorem each_all {α β : Type} {P : α → β → Prop} {l : List α} {m : List β} (h1 : Each P l m) {A : α → Prop} {B : β → Prop}
    (h : ∀ a b, P a b → (A a ↔ B b)) : (∀ a ∈ l, A a) ↔ ∀ b ∈ m, B b := by
  induction l generalizing m with
  | nil => rw [each_nil_left.1 h1]; simp
  | cons a l ih =>
    obtain ⟨b, m', rfl, h2, h3⟩ := each_cons_left.1 h1
    rw [List.forall_mem_cons, List.forall_mem_cons, h a b h2, ih h3]

/-- What the file says. -/
theorem files_read (pf : Profile) (target : Str) {Ps : List ProducedModule} {front back : List (BBlock × Forest)} {text : List U8}
    {symbols : Option (List U8)} (hM : ∀ P ∈ Ps, P.module.Allowed text ∧ 2 ≤ (utf8 P.producer).length) (hF : ModuleBlocks Ps front)
    (hT : TableBlocks text symbols back) :
    ((∃ f, FileSays pf target (front ++ back) f) ↔
      ∀ P ∈ Ps, P.module.Readable ∧ ReadableBytes pf text ∧ ∀ bytes, symbols = some bytes → ReadableBytes pf bytes) ∧
    ∀ f, FileSays pf target (front ++ back) f → Each (fun P m => P.ReportedAs target text symbols m) Ps f.modules := by
  obtain ⟨s, y, hb, hs, hy, h3, h4⟩ : ∃ s y, (∀ d ∈ back, d.1.blockId ∈ [(23 : U64), 25]) ∧
      back.find? (fun d => d.1.blockId == 23) = some s ∧ back.find? (fun d => d.1.blockId == 25) = y ∧ IsBytes s 23 text ∧
      ((y = none ∧ symbols = none) ∨ ∃ b bytes, y = some b ∧ symbols = some bytes ∧ IsBytes b 25 bytes) := by
    cases hT with
    | @plain s hs => exact ⟨s, none, by simp [hs.1], by simp [hs.1], by simp [hs.1], hs, .inl ⟨rfl, rfl⟩⟩
    | @withSymbols y s bytes hy hs =>
      exact ⟨s, some y, by simp [hs.1, hy.1], by simp [hs.1, hy.1], by simp [hy.1], hs, .inr ⟨y, bytes, rfl, rfl, hy⟩⟩
  have hparts := moduleBlocks_parts hF hb
  rw [hs, hy] at hparts
  have ho := moduleBlocks_inOrder hF hb
  have hall : Each (fun P p => ((∃ m, PartsSay pf target p m) ↔
        P.module.Readable ∧ ReadableBytes pf text ∧ ∀ bytes, symbols = some bytes → ReadableBytes pf bytes) ∧
      ∀ m, PartsSay pf target p m → P.ReportedAs target text symbols m) Ps (parts (front ++ back)) := by
    refine ⟨hparts.1, fun k P p hk hp => ?_⟩
    obtain ⟨i, c, rfl, g1, g2⟩ := hparts.2 k P p hk hp
    obtain ⟨q1, q2⟩ := hM P (List.mem_of_getElem? hk)
    exact part_read pf target q1 q2 g1 g2 h3 h4
  constructor
  · rw [each_all hall fun P p h => h.1.symm, ← each_some]
    constructor
    · rintro ⟨f, -, hf⟩
      exact ⟨_, hf⟩
    · rintro ⟨ms, hms⟩
      exact ⟨⟨ms⟩, ho, hms⟩
  · rintro f ⟨-, hf⟩
    exact each_of_each hall hf fun P p m h hm => h.2 m hm

/-- C98, as far as it holds. A file with modules that LLVM allows, as LLVM writes them, maps if and only if all of them are `Readable`, and the string table
and the symbol table do not have just one byte, nor none in a debug build; without a module, the tables do not matter. Then the result has these modules,
in order, each with its identification, its triple and its assembly, and with the tables of the file. Missing: the modules that are not
`Readable`, see `C97_refuted`. -/
theorem C98_files_partial (pf : Profile) (target : Str) (bytes : List U8) (hlen : bytes.length ≤ 2 ^ 61) {w : Option BitcodeWrapper}
    {b : Bitstream} (hb : Bitstream.from pf bytes = .ok (w, b)) {front back : List (BBlock × Forest)}
    (hd : Delivers pf b (completeEntries (front ++ back))) {Ps : List ProducedModule} {text : List U8} {symbols : Option (List U8)}
    (hM : ∀ P ∈ Ps, P.module.Allowed text ∧ 2 ≤ (utf8 P.producer).length) (hF : ModuleBlocks Ps front) (hT : TableBlocks text symbols back) :
    ((∃ f, Bitcode.tryFrom pf target bytes = .ok f) ↔
      ∀ P ∈ Ps, P.module.Readable ∧ ReadableBytes pf text ∧ ∀ bs, symbols = some bs → ReadableBytes pf bs) ∧
    ∀ f, Bitcode.tryFrom pf target bytes = .ok f → Each (fun P m => P.ReportedAs target text symbols m) Ps f.modules := by
  have iff (f : Bitcode) : Bitcode.tryFrom pf target bytes = .ok f ↔ FileSays pf target (front ++ back) f := by
    rw [C51_bytes pf target bytes hlen f]
    constructor
    · rintro ⟨w', b', tops', hb', hd', he⟩
      rw [hb] at hb'; cases hb'
      have := (entries_unique (T := front ++ back) (T' := tops') (P := []) (P' := []) (by rw [delivers_unique hd hd'])).1
      rw [this]
      exact he
    · intro he
      exact ⟨w, b, _, hb, hd, he⟩
  simp only [iff]
  exact files_read pf target hM hF hT

/-- C98 for files that are written: the contents decide, however they are encoded. -/
theorem C98_written_partial (pf : Profile) (target : Str) {magic : U32} {its : Items} {bytes : List U8} {es : List Entry}
    (h : streamBytes magic its = some (bytes, es)) (hm : magic ≠ 0x0B17C0DE) (hlen : bytes.length ≤ 2 ^ 61)
    {front back : List (BBlock × Forest)} (ht : (its.tree false).tops = front ++ back) {Ps : List ProducedModule} {text : List U8}
    {symbols : Option (List U8)} (hM : ∀ P ∈ Ps, P.module.Allowed text ∧ 2 ≤ (utf8 P.producer).length) (hF : ModuleBlocks Ps front)
    (hT : TableBlocks text symbols back) :
    ((∃ f, Bitcode.tryFrom pf target bytes = .ok f) ↔
      ∀ P ∈ Ps, P.module.Readable ∧ ReadableBytes pf text ∧ ∀ bs, symbols = some bs → ReadableBytes pf bs) ∧
    ∀ f, Bitcode.tryFrom pf target bytes = .ok f → Each (fun P m => P.ReportedAs target text symbols m) Ps f.modules := by
  simp only [C69_maps pf target h hm hlen, ht]
  exact files_read pf target hM hF hT

/-! ## Two modules in a file -/

/-- The contents of a file with two modules that share their tables. The first one declares `main`, the second declares or defines it. -/
def exTwoTree (declared : Bool) : Tree :=
  .block 13 (.record 1 (textFields (utf8 "LLVM".toList)) (.record 2 [0] .nil))
  (.block 8 (exLlvmBody true)
  (.block 13 (.record 1 (textFields (utf8 "rustc".toList)) (.record 2 [1] .nil))
  (.block 8 (exLlvmBody declared)
  (.block 25 (.record 1 (textFields [1, 2, 3]) .nil)
  (.block 23 (.record 1 (textFields (utf8 "mainx".toList)) .nil) .nil)))))

def exTwoModules (declared : Bool) : List ProducedModule :=
  [⟨"LLVM".toList, 0, exLlvmModule true⟩, ⟨"rustc".toList, 1, exLlvmModule declared⟩]

/-- The file meets the hypotheses of `C98_written_partial`. -/
theorem exTwoModules_written (declared : Bool) : ∃ bytes es front back, streamBytes 0xdec04342 (exTwoTree declared).items = some (bytes, es) ∧
    bytes.length ≤ 2 ^ 61 ∧ ((exTwoTree declared).items.tree false).tops = front ++ back ∧
    (∀ P ∈ exTwoModules declared, P.module.Allowed (utf8 "mainx".toList) ∧ 2 ≤ (utf8 P.producer).length) ∧
    ModuleBlocks (exTwoModules declared) front ∧ TableBlocks (utf8 "mainx".toList) (some [1, 2, 3]) back := by
  have hw : (exTwoTree declared).weight ≤ 1000 := by cases declared <;> decide +kernel
  have hn : (exTwoTree declared).NoInfo := by
    cases declared <;> simp [exTwoTree, exLlvmBody, Tree.NoInfo]
  obtain ⟨bytes, es, h1, h2, h3⟩ := C69_writes 0xdec04342 (exTwoTree declared) (by simp [exTwoTree, Tree.OnlyBlocks]) hn (by omega)
  have hF : ModuleBlocks (exTwoModules declared)
      [(⟨13, 0⟩, (Tree.record 1 (textFields (utf8 "LLVM".toList)) (.record 2 [0] .nil)).forest), (⟨8, 0⟩, (exLlvmBody true).forest),
       (⟨13, 0⟩, (Tree.record 1 (textFields (utf8 "rustc".toList)) (.record 2 [1] .nil)).forest), (⟨8, 0⟩, (exLlvmBody declared).forest)] :=
    .cons ⟨rfl, rfl⟩ rfl (exLlvmModule_body true) (.cons ⟨rfl, rfl⟩ rfl (exLlvmModule_body declared) .nil)
  refine ⟨bytes, es, _, [(⟨25, 0⟩, _), (⟨23, 0⟩, _)], h1, by omega, by rw [h2]; rfl, ?_, hF, .withSymbols ⟨rfl, rfl⟩ ⟨rfl, rfl⟩⟩
  intro P hP
  simp only [exTwoModules, List.mem_cons, List.not_mem_nil, or_false] at hP
  rcases hP with rfl | rfl
  · exact ⟨exLlvmModule_allowed true, by decide +kernel⟩
  · exact ⟨exLlvmModule_allowed declared, by show 2 ≤ (utf8 "rustc".toList).length; decide +kernel⟩

/-- With the function declared in both modules the file maps, and there are two modules in the result. -/
example (pf : Profile) (target : Str) : ∃ bytes es f, streamBytes 0xdec04342 (exTwoTree true).items = some (bytes, es) ∧
    Bitcode.tryFrom pf target bytes = .ok f ∧
    Each (fun P m => P.ReportedAs target (utf8 "mainx".toList) (some [1, 2, 3]) m) (exTwoModules true) f.modules := by
  obtain ⟨bytes, es, front, back, h1, h2, h3, h4, h5, h6⟩ := exTwoModules_written true
  obtain ⟨g1, g2⟩ := C98_written_partial pf target h1 (by decide) h2 h3 h4 h5 h6
  obtain ⟨f, hf⟩ := g1.2 fun P hP => ⟨by
    simp only [exTwoModules, List.mem_cons, List.not_mem_nil, or_false] at hP
    rcases hP with rfl | rfl <;> exact exLlvmModule_readable, ⟨by decide +kernel, fun h => absurd h (by decide +kernel)⟩,
    fun bs h => by cases h; exact ⟨by decide, fun h => by cases h⟩⟩
  exact ⟨bytes, es, f, h1, hf, g2 f hf⟩

/-- The file with one module meets the hypotheses of `C98_files_partial`. -/
example : ∃ bytes w b front back Ps text symbols, bytes.length ≤ 2 ^ 61 ∧ Bitstream.from .debug bytes = .ok (w, b) ∧
    Delivers .debug b (completeEntries (front ++ back)) ∧ (∀ P ∈ Ps, P.module.Allowed text ∧ 2 ≤ (utf8 P.producer).length) ∧
    ModuleBlocks Ps front ∧ TableBlocks text symbols back ∧ Ps ≠ [] := by
  obtain ⟨bytes, b, h1, h2, h3⟩ := exLlvmTops_delivered
  refine ⟨bytes, none, b, exLlvmTops.take 2, exLlvmTops.drop 2, [⟨"LLVM".toList, 0, exLlvmModule true⟩], utf8 "mainx".toList, none, by omega, h2,
    h3, ?_, .cons ⟨rfl, rfl⟩ rfl exLlvmForest_written .nil, .plain ⟨rfl, rfl⟩, by simp⟩
  intro P hP
  rw [List.mem_singleton.1 hP]
  exact ⟨exLlvmModule_allowed true, by decide +kernel⟩

/-- C98 fails: with the function defined in the second module, neither of them is reported. -/
theorem C98_refuted (target : Str) : ∃ bytes es, streamBytes 0xdec04342 (exTwoTree false).items = some (bytes, es) ∧
    (exLlvmModule true).Readable ∧ (∀ P ∈ exTwoModules false, P.module.Allowed (utf8 "mainx".toList)) ∧
    ∀ pf f, Bitcode.tryFrom pf target bytes ≠ .ok f := by
  obtain ⟨bytes, es, front, back, h1, h2, h3, h4, h5, h6⟩ := exTwoModules_written false
  refine ⟨bytes, es, h1, exLlvmModule_readable, fun P hP => (h4 P hP).1, fun pf f hf => ?_⟩
  have h := (C98_written_partial pf target h1 (by decide) h2 h3 h4 h5 h6).1.1 ⟨f, hf⟩ _ (.tail _ (.head _))
  cases (h.1.functions _ (.head _)).1

end Verif
