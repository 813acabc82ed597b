import Verif.Mapper.CostSpec
import Verif.Props.EachReport
import Verif.Props.TypeSizes
import Verif.Props.Print

/-!
# C76: how much a file makes of itself
-/

namespace Verif
open Spec

/-! ## Upper bounds -/

theorem utf8_length_ge (s : Str) : s.length ≤ (utf8 s).length := by
  induction s with
  | nil => exact Nat.zero_le _
  | cons c s ih =>
    have : 1 ≤ (utf8Char c.toNat).length := by
      unfold utf8Char
      repeat' split
      all_goals simp
    simp only [utf8, List.flatMap_cons, List.length_append, List.length_map, List.length_cons] at ih ⊢
    omega

theorem holds_length {pf : Profile} {r : BRecord} {s : Str} (h : Holds pf r s) : s.length ≤ r.fields.length := by
  rw [h.1, List.length_map]; exact utf8_length_ge s

/-- The fields of records. -/
def fieldsOf (rs : List BRecord) : Nat := (rs.map fun r => r.fields.length).sum

theorem fieldsOf_filter (rs : List BRecord) (p : BRecord → Bool) : fieldsOf (rs.filter p) ≤ fieldsOf rs := by
  induction rs with
  | nil => exact Nat.le_refl _
  | cons r rs ih =>
    simp only [fieldsOf, List.filter_cons, List.map_cons, List.sum_cons] at ih ⊢
    split
    · simp only [List.map_cons, List.sum_cons]; omega
    · omega

/-- Those with one of three codes are disjoint. -/
theorem fieldsOf_codes (rs : List BRecord) :
    fieldsOf (withCode rs 2) + fieldsOf (withCode rs 4) + fieldsOf (withCode rs 6) ≤ fieldsOf rs := by
  induction rs with
  | nil => exact Nat.le_refl _
  | cons r rs ih =>
    simp only [fieldsOf, withCode, List.filter_cons, List.map_cons, List.sum_cons, beq_iff_eq] at ih ⊢
    by_cases h2 : r.code.toNat = 2
    · simp only [h2, if_true, List.map_cons, List.sum_cons, show ¬ (2 = 4) by omega, show ¬ (2 = 6) by omega, if_false]; omega
    · by_cases h4 : r.code.toNat = 4
      · simp only [h4, if_true, List.map_cons, List.sum_cons, show ¬ (4 = 2) by omega, show ¬ (4 = 6) by omega, if_false]; omega
      · by_cases h6 : r.code.toNat = 6
        · simp only [h6, if_true, List.map_cons, List.sum_cons, show ¬ (6 = 2) by omega, show ¬ (6 = 4) by omega, if_false]; omega
        · simp only [h2, h4, h6, if_false]; omega

theorem each_sum {α β : Type} {P : α → β → Prop} {f : α → Nat} {g : β → Nat} (hfg : ∀ a b, P a b → g b ≤ f a) {l : List α}
    {m : List β} (h : Each P l m) : (m.map g).sum ≤ (l.map f).sum := by
  induction l generalizing m with
  | nil => rw [each_nil_left] at h; subst h; exact Nat.le_refl _
  | cons a l ih =>
    obtain ⟨b, m, rfl, h1, h2⟩ := each_cons_left.1 h
    have := ih h2
    have := hfg a b h1
    simp only [List.map_cons, List.sum_cons]; omega

theorem lines_length {s : Str} {ls : List Str} (h : Lines s ls) : (ls.map (·.length)).sum ≤ s.length := by
  obtain ⟨-, -, h⟩ := h
  rw [← h]
  clear h
  induction ls with
  | nil => exact Nat.zero_le _
  | cons l ls ih =>
    cases ls with
    | nil => simp
    | cons l' ls =>
      rw [List.intercalate_cons_cons]
      simp only [List.map_cons, List.sum_cons, List.length_append] at ih ⊢
      omega

/-- The fields directly in a module or identification block. -/
def blockFields (c : BBlock × Forest) : Nat := fieldsOf c.2.records

theorem parts_skip (cs : List (BBlock × Forest)) : parts (cs.dropWhile fun d => d.1.blockId != 13) = parts cs := by
  induction cs with
  | nil => rfl
  | cons c cs ih =>
    by_cases h : c.1.blockId = 13
    · simp [h]
    · rw [List.dropWhile_cons_of_pos (by simpa using h), ih, parts, if_neg h]

theorem find_fields (l : List (BBlock × Forest)) (p : BBlock × Forest → Bool) :
    ((l.find? p).elim 0 blockFields) ≤ (l.map blockFields).sum := by
  induction l with
  | nil => exact Nat.le_refl _
  | cons c l ih =>
    simp only [List.find?_cons, List.map_cons, List.sum_cons]
    split
    · simp only [Option.elim_some]; omega
    · omega

/-- No block belongs to two modules, tables apart. -/
theorem parts_fields (cs : List (BBlock × Forest)) :
    ((parts cs).map fun p => blockFields p.identification + p.module.elim 0 blockFields).sum ≤ (cs.map blockFields).sum := by
  obtain ⟨n, hn⟩ : ∃ n, cs.length ≤ n := ⟨_, Nat.le_refl _⟩
  induction n generalizing cs with
  | zero => rw [List.eq_nil_of_length_eq_zero (by omega : cs.length = 0)]; exact Nat.le_refl _
  | succ n ih =>
    cases cs with
    | nil => exact Nat.le_refl _
    | cons c cs =>
      rw [List.length_cons] at hn
      by_cases h : c.1.blockId = 13
      · rw [parts, if_pos h, ← parts_skip cs]
        have h1 := ih (cs.dropWhile fun d => d.1.blockId != 13) (by
          have := (List.dropWhile_suffix (l := cs) fun d => d.1.blockId != 13).length_le; omega)
        have h2 := find_fields (cs.takeWhile fun d => d.1.blockId != 13) fun d => d.1.blockId == 8
        have h3 : (cs.map blockFields).sum = ((cs.takeWhile fun d => d.1.blockId != 13).map blockFields).sum +
            ((cs.dropWhile fun d => d.1.blockId != 13).map blockFields).sum := by
          rw [← List.sum_append_nat, ← List.map_append, List.takeWhile_append_dropWhile]
        simp only [List.map_cons, List.sum_cons]
        omega
      · rw [parts, if_neg h]
        have := ih cs (by omega)
        simp only [List.map_cons, List.sum_cons]; omega

theorem parts_length (cs : List (BBlock × Forest)) : (parts cs).length ≤ cs.length := by
  induction cs with
  | nil => exact Nat.le_refl _
  | cons c cs ih =>
    rw [parts]
    split <;> simp only [List.length_cons] <;> omega

theorem forest_fields (t : Forest) : fieldsOf t.records ≤ (t.entries.map Props.weight).sum := by
  induction t with
  | nil => exact Nat.le_refl _
  | record r rest ih =>
    simp only [Forest.records, Forest.entries, fieldsOf, List.map_cons, List.sum_cons, Props.weight] at ih ⊢; omega
  | block s body rest _ ih =>
    simp only [Forest.records, Forest.entries, List.map_cons, List.sum_cons, List.map_append, List.sum_append_nat]; omega

theorem tops_fields (tops : List (BBlock × Forest)) :
    (tops.map blockFields).sum ≤ ((completeEntries tops).map Props.weight).sum := by
  induction tops with
  | nil => exact Nat.le_refl _
  | cons c tops ih =>
    have := forest_fields c.2
    simp only [completeEntries, List.flatMap_cons, List.map_cons, List.sum_cons, List.map_append, List.sum_append_nat, blockFields] at ih ⊢
    omega

theorem tops_length (tops : List (BBlock × Forest)) : tops.length ≤ (completeEntries tops).length := by
  induction tops with
  | nil => exact Nat.le_refl _
  | cons c tops ih =>
    simp only [completeEntries, List.flatMap_cons, List.length_append, List.length_cons] at ih ⊢; omega

theorem parts_symtab_mem {tops : List (BBlock × Forest)} {p : Parts (BBlock × Forest)} (hp : p ∈ parts tops)
    {c : BBlock × Forest} (hc : p.symtab = some c) : c ∈ tops := by
  induction tops with
  | nil => cases hp
  | cons d tops ih =>
    rw [parts] at hp
    split at hp
    · rcases List.mem_cons.1 hp with rfl | hp
      · exact List.mem_cons_of_mem _ (List.mem_of_find?_eq_some hc)
      · exact List.mem_cons_of_mem _ (ih hp)
    · exact List.mem_cons_of_mem _ (ih hp)

theorem part_size {pf : Profile} {target : Str} {p : Parts (BBlock × Forest)} {m : BitcodeModule} (h : PartsSay pf target p m)
    {k : Nat} (hk : ∀ c bs, p.strtab = some c ∨ p.symtab = some c → TableSays pf c.2.records bs → bs.length ≤ k) :
    moduleSize m ≤ blockFields p.identification + p.module.elim 0 blockFields + target.length + 2 * k := by
  obtain ⟨⟨⟨r, ⟨pre, post, he, -, -⟩, hr⟩, -⟩, ⟨c, hc, ht⟩, ⟨d, ctx, fs, as, hd, hm⟩, hs⟩ := h
  have h1 : m.identification.producer.length ≤ blockFields p.identification := by
    have := holds_length hr
    simp only [blockFields, fieldsOf, he, List.map_append, List.map_cons, List.sum_append_nat, List.sum_cons]
    omega
  have h2 := hk c _ (.inl hc) ht
  have h3 : (m.symtab.elim 0 fun s => s.bytes.length) ≤ k := by
    rcases hs with ⟨-, hs⟩ | ⟨c', s, hc', hs, hts⟩
    · rw [hs]; exact Nat.zero_le _
    · rw [hs]; exact hk c' _ (.inr hc') hts
  have h4 : m.module.triple.length ≤ target.length + fieldsOf (withCode d.2.records 2) := by
    have := hm.triple
    revert this
    generalize withCode d.2.records 2 = l
    rintro (_ | ⟨h⟩)
    · omega
    · have := holds_length h
      simp only [fieldsOf, List.map_cons, List.map_nil, List.sum_cons, List.sum_nil]; omega
  have h5 : (m.module.asm.map (·.length)).sum ≤ fieldsOf (withCode d.2.records 4) := by
    have := hm.asm
    revert this
    generalize withCode d.2.records 4 = l
    generalize m.module.asm = ls
    rintro (_ | ⟨s, h, hl⟩)
    · exact Nat.zero_le _
    · have := holds_length h
      have := lines_length hl
      simp only [fieldsOf, List.map_cons, List.map_nil, List.sum_cons, List.sum_nil]; omega
  have h6 : (m.module.deplibs.map (·.length)).sum ≤ fieldsOf (withCode d.2.records 6) :=
    each_sum (fun _ _ h => holds_length h) hm.deplibs
  have h7 := fieldsOf_codes d.2.records
  unfold moduleSize
  rw [hd]
  simp only [Option.elim_some, blockFields] at h1 ⊢
  omega

/-- C76, in full, would bound the result by the length of the file times a constant. What holds: it is bounded by the square of the
length. -/
theorem C76_result_partial (pf : Profile) (target : Str) (bytes : List U8) (hlen : bytes.length ≤ 2 ^ 61) (f : Bitcode)
    (h : Bitcode.tryFrom pf target bytes = .ok f) :
    fileSize f ≤ 3 * (8 * bytes.length) ^ 2 + 8 * bytes.length * target.length := by
  obtain ⟨w, b, tops, hb, hd, -, hs⟩ := (C51_bytes pf target bytes hlen f).1 h
  have ho : Opened pf b := .auto hb
  have hl := from_len hb
  have hit := delivers_iterate hd
  have h1 := Props.C54_total pf ho (completeEntries tops).length
  rw [hit] at h1
  have h2 := iterate_bound (pf := pf) (completeEntries tops).length ho.start.1
  rw [hit] at h2
  have hn : (parts tops).length ≤ b.len := by
    have := parts_length tops
    have := tops_length tops
    omega
  have hk : ∀ p ∈ parts tops, ∀ c bs, p.strtab = some c ∨ p.symtab = some c → TableSays pf c.2.records bs → bs.length ≤ b.len := by
    rintro p hp c bs (hc | hc) ht
    · exact Nat.le_of_lt (table_small ho hit (parts_strtab_mem hp hc) ht)
    · exact Nat.le_of_lt (table_small ho hit (parts_symtab_mem hp hc) ht)
  have key : ∀ (ps : List (Parts (BBlock × Forest))) (ms : List BitcodeModule), Each (PartsSay pf target) ps ms →
      (∀ p ∈ ps, ∀ c bs, p.strtab = some c ∨ p.symtab = some c → TableSays pf c.2.records bs → bs.length ≤ b.len) →
      (ms.map moduleSize).sum ≤ (ps.map fun p => blockFields p.identification + p.module.elim 0 blockFields).sum +
        ps.length * (target.length + 2 * b.len) := by
    intro ps
    induction ps with
    | nil => intro ms h _; rw [each_nil_left] at h; subst h; exact Nat.zero_le _
    | cons p ps ih =>
      intro ms h hk
      obtain ⟨m, ms, rfl, h1, h2⟩ := each_cons_left.1 h
      have g1 := part_size h1 (hk p (by simp))
      have g2 := ih ms h2 fun q hq => hk q (by simp [hq])
      rw [List.map_cons, List.sum_cons, List.map_cons, List.sum_cons, List.length_cons, Nat.add_mul, Nat.one_mul]
      generalize ps.length * (target.length + 2 * b.len) = x at g2 ⊢
      omega
  have h3 := key _ _ hs hk
  have h4 := parts_fields tops
  have h5 := tops_fields tops
  have h6 := Nat.mul_le_mul_right (target.length + 2 * b.len) hn
  have h7 : b.len * (target.length + 2 * b.len) = b.len * target.length + 2 * (b.len * b.len) := by
    rw [Nat.mul_add, Nat.mul_left_comm]
  have h8 : b.len * b.len ≤ (8 * bytes.length) ^ 2 := by
    rw [Nat.pow_two]; exact Nat.mul_le_mul (by omega) (by omega)
  have h9 : b.len * target.length ≤ 8 * bytes.length * target.length := Nat.mul_le_mul_right _ (by omega)
  unfold fileSize
  omega

/-! ## Files that reach them -/

/-- A module with types and nothing else. -/
def typesModule (rs : List BRecord) : Tree := .record 1 [2] (.block 17 (recTree rs) (.block 14 .nil .nil))

theorem recTree_forest {rs : List BRecord} (h : ∀ r ∈ rs, r.abbrevId = none) : (recTree rs).forest.records = rs := by
  induction rs with
  | nil => rfl
  | cons r rs ih =>
    simp only [recTree, Tree.forest, Forest.records, List.cons.injEq]
    refine ⟨?_, ih fun r hr => h r (by simp [hr])⟩
    rw [← h r (by simp)]

theorem typesModule_says {pf : Profile} (target : Str) (strtab : Strtab) {rs : List BRecord} (hr : ∀ r ∈ rs, r.abbrevId = none)
    {ts : List Ty} (h : TypesSay pf rs ts) :
    ModuleSays pf target strtab (typesModule rs).forest ⟨target, [], []⟩ { hxCtx ts with strtab } [] [] where
  tables := {
    version := ⟨⟨none, 1, [2]⟩, [], rfl, rfl⟩
    datalayout := .absent
    sections := each_nil_left.2 rfl
    gcs := each_nil_left.2 rfl
    strtab := rfl
    types := ⟨(⟨17, 0⟩, (recTree rs).forest), rfl, by rw [recTree_forest hr]; exact h⟩
    symbols := ⟨_, rfl⟩
    groups := .absent
    attributes := .absent
    comdats := each_nil_left.2 rfl }
  triple := .absent
  asm := .absent
  deplibs := each_nil_left.2 rfl
  functions := each_nil_left.2 rfl
  noBodies := rfl
  aliases := each_nil_left.2 rfl

/-- `k` modules, and one string table for all of them. -/
def sharing (rs : List BRecord) (text : List U64) : Nat → Tree
  | 0 => .block 23 (.record 1 text .nil) .nil
  | k + 1 => .block 13 (.record 1 [76, 76] (.record 2 [0] .nil)) (.block 8 (typesModule rs) (sharing rs text k))

theorem sharing_fine (rs : List BRecord) (text : List U64) (k : Nat) : (sharing rs text k).OnlyBlocks ∧ (sharing rs text k).NoInfo ∧
    (sharing rs text k).weight = text.length + 6 + k * ((recTree rs).weight + 25) := by
  induction k with
  | zero => simp [sharing, Tree.OnlyBlocks, Tree.NoInfo, Tree.weight]; omega
  | succ k ih =>
    obtain ⟨h1, h2, h3⟩ := ih
    refine ⟨by simpa [sharing, Tree.OnlyBlocks] using h1, by simp [sharing, typesModule, Tree.NoInfo, h2, recTree_noInfo], ?_⟩
    simp only [sharing, typesModule, Tree.weight, h3, List.length_cons, List.length_nil, Nat.add_mul, Nat.one_mul]
    omega

theorem sharing_tables (rs : List BRecord) (text : List U64) (k : Nat) :
    (sharing rs text k).tops.find? (fun d => d.1.blockId == 23) = some (⟨23, 0⟩, .record ⟨none, 1, text⟩ .nil) ∧
    (sharing rs text k).tops.find? (fun d => d.1.blockId == 25) = none := by
  induction k with
  | zero => exact ⟨rfl, rfl⟩
  | succ k ih => exact ih

theorem sharing_order (rs : List BRecord) (text : List U64) (k : Nat) : InOrder (sharing rs text k).tops := by
  induction k with
  | zero =>
    intro pre c post h
    simp only [sharing, Tree.tops, Tree.forest, Forest.blocks] at h
    have : c = (⟨23, 0⟩, .record ⟨none, 1, text⟩ .nil) := by
      have : c ∈ pre ++ c :: post := by simp
      rw [← h] at this
      simpa using this
    rw [this]; exact .inl (by simp)
  | succ k ih =>
    intro pre c post h
    simp only [sharing, Tree.tops, Tree.forest, Forest.blocks] at h
    match pre, h with
    | [], h => simp only [List.nil_append, List.cons.injEq] at h; rw [← h.1]; exact .inl (by simp)
    | [a], h =>
      simp only [List.cons_append, List.nil_append, List.cons.injEq] at h
      obtain ⟨rfl, rfl, -⟩ := h
      exact .inr ⟨rfl, [], _, [], rfl, rfl, by simp⟩
    | a :: a' :: pre, h =>
      simp only [List.cons_append, List.cons.injEq] at h
      obtain ⟨rfl, rfl, h⟩ := h
      rcases ih pre c post h with h1 | ⟨h1, x, i, y, rfl, h2, h3⟩
      · exact .inl h1
      · exact .inr ⟨h1, _ :: _ :: x, i, y, rfl, h2, h3⟩

/-- The module that each of them maps to. -/
def sharedModule (target : Str) (text : List U8) : BitcodeModule :=
  { identification := ⟨['L', 'L'], 0⟩, module := ⟨target, [], []⟩, strtab := ⟨text⟩, symtab := none }

theorem sharing_says {pf : Profile} (target : Str) {rs : List BRecord} (hr : ∀ r ∈ rs, r.abbrevId = none) {ts : List Ty}
    (h : TypesSay pf rs ts) (text : List U8) (hl : 2 ≤ text.length) (k : Nat) :
    FileSays pf target (sharing rs (text.map (·.setWidth 64)) k).tops ⟨List.replicate k (sharedModule target text)⟩ := by
  refine ⟨sharing_order _ _ _, ?_⟩
  induction k with
  | zero => exact each_nil_left.2 rfl
  | succ k ih =>
    have h1 : parts (sharing rs (text.map (·.setWidth 64)) (k + 1)).tops =
        { identification := (⟨13, 0⟩, .record ⟨none, 1, [76, 76]⟩ (.record ⟨none, 2, [0]⟩ .nil))
          module := some (⟨8, 0⟩, (typesModule rs).forest)
          strtab := (sharing rs (text.map (·.setWidth 64)) k).tops.find? fun d => d.1.blockId == 23
          symtab := (sharing rs (text.map (·.setWidth 64)) k).tops.find? fun d => d.1.blockId == 25 } ::
        parts (sharing rs (text.map (·.setWidth 64)) k).tops := rfl
    rw [h1, List.replicate_succ, each_cons]
    obtain ⟨g1, g2⟩ := sharing_tables rs (text.map (·.setWidth 64)) k
    rw [g1, g2]
    refine ⟨⟨⟨⟨⟨none, 1, [76, 76]⟩, ⟨[], _, rfl, rfl, by simp⟩, rfl, by simp, by simp⟩,
        ⟨⟨none, 2, [0]⟩, [], ⟨[_], [], rfl, rfl, by simp⟩, rfl⟩⟩,
      ⟨_, rfl, ⟨none, 1, text.map (BitVec.setWidth 64)⟩, ⟨[], [], rfl, rfl, by simp⟩, rfl, by simp; omega, fun h => ?_⟩,
      ⟨_, _, [], [], rfl, typesModule_says target ⟨text⟩ hr h⟩, .inl ⟨rfl, rfl⟩⟩, ih⟩
    simp only [List.map_eq_nil_iff] at h
    rw [h] at hl; simp at hl

/-- What is written maps. -/
theorem sharing_maps {pf : Profile} (target : Str) {rs : List BRecord} (hr : ∀ r ∈ rs, r.abbrevId = none) {ts : List Ty}
    (h : TypesSay pf rs ts) (text : List U8) (hl : 2 ≤ text.length) (k : Nat)
    (hw : text.length + 6 + k * ((recTree rs).weight + 25) ≤ 2 ^ 30) :
    ∃ bytes, bytes.length ≤ 4 + 10 * (text.length + 6 + k * ((recTree rs).weight + 25)) ∧
      Bitcode.tryFrom pf target bytes = .ok ⟨List.replicate k (sharedModule target text)⟩ ∧
      (1 ≤ k → ModuleTypes pf bytes ts) := by
  obtain ⟨f1, f2, f3⟩ := sharing_fine rs (text.map (·.setWidth 64)) k
  rw [List.length_map] at f3
  obtain ⟨bytes, es, h1, h2, h3⟩ := C69_writes 0xdec04342 _ f1 f2 (by rw [f3]; exact hw)
  rw [f3] at h3
  refine ⟨bytes, h3, (C69_maps pf target h1 (by decide) (by omega) _).2 (by rw [h2]; exact sharing_says target hr h text hl k), fun hk => ?_⟩
  obtain ⟨tops, g1, g2⟩ := written_tops h1
  obtain ⟨b, hb, -, hd⟩ := Props.C18_stream_roundtrip_from pf h1 (by decide)
  rw [g1] at hd
  rw [h2] at g2
  obtain ⟨k, rfl⟩ : ∃ j, k = j + 1 := ⟨k - 1, by omega⟩
  -- the first two blocks are an identification and a module
  have g3 : plainTops tops = (⟨13, 0⟩, .record ⟨none, 1, [76, 76]⟩ (.record ⟨none, 2, [0]⟩ .nil)) ::
      (⟨8, 0⟩, (typesModule rs).forest) :: (sharing rs (text.map (·.setWidth 64)) k).tops := g2
  match tops, g3 with
  | i :: m :: more, g3 =>
    simp only [plainTops, List.map_cons, List.cons.injEq, Prod.mk.injEq] at g3
    obtain ⟨⟨i1, -⟩, ⟨m1, m2⟩, -⟩ := g3
    have i1 : i.1.blockId = 13 := by simpa [BBlock.plain] using congrArg BBlock.blockId i1
    have m1 : m.1.blockId = 8 := by simpa [BBlock.plain] using congrArg BBlock.blockId m1
    have hm : m.2.plain = (typesModule rs).forest.plain := by
      rw [← m2, plain_plain]
    have hsame := (plain_sameModule hm).blocks 17 (by decide)
    rw [show (typesModule rs).forest.withId 17 = [(⟨17, 0⟩, (recTree rs).forest)] from rfl] at hsame
    match hc : m.2.withId 17, hsame with
    | [c], hsame =>
      have hc' := (each_cons.1 hsame).1
      simp only [recTree_forest hr] at hc'
      refine ⟨none, b, _, _, m, c, hb, hd, by rw [parts, if_pos i1]; exact List.mem_cons_self, ?_, hc, ?_⟩
      · simp [m1]
      · have := types_congr pf (u := .mk (.ir .type) c.2.records []) (v := .mk (.ir .type) rs []) hc'
        rw [(C40_exact pf (.mk (.ir .type) rs []) ts).2 h] at this
        exact (C40_exact pf (.mk (.ir .type) c.2.records []) ts).1 this
    | [], hsame => exact absurd hsame.1 (by simp)
    | _ :: _ :: _, hsame => exact absurd hsame.1 (by simp)
  | [], g3 => simp [plainTops] at g3
  | [_], g3 => simp [plainTops] at g3

/-- C76 fails: all modules of a file that come before a string table get a copy of it, so `n` modules and a table of `n` bytes, written in less than
`400 n` bytes, map to a result of more than `n ^ 2` bytes. -/
theorem C76_copies (pf : Profile) (target : Str) (n : Nat) (h1 : 2 ≤ n) (hn : n ≤ 2 ^ 24) : ∃ bytes f,
    bytes.length ≤ 400 * n ∧ Bitcode.tryFrom pf target bytes = .ok f ∧ n ^ 2 ≤ fileSize f := by
  have ht : TypesSay pf [⟨none, 1, [0]⟩] [] :=
    (C40_exact pf (.mk (.ir .type) [⟨none, 1, [0]⟩] []) []).1 (by cases pf <;> decide +kernel)
  have hw : (recTree [⟨none, 1, [0]⟩]).weight = 4 := rfl
  obtain ⟨bytes, g1, g2, -⟩ := sharing_maps (pf := pf) target (rs := [⟨none, 1, [0]⟩]) (by simp) ht (List.replicate n 97)
    (by simpa using h1) n (by rw [hw, List.length_replicate]; omega)
  rw [hw, List.length_replicate] at g1
  refine ⟨bytes, _, by omega, g2, ?_⟩
  have : n ≤ moduleSize (sharedModule target (List.replicate n 97)) := by
    simp only [moduleSize, sharedModule, List.length_replicate]; omega
  simp only [fileSize, List.map_replicate, List.sum_replicate_nat, Nat.pow_two]
  exact Nat.mul_le_mul_left _ this

theorem tower_weight (r n : Nat) : (recTree (towerRecords r n)).weight = 8 + n * (r + 4) := by
  rw [recTree_weight]
  simp only [towerRecords, List.map_cons, List.map_map, List.sum_cons]
  have : ∀ l : List Nat, (l.map ((fun r : BRecord => r.fields.length + 3) ∘
      fun k => (⟨none, 18, 0 :: List.replicate r (BitVec.ofNat 64 k)⟩ : BRecord))).sum = l.length * (r + 4) := by
    intro l
    induction l with
    | nil => simp
    | cons k l ih =>
      simp only [List.map_cons, List.sum_cons, ih, Function.comp_apply, List.length_cons, List.length_replicate, Nat.add_mul, Nat.one_mul]
      omega
  rw [this, List.length_range]
  simp only [List.length_cons, List.length_nil]
  omega

/-- C76 fails for what mapping holds in between: a file of `500 + 60 n` bytes maps, but one of the types of its module has `2 ^ (n + 1) - 1`
parts, and is as high as there are types. -/
theorem C76_types (pf : Profile) (target : Str) (n : Nat) (hn : n ≤ 2 ^ 26) : ∃ bytes f ts,
    bytes.length ≤ 500 + 60 * n ∧ Bitcode.tryFrom pf target bytes = .ok f ∧ ModuleTypes pf bytes ts ∧ ts.length = n + 1 ∧
      ∃ t ∈ ts, nodes t + 1 = 2 ^ (n + 1) ∧ height t = n + 1 := by
  have ht := (C40_exact pf _ _).1 (tower_maps pf 2 n (by omega))
  obtain ⟨bytes, g1, g2, g3⟩ := sharing_maps (pf := pf) target (rs := towerRecords 2 n) (by
    intro r hr
    simp only [towerRecords, List.mem_cons, List.mem_map] at hr
    rcases hr with rfl | rfl | ⟨_, -, rfl⟩ <;> rfl) ht [255, 97] (by simp) 1 (by rw [tower_weight]; simp; omega)
  rw [tower_weight] at g1
  simp only [List.length_cons, List.length_nil] at g1
  exact ⟨bytes, _, _, by omega, g2, g3 (Nat.le_refl _), by simp, tower 2 n, List.mem_map.2 ⟨n, List.mem_range.2 (by omega), rfl⟩,
    by rw [tower_nodes, full_two], tower_height 2 n (by omega)⟩

/-! ## How deep types get, and how long the printed text -/

theorem builds_length {pf : Profile} {ds out : List TyDecl} {nm nm' : Str} {rs : List BRecord} (h : Builds pf ds nm rs out nm') :
    out.length ≤ ds.length + rs.length := by
  induction h <;> simp_all only [List.length_append, List.length_cons, List.length_nil] <;> omega

theorem records_entries (t : Forest) : t.records.length ≤ t.entries.length := by
  induction t with
  | nil => exact Nat.le_refl _
  | record r rest ih => simp only [Forest.records, Forest.entries, List.length_cons]; omega
  | block s body rest _ ih => simp only [Forest.records, Forest.entries, List.length_cons, List.length_append]; omega

theorem block_entries {t : Forest} {c : BBlock × Forest} (h : c ∈ t.blocks) : c.2.entries.length ≤ t.entries.length := by
  induction t with
  | nil => cases h
  | record r rest ih =>
    have := ih h
    simp only [Forest.entries, List.length_cons]; omega
  | block s body rest _ ih =>
    simp only [Forest.entries, List.length_cons, List.length_append]
    rcases List.mem_cons.1 h with rfl | h
    · exact Nat.le_trans (Nat.le_add_right _ _) (Nat.le_succ _)
    · have := ih h; omega

theorem top_entries {tops : List (BBlock × Forest)} {c : BBlock × Forest} (h : c ∈ tops) :
    c.2.entries.length ≤ (completeEntries tops).length := by
  induction tops with
  | nil => cases h
  | cons d tops ih =>
    simp only [completeEntries, List.flatMap_cons, List.length_append, List.length_cons] at ih ⊢
    rcases List.mem_cons.1 h with rfl | h
    · omega
    · have := ih h; omega

theorem parts_module_mem {tops : List (BBlock × Forest)} {p : Parts (BBlock × Forest)} (hp : p ∈ parts tops)
    {c : BBlock × Forest} (hc : p.module = some c) : c ∈ tops := by
  induction tops with
  | nil => cases hp
  | cons d tops ih =>
    rw [parts] at hp
    split at hp
    · rcases List.mem_cons.1 hp with rfl | hp
      · exact List.mem_cons_of_mem _ ((List.takeWhile_sublist _).subset (List.mem_of_find?_eq_some hc))
      · exact List.mem_cons_of_mem _ (ih hp)
    · exact List.mem_cons_of_mem _ (ih hp)

/-- C76 for the number of types and their heights, on which the depth of the recursion depends (C64): they are bounded by the number of
bits of the file. -/
theorem C76_heights_partial (pf : Profile) (bytes : List U8) (ts : List Ty) (h : ModuleTypes pf bytes ts) :
    ts.length ≤ 8 * bytes.length ∧ ∀ t ∈ ts, height t ≤ 8 * bytes.length := by
  obtain ⟨w, b, tops, p, c, d, hb, hd, hp, hc, hcd, hts⟩ := h
  have ht := (C40_exact pf (.mk (.ir .type) d.2.records []) ts).2 hts
  obtain ⟨ds, ⟨n, nm, -, -, hbs, -⟩, hl, -⟩ := hts
  have h1 := builds_length hbs
  have h2 := records_entries d.2
  have h3 := block_entries (t := c.2) (c := d) (List.mem_filter.1 (by rw [show c.2.blocks.filter _ = [d] from hcd]; simp)).1
  have h4 := top_entries (parts_module_mem hp hc)
  have ho : Opened pf b := .auto hb
  have h5 := iterate_bound (pf := pf) (completeEntries tops).length ho.start.1
  rw [delivers_iterate hd] at h5
  have h6 := from_len hb
  have hle : ts.length ≤ 8 * bytes.length := by
    simp only [List.length_nil] at h1
    omega
  exact ⟨hle, fun t htm => Nat.le_trans ((C65_bound_partial pf _ ts ht).1 t htm) hle⟩

/-- `C76_result_partial` and `C76_heights_partial` are about something: there are files that map to a million bytes from four hundred
thousand, and with more than a thousand types. -/
example : (∃ bytes f, bytes.length ≤ 2 ^ 61 ∧ Bitcode.tryFrom .debug [] bytes = .ok f ∧ 10 ^ 6 ≤ fileSize f) ∧
    ∃ bytes ts, ModuleTypes .release bytes ts ∧ ts.length = 1001 := by
  obtain ⟨bytes, f, h1, h2, h3⟩ := C76_copies .debug [] 1000 (by omega) (by omega)
  obtain ⟨bytes', -, ts, -, -, g1, g2, -⟩ := C76_types .release [] 1000 (by omega)
  exact ⟨⟨bytes, f, by omega, h2, h3⟩, bytes', ts, g1, g2⟩

theorem group_lines (o c : Str) (ps : List (Str × Doc)) (d : Nat) (pre post : Str) :
    (Doc.group o c ps d pre post).length = 2 + (ps.map fun p => (p.2 (d + 1) p.1 [',']).length).sum := by
  simp only [Doc.group, List.length_cons, List.length_append, List.length_flatMap, List.length_nil]
  omega

theorem bytes_lines (bs : List U8) (d : Nat) (pre post : Str) : bs.length ≤ (byteDoc bs d pre post).length := by
  unfold byteDoc
  cases bs with
  | nil => exact Nat.zero_le _
  | cons b bs =>
    rw [List.map_cons, Doc.list, group_lines]
    · have : ∀ l : List U8, ((l.map fun b : U8 => Doc.word (decimal b.toNat)).map fun p => ([], p)).map
          (fun p : Str × Doc => (p.2 (d + 1) p.1 [',']).length) = List.replicate l.length 1 := by
        intro l
        induction l with
        | nil => rfl
        | cons b l ih => simp only [List.map_cons, ih, List.length_cons, List.replicate_succ]; rfl
      rw [← List.map_cons (f := fun b : U8 => Doc.word (decimal b.toNat)), this, List.sum_replicate_nat]
      omega
    · simp

theorem module_lines (quoted : Str → Str) (m : BitcodeModule) (d : Nat) (pre post : Str) :
    m.strtab.bytes.length ≤ (moduleDoc quoted m d pre post).length := by
  have := bytes_lines m.strtab.bytes (d + 1 + 1) [] [',']
  simp only [moduleDoc, group_lines, List.map_cons, List.map_nil, List.sum_cons, List.sum_nil]
  omega

theorem bitcode_lines (quoted : Str → Str) (f : Bitcode) : (f.modules.map fun m => m.strtab.bytes.length).sum ≤ (bitcodeDoc quoted f 0 [] []).length := by
  simp only [bitcodeDoc, group_lines, List.map_cons, List.map_nil, List.sum_cons, List.sum_nil]
  cases hm : f.modules with
  | nil => exact Nat.zero_le _
  | cons m ms =>
    rw [List.map_cons (f := moduleDoc quoted), Doc.list, group_lines]
    · have : ∀ l : List BitcodeModule, (l.map fun m => m.strtab.bytes.length).sum ≤
          (((l.map (moduleDoc quoted)).map fun p => ([], p)).map fun p : Str × Doc => (p.2 (0 + 1 + 1) p.1 [',']).length).sum := by
        intro l
        induction l with
        | nil => exact Nat.le_refl _
        | cons m l ih =>
          have := module_lines quoted m (0 + 1 + 1) [] [',']
          simp only [List.map_cons, List.sum_cons] at ih ⊢
          omega
      have := this (m :: ms)
      rw [List.map_cons (f := moduleDoc quoted)] at this
      omega
    · simp

theorem linesText_length (ls : List (Nat × Str)) : ls.length ≤ (linesText ls).length := by
  induction ls with
  | nil => exact Nat.le_refl _
  | cons l ls ih => simp only [linesText, List.flatMap_cons, List.length_append, List.length_cons, List.length_nil] at ih ⊢; omega

/-- C76 fails for the program that prints a mapped file: the text for a file of `400 n` bytes can have more than `n ^ 2` characters. -/
theorem C76_text (pf : Profile) (target : Str) (plain : Char → Bool) (n : Nat) (h1 : 2 ≤ n) (hn : n ≤ 2 ^ 24) : ∃ bytes text,
    bytes.length ≤ 400 * n ∧ Print.main pf target plain bytes = .ok text ∧ n ^ 2 ≤ text.length := by
  have ht : TypesSay pf [⟨none, 1, [0]⟩] [] :=
    (C40_exact pf (.mk (.ir .type) [⟨none, 1, [0]⟩] []) []).1 (by cases pf <;> decide +kernel)
  have hw : (recTree [⟨none, 1, [0]⟩]).weight = 4 := rfl
  obtain ⟨bytes, g1, g2, -⟩ := sharing_maps (pf := pf) target (rs := [⟨none, 1, [0]⟩]) (by simp) ht (List.replicate n 97)
    (by simpa using h1) n (by rw [hw, List.length_replicate]; omega)
  rw [hw, List.length_replicate] at g1
  refine ⟨bytes, _, by omega, (C75_prints pf target plain bytes _).2 ⟨_, g2, rfl⟩, ?_⟩
  refine Nat.le_trans ?_ (Nat.le_trans (bitcode_lines (Print.quote plain) _) (linesText_length _))
  simp [sharedModule, Nat.pow_two, List.sum_replicate_nat]

/-- `C48_files` is about something: a file with an empty body. -/
example : ∃ bytes w b tops p c, bytes.length ≤ 2 ^ 61 ∧ Bitstream.from .debug bytes = .ok (w, b) ∧
    Delivers .debug b (completeEntries tops) ∧ p ∈ parts tops ∧ p.module = some c ∧ c.2.withId 12 ≠ [] := by
  have key : (streamBytes 0xdec04342 (hxFile (.record 1 [2] (.block 12 .nil .nil))).items).map
      (fun x => (x.1.length, x.2.map Entry.toStream)) = some (64, completeEntries
        [(⟨13, 8⟩, .record ⟨none, 1, [76, 76]⟩ (.record ⟨none, 2, [0]⟩ .nil)),
          (⟨8, 20⟩, .record ⟨none, 1, [2]⟩ (.block ⟨12, 4⟩ .nil .nil)), (⟨23, 8⟩, .record ⟨none, 1, [255, 97]⟩ .nil)]) := by
    decide +kernel
  obtain ⟨⟨bytes, es⟩, h1, h2⟩ := Option.map_eq_some_iff.1 key
  simp only [Prod.mk.injEq] at h2
  obtain ⟨b, hb, -, hd⟩ := Props.C18_stream_roundtrip_from .debug h1 (by decide)
  rw [h2.2] at hd
  exact ⟨bytes, none, b, _, _, _, by rw [h2.1]; decide, hb, hd, List.mem_cons_self, rfl, by decide⟩

end Verif
