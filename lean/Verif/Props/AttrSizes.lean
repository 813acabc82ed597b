import Verif.Mapper.AttrSizeSpec
import Verif.Props.Packed
import Verif.Props.Costs

/-!
# C54 and C85: how many fields, and how many attributes, a file stands for
-/

namespace Verif
open Spec

/-! ## C54 -/

theorem sameRecords_fields {rs ss : List BRecord} (h : SameRecords rs ss) : fieldsOf ss ≤ fieldsOf rs :=
  each_sum (fun a b hab => by rw [hab.2]; exact Nat.le_refl _) h

theorem repeated_fields (code : U64) (fields : List U64) (m : Nat) :
    fieldsOf (repeated code fields m).forest.records = m * fields.length := by
  induction m with
  | zero => simp [repeated, Tree.forest, Forest.records, fieldsOf]
  | succ m ih =>
    simp only [repeated, Tree.forest, Forest.records, fieldsOf, List.map_cons, List.sum_cons, Nat.add_mul, Nat.one_mul] at ih ⊢
    omega

/-- C54, the bound of `C54_total` is reached, up to a constant: `60 + 11 n` bytes can give `n ^ 2` fields. -/
theorem C54_squared (pf : Profile) (n : Nat) (hn : n ≤ 2 ^ 29) : ∃ bytes b es, bytes.length ≤ 60 + 11 * n ∧
    Bitstream.from pf bytes = .ok (none, b) ∧ Delivers pf b es ∧ n ^ 2 ≤ (es.map Props.weight).sum := by
  have hf := Fits.literals 1 (List.replicate n 7) n (by rw [List.length_replicate]; omega)
  rw [List.length_replicate] at hf
  obtain ⟨bytes, es, h1, h2⟩ := Fits.bytes 0xdec04342
    (Fits.block (.inl rfl) (.inr rfl) (id := 8) (by decide) hf (Fits.nil 2 true) (by omega))
  obtain ⟨b, hb, -, hd⟩ := Props.C18_stream_roundtrip_from pf h1 (by decide)
  obtain ⟨tops, g1, g2⟩ := written_tops h1
  refine ⟨bytes, b, _, by omega, hb, hd, ?_⟩
  rw [g1]
  refine Nat.le_trans ?_ (tops_fields tops)
  simp only [Items.tree, show ¬ ((8 : U64) = 0) by decide, if_false, literals_tree, Tree.tops, Tree.forest, Forest.blocks] at g2
  match tops, g2 with
  | [c], g2 =>
    simp only [plainTops, List.map_cons, List.map_nil, List.cons.injEq, Prod.mk.injEq, and_true] at g2
    have := sameRecords_fields (plain_records (t := c.2) (t' := (repeated 1 (List.replicate n 7) n).forest) (by rw [← g2.2, plain_plain]))
    rw [repeated_fields, List.length_replicate] at this
    simp only [List.map_cons, List.map_nil, List.sum_cons, List.sum_nil, blockFields, Nat.pow_two]
    omega
  | [], g2 => simp [plainTops] at g2
  | _ :: _ :: _, g2 => simp [plainTops] at g2

/-- C54: a file of one megabyte can give over seven thousand million fields. -/
example : ∃ bytes b es, bytes.length ≤ 2 ^ 20 ∧ Bitstream.from .debug bytes = .ok (none, b) ∧ Delivers .debug b es ∧
    7 * 10 ^ 9 ≤ (es.map Props.weight).sum := by
  obtain ⟨bytes, b, es, h1, h2, h3, h4⟩ := C54_squared .debug 95000 (by omega)
  exact ⟨bytes, b, es, by omega, h2, h3, by omega⟩

/-! ## C85 -/

theorem attr_size {a : Attribute} {fs : List U64} (h : AttrWritten a fs) : attributeSize a ≤ fs.length := by
  cases h with
  | enum _ => simp [attributeSize]
  | int _ => simp [attributeSize]
  | @str s _ =>
    have := utf8_length_ge s
    simp only [attributeSize, strFields, List.length_cons, List.length_append, List.length_map, List.length_nil]; omega
  | @strKeyValue k v _ _ =>
    have := utf8_length_ge k
    have := utf8_length_ge v
    simp only [attributeSize, strFields, List.length_cons, List.length_append, List.length_map, List.length_nil]; omega

theorem attrs_size {l : List (Attribute × List U64)} (h : AllAttrs l) :
    ((l.map (·.1)).map attributeSize).sum ≤ (l.flatMap (·.2)).length := by
  induction l with
  | nil => exact Nat.le_refl _
  | cons x l ih =>
    have h1 := attr_size (h x (by simp))
    have h2 := ih fun y hy => h y (by simp [hy])
    simp only [List.map_cons, List.sum_cons, List.flatMap_cons, List.length_append]
    omega

theorem group_size {r : BRecord} {id param : U64} {attrs : List Attribute} (h : IsAttrGroup r id param attrs) :
    (attrs.map attributeSize).sum + 2 ≤ r.fields.length := by
  obtain ⟨-, l, hl, rfl, -, hf⟩ := h
  have := attrs_size hl
  rw [hf]
  simp only [List.length_cons]
  omega

/-- C85. A list is as large as all its groups together, each counted as often as the list refers to it. -/
theorem C85_copies (b : UBlock) (g : AttributeGroups) (as : Attributes) (h : Attributes.tryFrom b g = .ok as) :
    Each (fun r e => listSize e = (r.fields.map fun f => (g.get (BitVec.ofNat 32 f.toNat)).elim 0 groupSize).sum) b.records as := by
  obtain ⟨h1, h2⟩ := (C46_lists b g as).1 h
  refine ⟨h1, fun i r e hr he => ?_⟩
  obtain ⟨-, h3, h4⟩ := h2 i r e hr he
  unfold listSize
  congr 1
  refine List.ext_getElem? fun j => ?_
  rw [List.getElem?_map, List.getElem?_map]
  cases hf : r.fields[j]? with
  | none =>
    rw [List.getElem?_eq_none_iff] at hf
    rw [List.getElem?_eq_none (by omega)]
    rfl
  | some f =>
    have hj := (List.getElem?_eq_some_iff.1 hf).1
    have hx : e[j]? = some (e[j]'(by omega)) := List.getElem?_eq_getElem _
    rw [hx]
    simp only [Option.map_some, h4 j f _ hf hx, Option.elim_some]

/-! ### Upper bounds -/

theorem insert_size (g : AttributeGroups) (id : U32) (x : AttributeGroup) :
    ((g.insert id x).map fun y => groupSize y.2).sum ≤ (g.map fun y => groupSize y.2).sum + groupSize x := by
  have key : ((g.filter fun e => e.1 < id).map fun y => groupSize y.2).sum + ((g.filter fun e => id < e.1).map fun y => groupSize y.2).sum ≤
      (g.map fun y => groupSize y.2).sum := by
    induction g with
    | nil => exact Nat.le_refl _
    | cons y g ih =>
      simp only [List.filter_cons, List.map_cons, List.sum_cons, decide_eq_true_eq]
      by_cases h1 : y.1 < id
      · have h2 : ¬ id < y.1 := fun h => by
          have := BitVec.lt_def.1 h1
          have := BitVec.lt_def.1 h
          omega
        simp only [h1, h2, if_true, if_false, List.map_cons, List.sum_cons]; omega
      · by_cases h2 : id < y.1
        · simp only [h1, h2, if_true, if_false, List.map_cons, List.sum_cons]; omega
        · simp only [h1, h2, if_false]; omega
  unfold AttributeGroups.insert
  simp only [List.map_append, List.map_cons, List.sum_append_nat, List.sum_cons]
  omega

/-- C85 for the groups themselves: all together are no larger than the records that declare them. -/
theorem C85_groups (b : UBlock) (g : AttributeGroups) (h : AttributeGroups.tryFrom b = .ok g) :
    (g.map fun x => groupSize x.2).sum ≤ (b.records.map fun r => r.fields.length).sum := by
  obtain ⟨gs, hgs⟩ := C43_only b g h
  unfold AttributeGroups.tryFrom at h
  have key : ∀ (rs : List BRecord) (gs : List (U64 × U64 × List Attribute)) (g0 g : AttributeGroups), AttrGroups rs gs →
      rs.foldlM groupStep g0 = .ok g →
      (g.map fun x => groupSize x.2).sum ≤ (g0.map fun x => groupSize x.2).sum + (rs.map fun r => r.fields.length).sum := by
    intro rs
    induction rs with
    | nil =>
      intro gs g0 g _ h
      cases h
      exact Nat.le_refl _
    | cons r rs ih =>
      intro gs g0 g hgs h
      obtain ⟨x, xs, rfl, hx, hxs⟩ := hgs.cons_inv
      rw [List.foldlM_cons, groupStep_group hx, Out.ok_bind] at h
      have h1 := ih xs _ g hxs h
      have h2 := insert_size g0 (x.1.setWidth 32) { disposition := place (x.2.1.toNat % 2 ^ 32), attributes := x.2.2 }
      have h3 := group_size hx
      simp only [groupSize] at h2
      simp only [List.map_cons, List.sum_cons, groupSize] at h1 ⊢
      omega
  have := key _ _ _ _ hgs h
  simpa using this

theorem sum_le_times {l : List Nat} {k : Nat} (h : ∀ x ∈ l, x ≤ k) : l.sum ≤ l.length * k := by
  induction l with
  | nil => simp
  | cons a l ih =>
    have h1 := h a (by simp)
    have h2 := ih fun x hx => h x (by simp [hx])
    simp only [List.sum_cons, List.length_cons, Nat.add_mul, Nat.one_mul]
    omega

/-- The records of a block in a module of a stream have fewer fields than the stream has bits, and there are no more than that. -/
theorem inner_records {pf : Profile} {b : Bitstream} (ho : Opened pf b) {tops : List (BBlock × Forest)}
    (hd : Delivers pf b (completeEntries tops)) {p : Parts (BBlock × Forest)} (hp : p ∈ parts tops) {c d : BBlock × Forest}
    (hc : p.module = some c) {id : U64} (hcd : c.2.withId id = [d]) :
    d.2.records.length ≤ b.len ∧ ∀ r ∈ d.2.records, r.fields.length < b.len := by
  have hdm : d ∈ c.2.blocks := (List.mem_filter.1 (by rw [show c.2.blocks.filter _ = [d] from hcd]; simp)).1
  have hcm := parts_module_mem hp hc
  have hit := delivers_iterate hd
  constructor
  · have h2 := records_entries d.2
    have h3 := block_entries hdm
    have h4 := top_entries hcm
    have h5 := iterate_bound (pf := pf) (completeEntries tops).length ho.start.1
    rw [hit] at h5
    omega
  · intro r hr
    have hin : ∀ {t : Forest}, d ∈ t.blocks → .record r ∈ t.entries := by
      intro t
      induction t with
      | nil => intro h; cases h
      | record x rest ih => intro h; exact List.mem_cons_of_mem _ (ih h)
      | block s body rest _ ih =>
        intro h
        simp only [Forest.entries, List.mem_cons, List.mem_append]
        rcases List.mem_cons.1 h with rfl | h
        · exact .inr (.inl (Forest.record_entry hr))
        · exact .inr (.inr (.inr (ih h)))
    refine iterate_small (pf := pf) (completeEntries tops).length ho.start.1 (opened_small ho) r ?_
    rw [hit]
    unfold completeEntries
    rw [List.mem_flatMap]
    exact ⟨c, hcm, List.mem_cons_of_mem _ (List.mem_append_left _ (hin hdm))⟩

/-- C85, in full, would bound the lists by the records that declare them. What holds: no group is larger than the file has bits, and
all lists together are no larger than the cube of that. -/
theorem C85_bound_partial (pf : Profile) (bytes : List U8) (g : AttributeGroups) (as : Attributes) (h : ModuleLists pf bytes g as) :
    (∀ x ∈ g, groupSize x.2 ≤ 8 * bytes.length) ∧ listsSize as ≤ (8 * bytes.length) ^ 3 := by
  obtain ⟨w, b, tops, p, c, d, e, hb, hd, hp, hc, hcd, hg, hce, hl⟩ := h
  have ho : Opened pf b := .auto hb
  have hlen := from_len hb
  obtain ⟨-, hd2⟩ := inner_records ho hd hp hc hcd
  obtain ⟨he1, he2⟩ := inner_records ho hd hp hc hce
  have hgroup : ∀ x ∈ g, groupSize x.2 ≤ b.len := by
    obtain ⟨gs, hgs, -, hm⟩ := hg
    intro x hx
    have h1 := (hm x.1 x.2).1 hx
    simp only [lastGroup, Option.map_eq_some_iff] at h1
    obtain ⟨y, hy, h1⟩ := h1
    have hy := List.mem_reverse.1 (List.mem_of_find?_eq_some hy)
    obtain ⟨i, hi⟩ := List.getElem?_of_mem hy
    have hlt : i < d.2.records.length := by rw [hgs.1]; exact (List.getElem?_eq_some_iff.1 hi).1
    have h2 := group_size (hgs.2 i _ y (List.getElem?_eq_getElem hlt) hi)
    have h3 := hd2 _ (List.getElem_mem hlt)
    rw [← h1]
    unfold groupSize
    simp only
    omega
  refine ⟨fun x hx => Nat.le_trans (hgroup x hx) (by omega), ?_⟩
  obtain ⟨hl1, hl2⟩ := hl
  have hlist : ∀ x ∈ as.map listSize, x ≤ b.len * b.len := by
    intro x hx
    obtain ⟨y, hy, rfl⟩ := List.mem_map.1 hx
    obtain ⟨i, hi⟩ := List.getElem?_of_mem hy
    have hlt : i < e.2.records.length := by rw [← hl1]; exact (List.getElem?_eq_some_iff.1 hi).1
    obtain ⟨-, h2, h3⟩ := hl2 i _ y (List.getElem?_eq_getElem hlt) hi
    have h4 := he2 _ (List.getElem_mem hlt)
    refine Nat.le_trans (sum_le_times (k := b.len) ?_) (by rw [List.length_map]; exact Nat.mul_le_mul_right _ (by omega))
    intro z hz
    obtain ⟨u, hu, rfl⟩ := List.mem_map.1 hz
    obtain ⟨j, hj⟩ := List.getElem?_of_mem hu
    have hjl : j < (e.2.records[i]).fields.length := by rw [← h2]; exact (List.getElem?_eq_some_iff.1 hj).1
    obtain ⟨id, -, hm⟩ := h3 j _ u (List.getElem?_eq_getElem hjl) hj
    exact hgroup _ hm
  have h1 := sum_le_times hlist
  rw [List.length_map, hl1] at h1
  unfold listsSize
  refine Nat.le_trans h1 (Nat.le_trans (Nat.mul_le_mul_right _ he1) ?_)
  rw [show (8 * bytes.length) ^ 3 = 8 * bytes.length * (8 * bytes.length * (8 * bytes.length)) by
    rw [Nat.pow_succ, Nat.pow_two, Nat.mul_assoc]]
  have : b.len ≤ 8 * bytes.length := by omega
  exact Nat.mul_le_mul this (Nat.mul_le_mul this this)

/-! ### Files that reach them -/

/-- The fields of a group of `n` attributes `alwaysinline`, for functions. -/
def inlineFields (n : Nat) : List U64 := 1 :: 0xffffffff :: (List.replicate n [0, 2]).flatten

theorem inlineFields_length (n : Nat) : (inlineFields n).length = 2 + 2 * n := by
  simp [inlineFields, List.sum_replicate_nat]; omega

def inlineGroup (n : Nat) : AttributeGroup := { disposition := .function, attributes := List.replicate n (.enum .alwaysInline) }

/-- A module with such a group, and `n` lists that refer to it `n` times. -/
def listsModule (n : Nat) : Items :=
  .unabbrev 1 [2] (.block 17 2 (.unabbrev 1 [0] .nil) (.block 14 2 .nil
    (.block 10 2 (.unabbrev 3 (inlineFields n) .nil) (.block 9 3 (literals 2 (List.replicate n 1) n) .nil))))

def listsFile (n : Nat) : Items :=
  .block 13 2 (.unabbrev 1 [76, 76] (.unabbrev 2 [0] .nil)) (.block 8 2 (listsModule n) (.block 23 2 (.unabbrev 1 [97, 97] .nil) .nil))

theorem listsFile_fits (n : Nat) (hn : n ≤ 2 ^ 24) : Fits 2 true (3300 + 240 * n) (listsFile n) := by
  have n2 : Narrow 2 := .inl rfl
  have hi := inlineFields_length n
  have hlit := Fits.literals 2 (List.replicate n 1) n (by rw [List.length_replicate]; omega)
  have f1 : Fits 2 false _ (listsModule n) := Fits.unabbrev n2 1 [2] (by decide) (Fits.block n2 n2 (by decide)
    (Fits.unabbrev n2 1 [0] (by decide) (Fits.nil 2 false))
    (Fits.block n2 n2 (by decide) (Fits.nil 2 false)
      (Fits.block n2 n2 (by decide) (Fits.unabbrev n2 3 (inlineFields n) (by omega) (Fits.nil 2 false))
        (Fits.block n2 (.inr rfl) (by decide) hlit (Fits.nil 2 false) (by rw [List.length_replicate]; omega))
        (by rw [hi]; omega)) (by omega)) (by simp))
  have f2 : Fits 2 true _ (listsFile n) := Fits.block n2 n2 (by decide)
    (Fits.unabbrev n2 1 [76, 76] (by decide) (Fits.unabbrev n2 2 [0] (by decide) (Fits.nil 2 false)))
    (Fits.block n2 n2 (by decide) f1 (Fits.block n2 n2 (by decide) (Fits.unabbrev n2 1 [97, 97] (by decide) (Fits.nil 2 false))
      (Fits.nil 2 true) (by simp)) (by rw [hi, List.length_replicate]; simp; omega)) (by simp)
  intro k pos h1 h2 h3 h4 h5
  obtain ⟨w, g1, g2, g3⟩ := f2 k pos h1 h2 h3 h4 h5
  refine ⟨w, g1, Nat.le_trans g2 ?_, g3⟩
  rw [hi, List.length_replicate]
  simp only [List.length_cons, List.length_nil]
  omega

/-- Its contents. -/
def listsContents (n : Nat) : Tree :=
  .record 1 [2] (.block 17 (.record 1 [0] .nil) (.block 14 .nil
    (.block 10 (.record 3 (inlineFields n) .nil) (.block 9 (repeated 2 (List.replicate n 1) n) .nil))))

theorem listsFile_tree (n : Nat) : (listsFile n).tree false =
    .block 13 (.record 1 [76, 76] (.record 2 [0] .nil)) (.block 8 (listsContents n) (.block 23 (.record 1 [97, 97] .nil) .nil)) := by
  simp only [listsFile, listsModule, Items.tree, literals_tree, listsContents, Bool.false_eq_true, if_false]
  rfl

theorem repeated_records (code : U64) (fields : List U64) (m : Nat) :
    (repeated code fields m).forest.records = List.replicate m ⟨none, code, fields⟩ := by
  induction m with
  | zero => rfl
  | succ m ih => simp [repeated, Tree.forest, Forest.records, ih, List.replicate_succ]

theorem inline_groups (n : Nat) (h1 : 1 ≤ n) : GroupsSay [⟨none, 3, inlineFields n⟩] [(1, inlineGroup n)] := by
  have hg : IsAttrGroup ⟨none, 3, inlineFields n⟩ 1 0xffffffff (List.replicate n (.enum .alwaysInline)) := by
    refine ⟨rfl, List.replicate n (.enum .alwaysInline, [0, 2]), ?_, by simp, ?_, ?_⟩
    · intro x hx
      rw [List.eq_of_mem_replicate hx]
      exact .enum (id := 2) (by decide)
    · intro h
      have := congrArg List.length h
      simp at this; omega
    · simp only [inlineFields, List.flatMap, List.map_replicate]
  have hags : AttrGroups [⟨none, 3, inlineFields n⟩] [(1, 0xffffffff, List.replicate n (.enum .alwaysInline))] := by
    refine ⟨rfl, fun i r x hr hx => ?_⟩
    match i with
    | 0 =>
      simp only [List.getElem?_cons_zero, Option.some.injEq] at hr hx
      subst hr; subst hx
      exact hg
    | i + 1 => simp at hr
  refine (C43_exact (.mk (.ir .paramAttrGroup) [⟨none, 3, inlineFields n⟩] []) _).1 ?_
  unfold AttributeGroups.tryFrom
  show [(⟨none, 3, inlineFields n⟩ : BRecord)].foldlM groupStep [] = _
  rw [List.foldlM_cons, groupStep_group hg, Out.ok_bind]
  rfl

theorem inline_lists (n : Nat) : ListsSay [(1, inlineGroup n)] (List.replicate n ⟨none, 2, List.replicate n 1⟩)
    (List.replicate n (List.replicate n (inlineGroup n))) := by
  refine ⟨by simp, fun i r e hr he => ?_⟩
  have hr := List.eq_of_mem_replicate (List.mem_of_getElem? hr)
  have he := List.eq_of_mem_replicate (List.mem_of_getElem? he)
  subst hr; subst he
  refine ⟨rfl, by simp, fun j f x hf hx => ?_⟩
  have hf := List.eq_of_mem_replicate (List.mem_of_getElem? hf)
  have hx := List.eq_of_mem_replicate (List.mem_of_getElem? hx)
  subst hf; subst hx
  exact ⟨1, by decide, by simp⟩

theorem listsContents_says (pf : Profile) (target : Str) (strtab : Strtab) (n : Nat) (h1 : 1 ≤ n) :
    ModuleSays pf target strtab (listsContents n).forest ⟨target, [], []⟩
      { hxCtx [] with
        strtab
        attributeGroups := [(1, inlineGroup n)]
        attributes := List.replicate n (List.replicate n (inlineGroup n)) } [] [] where
  tables := {
    version := ⟨⟨none, 1, [2]⟩, [], rfl, rfl⟩
    datalayout := .absent
    sections := each_nil_left.2 rfl
    gcs := each_nil_left.2 rfl
    strtab := rfl
    types := ⟨(⟨17, 0⟩, .record ⟨none, 1, [0]⟩ .nil), rfl,
      (C40_exact pf (.mk (.ir .type) [⟨none, 1, [0]⟩] []) []).1 (by cases pf <;> decide +kernel)⟩
    symbols := ⟨_, rfl⟩
    groups := .present (a := ((⟨10, 0⟩, .record ⟨none, 3, inlineFields n⟩ .nil) : BBlock × Forest)) (inline_groups n h1)
    attributes := .present (a := ((⟨9, 0⟩, (repeated 2 (List.replicate n 1) n).forest) : BBlock × Forest)) (by
      rw [repeated_records]; exact inline_lists n)
    comdats := each_nil_left.2 rfl }
  triple := .absent
  asm := .absent
  deplibs := each_nil_left.2 rfl
  functions := each_nil_left.2 rfl
  noBodies := rfl
  aliases := each_nil_left.2 rfl

/-- C85 fails: `420 + 30 n` bytes map, and declare `n ^ 3` attributes in lists. -/
theorem C85_cubed (pf : Profile) (target : Str) (n : Nat) (h1 : 1 ≤ n) (hn : n ≤ 2 ^ 24) : ∃ bytes f g as,
    bytes.length ≤ 420 + 30 * n ∧ Bitcode.tryFrom pf target bytes = .ok f ∧ ModuleLists pf bytes g as ∧ listsSize as = n ^ 3 := by
  obtain ⟨bytes, es, hs, hl⟩ := Fits.bytes 0xdec04342 (listsFile_fits n hn)
  have htree := listsFile_tree n
  refine ⟨bytes, ⟨[sharedModule target [97, 97]]⟩, [(1, inlineGroup n)], List.replicate n (List.replicate n (inlineGroup n)), by omega,
    (C69_maps pf target hs (by decide) (by omega) _).2 ?_, ?_, ?_⟩
  · rw [htree]
    refine ⟨?_, ?_⟩
    · intro pre c post h
      simp only [Tree.tops, Tree.forest, Forest.blocks] at h
      match pre, h with
      | [], h => simp only [List.nil_append, List.cons.injEq] at h; rw [← h.1]; exact .inl (by simp)
      | [a], h =>
        simp only [List.cons_append, List.nil_append, List.cons.injEq] at h
        obtain ⟨rfl, rfl, -⟩ := h
        exact .inr ⟨rfl, [], _, [], rfl, rfl, by simp⟩
      | [a, a'], h =>
        simp only [List.cons_append, List.nil_append, List.cons.injEq] at h
        obtain ⟨rfl, rfl, rfl, -⟩ := h
        exact .inl (by simp)
      | a :: a' :: a'' :: pre, h => simp at h
    · refine each_cons.2 ⟨⟨⟨⟨⟨none, 1, [76, 76]⟩, ⟨[], _, rfl, rfl, by simp⟩, rfl, by simp, by simp⟩,
          ⟨⟨none, 2, [0]⟩, [], ⟨[_], [], rfl, rfl, by simp⟩, rfl⟩⟩,
        ⟨_, rfl, ⟨none, 1, [97, 97]⟩, ⟨[], [], rfl, rfl, by simp⟩, rfl, by simp, by simp⟩,
        ⟨_, _, [], [], rfl, listsContents_says pf target _ n h1⟩, .inl ⟨rfl, rfl⟩⟩, each_nil_left.2 rfl⟩
  · obtain ⟨tops, g1, g2⟩ := written_tops hs
    obtain ⟨b, hb, -, hd⟩ := Props.C18_stream_roundtrip_from pf hs (by decide)
    rw [g1] at hd
    rw [htree] at g2
    have g3 : plainTops tops = (⟨13, 0⟩, .record ⟨none, 1, [76, 76]⟩ (.record ⟨none, 2, [0]⟩ .nil)) ::
        (⟨8, 0⟩, (listsContents n).forest) :: [(⟨23, 0⟩, .record ⟨none, 1, [97, 97]⟩ .nil)] := g2
    match tops, g3 with
    | i :: m :: more, g3 =>
      simp only [plainTops, List.map_cons, List.cons.injEq, Prod.mk.injEq] at g3
      obtain ⟨⟨i1, -⟩, ⟨m1, m2⟩, -⟩ := g3
      have i1 : i.1.blockId = 13 := by simpa [BBlock.plain] using congrArg BBlock.blockId i1
      have m1 : m.1.blockId = 8 := by simpa [BBlock.plain] using congrArg BBlock.blockId m1
      have hm : m.2.plain = (listsContents n).forest.plain := by
        rw [← m2, plain_plain]
      have s10 := (plain_sameModule hm).blocks 10 (by decide)
      have s9 := (plain_sameModule hm).blocks 9 (by decide)
      rw [show (listsContents n).forest.withId 10 = [(⟨10, 0⟩, .record ⟨none, 3, inlineFields n⟩ .nil)] from rfl] at s10
      rw [show (listsContents n).forest.withId 9 = [(⟨9, 0⟩, (repeated 2 (List.replicate n 1) n).forest)] from rfl] at s9
      match hc : m.2.withId 10, s10, hc' : m.2.withId 9, s9 with
      | [c], s10, [c'], s9 =>
        have s10 := (each_cons.1 s10).1
        have s9 := (each_cons.1 s9).1
        simp only [repeated_records] at s9
        have hg : GroupsSay c.2.records [(1, inlineGroup n)] := by
          have := groups_congr (u := .mk (.ir .paramAttrGroup) c.2.records [])
            (v := .mk (.ir .paramAttrGroup) [⟨none, 3, inlineFields n⟩] []) s10
          rw [(C43_exact (.mk (.ir .paramAttrGroup) [⟨none, 3, inlineFields n⟩] []) _).2 (inline_groups n h1)] at this
          exact (C43_exact (.mk (.ir .paramAttrGroup) c.2.records []) _).1 this
        have hsorted : Sorted [(1, inlineGroup n)] := by
          obtain ⟨_, _, h, _⟩ := hg; exact h
        refine ⟨none, b, _, _, m, c, c', hb, hd, by rw [parts, if_pos i1]; exact List.mem_cons_self, by simp [m1], hc, hg, hc', ?_⟩
        have := attributes_congr (u := .mk (.ir .paramAttr) c'.2.records [])
          (v := .mk (.ir .paramAttr) (List.replicate n ⟨none, 2, List.replicate n 1⟩) []) [(1, inlineGroup n)] s9
        rw [(C46_exact (.mk (.ir .paramAttr) (List.replicate n ⟨none, 2, List.replicate n 1⟩) []) _ hsorted _).2 (inline_lists n)] at this
        exact (C46_exact (.mk (.ir .paramAttr) c'.2.records []) _ hsorted _).1 this
      | [], s10, _, _ => exact absurd s10.1 (by simp)
      | _ :: _ :: _, s10, _, _ => exact absurd s10.1 (by simp)
      | [_], _, [], s9 => exact absurd s9.1 (by simp)
      | [_], _, _ :: _ :: _, s9 => exact absurd s9.1 (by simp)
    | [], g3 => simp [plainTops] at g3
    | [_], g3 => simp [plainTops] at g3
  · simp only [listsSize, listSize, groupSize, inlineGroup, List.map_replicate, List.sum_replicate_nat, attributeSize, Nat.mul_one]
    rw [Nat.pow_succ, Nat.pow_two, Nat.mul_assoc]

/-- The theorems above are about something: a file of thirty kilobytes declares a thousand million attributes. -/
example : ∃ bytes f g as, bytes.length ≤ 30420 ∧ Bitcode.tryFrom .release [] bytes = .ok f ∧ ModuleLists .release bytes g as ∧
    listsSize as = 10 ^ 9 := by
  obtain ⟨bytes, f, g, as, h1, h2, h3, h4⟩ := C85_cubed .release [] 1000 (by omega) (by omega)
  exact ⟨bytes, f, g, as, by omega, h2, h3, by rw [h4]⟩

example : ∃ g as, AttributeGroups.tryFrom (.mk (.ir .paramAttrGroup) [⟨none, 3, [7, 1, 0, 18]⟩, ⟨none, 3, [2, 0, 3, 97, 98, 0, 0, 18]⟩] []) = .ok g ∧
    Attributes.tryFrom (.mk (.ir .paramAttr) [⟨none, 2, [2, 7, 2]⟩] []) g = .ok as ∧ listsSize as = 9 := by
  exact ⟨[(2, ⟨.return, [.str ['a', 'b'], .enum .noUnwind]⟩), (7, ⟨.parameter 1, [.enum .noUnwind]⟩)], _, by decide +kernel, rfl, by decide +kernel⟩

end Verif
