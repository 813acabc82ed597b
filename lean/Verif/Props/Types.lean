import Verif.Mapper.TypeRecords

/-! C39-C42: types and the type table. -/

namespace Verif
open Spec

/-! ## C39 -/

/-- C39. Each constructor, given types that are valid at every depth, accepts exactly the arguments that make a valid type,
and then makes that type. -/
theorem C39_constructors (t : Ty) :
    (∀ w, Ty.newInteger w = .ok t ↔ t = .integer w ∧ Valid t) ∧
    (∀ p a, Valid p → (Ty.newPointer p a = .ok t ↔ t = .pointer p a ∧ Valid t)) ∧
    (∀ n e, Valid e → (Ty.newArray n e = .ok t ↔ t = .array n e ∧ Valid t)) ∧
    (∀ n e, Valid e → (Ty.newVector n e = .ok t ↔ t = .fixedVector n e ∧ Valid t)) ∧
    (∀ n e, Valid e → (Ty.newScalableVector n e = .ok t ↔ t = .scalableVector n e ∧ Valid t)) ∧
    (∀ nm fs p, (∀ f ∈ fs, Valid f) → (Ty.newStruct nm fs p = .ok t ↔ t = .struct nm fs p ∧ Valid t)) ∧
    (∀ r ps v, Valid r → (∀ p ∈ ps, Valid p) → (Ty.newFunction r ps v = .ok t ↔ t = .function r ps v ∧ Valid t)) := by
  refine ⟨fun w => ?_, fun p a hp => ?_, fun n e he => ?_, fun n e he => ?_, fun n e he => ?_, fun nm fs p hf => ?_,
    fun r ps v hr hps => ?_⟩
  · rw [newInteger_eq_ok]
    refine and_congr_right fun h => ?_
    subst h; exact ⟨fun ⟨h1, h2⟩ => .integer h1 h2, fun h => by cases h; exact ⟨by assumption, by assumption⟩⟩
  · rw [newPointer_eq_ok]
    refine and_congr_right fun h => ?_
    subst h; exact ⟨fun h => .pointer hp h, fun h => by cases h; assumption⟩
  · rw [newArray_eq_ok]
    refine and_congr_right fun h => ?_
    subst h; exact ⟨fun h => .array he h, fun h => by cases h; assumption⟩
  · rw [newVector_eq_ok]
    refine and_congr_right fun h => ?_
    subst h; exact ⟨fun h => .fixedVector he h, fun h => by cases h; assumption⟩
  · rw [newScalableVector_eq_ok]
    refine and_congr_right fun h => ?_
    subst h; exact ⟨fun h => .scalableVector he h, fun h => by cases h; assumption⟩
  · rw [newStruct_eq_ok]
    refine and_congr_right fun h => ?_
    subst h; exact ⟨fun h => .struct hf h, fun h => by cases h; assumption⟩
  · rw [newFunction_eq_ok]
    refine and_congr_right fun h => ?_
    subst h; exact ⟨fun ⟨h1, h2⟩ => .function hr h1 hps h2, fun h => by cases h; exact ⟨by assumption, by assumption⟩⟩

/-- The types a program can obtain: the variants without private contents, and what the constructors return. -/
inductive Spec.Obtainable : Ty → Prop
  | prim (p : Prim) : Obtainable (.prim p)
  | opaquePointer (a : AddressSpace) : Obtainable (.opaquePointer a)
  | integer {w : U32} {t : Ty} : Ty.newInteger w = .ok t → Obtainable t
  | pointer {p : Ty} {a : AddressSpace} {t : Ty} : Obtainable p → Ty.newPointer p a = .ok t → Obtainable t
  | array {n : U64} {e t : Ty} : Obtainable e → Ty.newArray n e = .ok t → Obtainable t
  | vector {n : U64} {e t : Ty} : Obtainable e → Ty.newVector n e = .ok t → Obtainable t
  | scalableVector {n : U64} {e t : Ty} : Obtainable e → Ty.newScalableVector n e = .ok t → Obtainable t
  | struct {nm : Option Str} {fs : List Ty} {p : Bool} {t : Ty} : (∀ f ∈ fs, Obtainable f) →
      Ty.newStruct nm fs p = .ok t → Obtainable t
  | function {r : Ty} {ps : List Ty} {v : Bool} {t : Ty} : Obtainable r → (∀ p ∈ ps, Obtainable p) →
      Ty.newFunction r ps v = .ok t → Obtainable t

/-- C39. What can be obtained are exactly the types valid at every depth. -/
theorem C39_obtainable (t : Ty) : Obtainable t ↔ Valid t := by
  constructor
  · intro h
    induction h with
    | prim p => exact .prim p
    | opaquePointer a => exact .opaquePointer a
    | integer h => exact (((C39_constructors _).1 _).1 h).2
    | pointer _ h ih => exact (((C39_constructors _).2.1 _ _ ih).1 h).2
    | array _ h ih => exact (((C39_constructors _).2.2.1 _ _ ih).1 h).2
    | vector _ h ih => exact (((C39_constructors _).2.2.2.1 _ _ ih).1 h).2
    | scalableVector _ h ih => exact (((C39_constructors _).2.2.2.2.1 _ _ ih).1 h).2
    | struct _ h ih => exact (((C39_constructors _).2.2.2.2.2.1 _ _ _ ih).1 h).2
    | function _ _ h ih1 ih2 => exact (((C39_constructors _).2.2.2.2.2.2 _ _ _ ih1 ih2).1 h).2
  · intro h
    induction h with
    | prim p => exact .prim p
    | opaquePointer a => exact .opaquePointer a
    | integer h1 h2 => exact .integer ((newInteger_eq_ok ..).2 ⟨rfl, h1, h2⟩)
    | pointer _ h ih => exact .pointer ih ((newPointer_eq_ok ..).2 ⟨rfl, h⟩)
    | array _ h ih => exact .array ih ((newArray_eq_ok ..).2 ⟨rfl, h⟩)
    | fixedVector _ h ih => exact .vector ih ((newVector_eq_ok ..).2 ⟨rfl, h⟩)
    | scalableVector _ h ih => exact .scalableVector ih ((newScalableVector_eq_ok ..).2 ⟨rfl, h⟩)
    | struct _ h ih => exact .struct ih ((newStruct_eq_ok ..).2 ⟨rfl, h⟩)
    | function _ h1 _ h2 ih1 ih2 => exact .function ih1 ih2 ((newFunction_eq_ok ..).2 ⟨rfl, h1, h2⟩)

/-- C39. Every type of every type table that maps is valid at every depth. -/
theorem C39_table (pf : Profile) (b : UBlock) (ts : TypeTable) (h : TypeTable.tryFrom pf b = .ok ts) : ∀ t ∈ ts, Valid t := by
  intro t ht
  unfold TypeTable.tryFrom at h
  simp only [Out.bind_eq_ok] at h
  obtain ⟨r, -, n, -, -, -, s, -, h⟩ := h
  obtain ⟨i, hi⟩ := List.mem_iff_getElem?.1 ht
  exact (((reifyTypes_eq_ok _ _).1 h).2.2 i t hi).2

/-- C39. The constructors never panic; a rejection names the offending part. -/
theorem C39_rejections :
    (∀ w, (Ty.newInteger w).Returns) ∧
    (∀ p a, (Ty.newPointer p a).Returns ∧ ∀ e, Ty.newPointer p a = .err e → e = .pointerBadPointee p) ∧
    (∀ n t, (Ty.newArray n t).Returns ∧ ∀ e, Ty.newArray n t = .err e → e = .arrayBadElement t) ∧
    (∀ n t, (Ty.newVector n t).Returns ∧ ∀ e, Ty.newVector n t = .err e → e = .vectorBadElement t) ∧
    (∀ n t, (Ty.newScalableVector n t).Returns ∧ ∀ e, Ty.newScalableVector n t = .err e → e = .vectorBadElement t) ∧
    (∀ nm fs p, (Ty.newStruct nm fs p).Returns ∧
      ∀ e, Ty.newStruct nm fs p = .err e → ∃ f ∈ fs, ¬ OkStructElement f ∧ e = .structBadElement f) ∧
    (∀ r ps v, (Ty.newFunction r ps v).Returns ∧
      ∀ e, Ty.newFunction r ps v = .err e → (¬ OkReturn r ∧ e = .functionBadReturn r) ∨
        OkReturn r ∧ ∃ p ∈ ps, ¬ OkArgument p ∧ e = .functionBadParameter p) := by
  refine ⟨newInteger_returns, fun p a => ⟨newPointer_returns p a, ?_⟩, fun n t => ⟨newArray_returns n t, ?_⟩,
    fun n t => ⟨newVector_returns n t, ?_⟩, fun n t => ⟨newScalableVector_returns n t, ?_⟩,
    fun nm fs p => ⟨newStruct_returns nm fs p, ?_⟩, fun r ps v => ⟨newFunction_returns r ps v, ?_⟩⟩
  · unfold Ty.newPointer; split <;> simp [eq_comm]
  · unfold Ty.newArray; split <;> simp [eq_comm]
  · unfold Ty.newVector; split <;> simp [eq_comm]
  · unfold Ty.newScalableVector; split <;> simp [eq_comm]
  · unfold Ty.newStruct
    split
    · next bad h =>
      intro e he
      refine ⟨bad, List.mem_of_find?_eq_some h, ?_, by simpa [eq_comm] using he⟩
      have := List.find?_some h
      rw [← isStructElement_iff]; simpa using this
    · simp
  · unfold Ty.newFunction
    split
    · next h =>
      intro e he
      refine .inl ⟨?_, by simpa [eq_comm] using he⟩
      rw [← isReturn_iff]; simpa using h
    · next hr =>
      have hr : OkReturn r := (isReturn_iff r).1 (by simpa using hr)
      split
      · next bad h =>
        intro e he
        refine .inr ⟨hr, bad, List.mem_of_find?_eq_some h, ?_, by simpa [eq_comm] using he⟩
        have := List.find?_some h
        rw [← isArgument_iff]; simpa using this
      · simp

/-- C39. The width in bytes of an integer type is the least number of bytes that hold its bits. -/
theorem C39_byte_width (w : U32) (h : Valid (.integer w)) :
    w.toNat ≤ 8 * (Ty.byteWidth w).toNat ∧ 8 * (Ty.byteWidth w).toNat < w.toNat + 8 := by
  cases h with
  | integer h1 h2 =>
    have h7 : (7 : U32).toNat = 7 := rfl
    have h8 : (8 : U32).toNat = 8 := rfl
    have : (w + 7).toNat = w.toNat + 7 := by
      rw [BitVec.toNat_add, h7]; exact Nat.mod_eq_of_lt (by omega)
    unfold Ty.byteWidth
    rw [BitVec.toNat_udiv, this, h8]
    omega

/-- Where the rules differ from LLVM's: a vector of opaque pointers, which LLVM allows, is always rejected. -/
theorem C39_opaque_pointer_vector (n : U64) (a : AddressSpace) (t : Ty) :
    Ty.newVector n (.opaquePointer a) ≠ .ok t ∧ Ty.newScalableVector n (.opaquePointer a) ≠ .ok t := by
  rw [Ne, newVector_eq_ok, Ne, newScalableVector_eq_ok]
  simp [OkVectorElement, IsFloat, IsInteger, IsTypedPointer]

/-- A structure `{ [4 x i32], void ()* }`, and the same with `void` for a field. -/
example :
    Valid (.struct none [.array 4 (.integer 32), .pointer (.function (.prim .void) [] false) ⟨0⟩] false) ∧
    ¬ Valid (.struct none [.array 4 (.integer 32), .prim .void] false) := by
  constructor
  · rw [← C39_obtainable]
    refine .struct (fs := [.array 4 (.integer 32), .pointer (.function (.prim .void) [] false) ⟨0⟩]) (nm := none) (p := false)
      ?_ (by decide)
    intro f hf
    simp only [List.mem_cons, List.not_mem_nil, or_false] at hf
    rcases hf with rfl | rfl
    · exact .array (e := .integer 32) (n := 4) (.integer (w := 32) (by decide)) (by decide)
    · exact .pointer (p := .function (.prim .void) [] false) (a := ⟨0⟩)
        (.function (r := .prim .void) (ps := []) (v := false) (.prim _) (by simp) (by decide)) (by decide)
  · intro h
    cases h with
    | struct _ h => exact (h (.prim .void) (by simp)).1 .void (by simp) rfl

/-! ## C40 -/

/-- C40, for listings without a named structure directly after a structure (see C42), with name records of two bytes or more and
integer widths below `2 ^ 32`, and counts for which memory can be reserved: a block maps exactly if it declares the right
count and each entry stands for a valid type, and then the `i`-th type is the one the `i`-th entry stands for. -/
theorem C40_faithful_partial (pf : Profile) (b : UBlock) (n : U64) (ds : List TyDecl) (hc : DeclaresCount b n)
    (hn : n.toNat < 2 ^ 57) (h : Lists [] b.records ds) (hr : Regular ds) (ts : TypeTable) :
    TypeTable.tryFrom pf b = .ok ts ↔
      ds.length = n.toNat ∧ ts.length = ds.length ∧ ∀ i t, ts[i]? = some t → Denotes ds i t ∧ Valid t := by
  obtain ⟨table, h1, rfl⟩ := tryFrom_lists pf b hc hn h hr
  rw [h1, reifyTypes_eq_ok, List.length_map]
  constructor
  · rintro ⟨h1, h2, h3⟩; exact ⟨h1, by omega, h3⟩
  · rintro ⟨h1, h2, h3⟩; exact ⟨h1, by omega, h3⟩

/-- C40. A wrong count is an error that names both numbers. -/
theorem C40_count (pf : Profile) (b : UBlock) (n : U64) (ds : List TyDecl) (hc : DeclaresCount b n) (hn : n.toNat < 2 ^ 57)
    (h : Lists [] b.records ds) (hr : Regular ds) (hne : ds.length ≠ n.toNat) :
    TypeTable.tryFrom pf b = .err (.badSize n.toNat ds.length) := by
  obtain ⟨table, h1, rfl⟩ := tryFrom_lists pf b hc hn h hr
  rw [List.length_map] at hne ⊢
  rw [h1, reifyTypes, if_pos hne]

/-- C40. If no references run in a circle, a reference past the end is an error. -/
theorem C40_dangling (pf : Profile) (b : UBlock) (n : U64) (ds : List TyDecl) (hc : DeclaresCount b n) (hn : n.toNat < 2 ^ 57)
    (h : Lists [] b.records ds) (hr : Regular ds) (ha : Acyclic ds) (i j : Nat) (d : TyDecl) (hi : ds[i]? = some d)
    (hj : j ∈ d.refs) (hd : ds.length ≤ j) : ∃ e, TypeTable.tryFrom pf b = .err e := by
  have hret : (TypeTable.tryFrom pf b).Returns := by
    obtain ⟨table, h1, rfl⟩ := tryFrom_lists pf b hc hn h hr
    rw [h1]; exact reifyTypes_returns _ ha
  cases hx : TypeTable.tryFrom pf b with
  | err e => exact ⟨e, rfl⟩
  | ok ts =>
    obtain ⟨h1, h2, h3⟩ := (C40_faithful_partial pf b n ds hc hn h hr ts).1 hx
    have hlt : i < ts.length := by rw [h2]; exact (List.getElem?_eq_some_iff.1 hi).1
    obtain ⟨u, hu, -⟩ := (h3 i _ (List.getElem?_eq_getElem hlt)).1.sub hi hj
    have := List.getElem?_eq_none hd
    cases hu <;> simp_all
  | panic p => rw [hx] at hret; exact hret.elim
  | diverge => rw [hx] at hret; exact hret.elim

/-- C40. A block that maps consists of records of the format: no unknown codes, no missing fields. (Integer widths of `2 ^ 32`
or more are truncated, and an empty name record counts as an empty name in release builds: both are excluded.) -/
theorem C40_wellformed (pf : Profile) (b : UBlock) (ts : TypeTable) (h : TypeTable.tryFrom pf b = .ok ts)
    (hw : ∀ r ∈ b.records, r.code = 7 → ∀ w rest, r.fields = w :: rest → w.toNat < 2 ^ 32)
    (hne : ∀ r ∈ b.records, r.code = 19 → r.fields ≠ []) :
    (∃ n, DeclaresCount b n) ∧ ∃ ds, Lists [] b.records ds := by
  unfold TypeTable.tryFrom at h
  simp only [Out.bind_eq_ok] at h
  obtain ⟨r, h1, n, h2, -, -, s, h3, -⟩ := h
  have h1 : Records.one b.records 1 = some r := by
    rw [show TypeCode.numEntry.code = 1 from rfl] at h1
    cases hx : Records.one b.records 1 <;> rw [hx] at h1 <;> simp at h1; rw [h1]
  refine ⟨⟨n, r, r.fields.tail, (one_iff ..).1 h1, ?_⟩, lists_of_foldl pf _ _ _ h3 hw hne⟩
  cases hf : r.fields <;> rw [hf] at h2 <;> simp at h2; rw [h2]; rfl

/-- C40. Each entry stands for at most one type, so the table is determined by the records. -/
theorem C40_unique (ds : List TyDecl) (i : Nat) (t u : Ty) (ht : Denotes ds i t) (hu : Denotes ds i u) : t = u :=
  ht.unique hu

/-- C40. A lookup in the table gives the type the entry stands for, if there is such an entry. -/
theorem C40_get (ts : TypeTable) (r : TypeRef) : ts.get r = if h : r.toNat < ts.length then some ts[r.toNat] else none := by
  unfold TypeTable.get
  split
  · next h => exact List.getElem?_eq_getElem h
  · next h => exact List.getElem?_eq_none (by omega)

/-- An integer width is taken modulo `2 ^ 32`: a record for a type of `2 ^ 32 + 8` bits, which is too wide, gives `i8`. -/
theorem C40_truncated_width (pf : Profile) :
    TypeTable.tryFrom pf (UBlock.mk (.ir .type) [⟨none, 1, [1]⟩, ⟨none, 7, [2 ^ 32 + 8]⟩] []) =
      .ok [.integer 8] := by cases pf <;> decide +kernel

/-- A count for which the memory cannot be addressed is a panic, whatever the rest of the block. -/
theorem C40_capacity_panics (pf : Profile) (b : UBlock) (n : U64) (hc : DeclaresCount b n) (hn : 2 ^ 58 ≤ n.toNat) :
    TypeTable.tryFrom pf b = .panic .capacity := by
  rw [tryFrom_eq pf b hc, typeCapacity, partialTypeSize, if_neg (by omega)]; rfl

/-- The records of a table that declares a structure `%pt = type { i32, [3 x %pt2]* }`, referring forward. -/
private def sample : UBlock := UBlock.mk (.ir .type)
  [⟨none, 1, [5]⟩, ⟨none, 19, [0x70, 0x74]⟩, ⟨none, 20, [0, 1, 2]⟩, ⟨none, 7, [32]⟩, ⟨none, 8, [3, 0]⟩, ⟨none, 11, [3, 4]⟩,
   ⟨none, 18, [1]⟩] []

private def sampleDecls : List TyDecl :=
  [.struct (some ['p', 't']) [1, 2] false, .integer 32, .pointer 3 ⟨0⟩, .array 3 4, .struct none [] true]

private theorem sample_lists : Lists [] sample.records sampleDecls := by
  refine .numEntry rfl (.name (s := ['p', 't']) rfl (by decide +kernel) (by decide) ?_)
  refine .named (r := ⟨none, 20, [0, 1, 2]⟩) (p := 0) (fs := [1, 2]) rfl rfl ?_
  refine .single (.integer (w := 32) rfl rfl (by decide)) ?_
  refine .single (.pointer (p := 3) (a := 0) rfl rfl (by decide)) ?_
  refine .single (.array (n := 3) (e := 4) rfl rfl) ?_
  refine .single (.structAnon (p := 1) (fs := []) rfl rfl) ?_
  exact .nil

private theorem sample_regular : Regular sampleDecls := by
  intro pre a b post h ha ⟨n, fs, p, hb⟩
  subst hb
  have hm : TyDecl.struct (some n) fs p ∈ sampleDecls.tail := by
    rw [h]; cases pre <;> simp
  simp [sampleDecls] at hm

example : DeclaresCount sample 5 ∧ Lists [] sample.records sampleDecls ∧ Regular sampleDecls ∧
    ∀ pf, TypeTable.tryFrom pf sample = .ok
      [.struct (some ['p', 't']) [.integer 32, .pointer (.array 3 (.struct none [] true)) ⟨0⟩] false, .integer 32,
       .pointer (.array 3 (.struct none [] true)) ⟨0⟩, .array 3 (.struct none [] true), .struct none [] true] := by
  refine ⟨⟨⟨none, 1, [5]⟩, [], ⟨[], _, rfl, rfl, by simp⟩, rfl⟩, sample_lists, sample_regular, fun pf => ?_⟩
  cases pf <;> decide +kernel

/-! ## C41 -/

/-- C41, for tables without circles: the mapping returns. (Same listings as in C40.) -/
theorem C41_acyclic_partial (pf : Profile) (b : UBlock) (n : U64) (ds : List TyDecl) (hc : DeclaresCount b n)
    (hn : n.toNat < 2 ^ 57) (h : Lists [] b.records ds) (hr : Regular ds) (ha : Acyclic ds) :
    (TypeTable.tryFrom pf b).Returns := by
  obtain ⟨table, h1, rfl⟩ := tryFrom_lists pf b hc hn h hr
  rw [h1]; exact reifyTypes_returns _ ha

/-- C41: a recursive type never maps, although LLVM allows recursion through pointers. -/
theorem C41_recursive_never_maps (pf : Profile) (b : UBlock) (n : U64) (ds : List TyDecl) (hc : DeclaresCount b n)
    (hn : n.toNat < 2 ^ 57) (h : Lists [] b.records ds) (hr : Regular ds) (ha : ¬ Acyclic ds) (ts : TypeTable) :
    TypeTable.tryFrom pf b ≠ .ok ts := by
  intro hx
  obtain ⟨h1, h2, h3⟩ := (C40_faithful_partial pf b n ds hc hn h hr ts).1 hx
  exact ha (acyclic_of_denotes h2 fun i t ht => (h3 i t ht).1)

/-- C41 is false: a table in which every entry stands for a valid type or is part of a loop of references makes the mapping
run forever (in practice, until the stack overflows), if there is a loop at all. -/
theorem C41_recursive_diverges (pf : Profile) (b : UBlock) (n : U64) (ds : List TyDecl) (hc : DeclaresCount b n)
    (hn : n.toNat < 2 ^ 57) (h : Lists [] b.records ds) (hr : Regular ds) (hlen : ds.length = n.toNat) (S : Nat → Prop)
    (hS : Loop ds S) (hall : ∀ i < ds.length, S i ∨ ∃ t, Denotes ds i t ∧ Valid t) (hex : ∃ i < ds.length, S i) :
    TypeTable.tryFrom pf b = .diverge := by
  obtain ⟨table, h1, rfl⟩ := tryFrom_lists pf b hc hn h hr
  rw [List.length_map] at hlen hall hex
  rw [h1, ← hlen]
  obtain ⟨i, hi, hs⟩ := hex
  exact reifyTypes_loop hS hall i hi hs

/-- `%node = type { i32, %node* }`: a linked list. -/
def linkedList : UBlock := UBlock.mk (.ir .type)
  [⟨none, 1, [3]⟩, ⟨none, 7, [32]⟩, ⟨none, 19, [0x6e, 0x6f, 0x64, 0x65]⟩, ⟨none, 20, [0, 0, 2]⟩, ⟨none, 8, [1, 0]⟩] []

/-- C41: the linked list, written down as the hypotheses of `C41_recursive_diverges`. -/
theorem C41_linked_list (pf : Profile) : TypeTable.tryFrom pf linkedList = .diverge := by
  have hl : Lists [] linkedList.records
      [.integer 32, .struct (some ['n', 'o', 'd', 'e']) [0, 2] false, .pointer 1 ⟨0⟩] := by
    refine .numEntry rfl (.single (.integer (w := 32) rfl rfl (by decide)) ?_)
    refine .name (s := ['n', 'o', 'd', 'e']) rfl (by decide +kernel) (by decide) ?_
    refine .named (r := ⟨none, 20, [0, 0, 2]⟩) (p := 0) (fs := [0, 2]) rfl rfl ?_
    exact .single (.pointer (p := 1) (a := 0) rfl rfl (by decide)) .nil
  have h0 : ∃ t, Denotes [.integer 32, .struct (some ['n', 'o', 'd', 'e']) [0, 2] false, .pointer 1 ⟨0⟩] 0 t ∧ Valid t :=
    ⟨.integer 32, .integer rfl, .integer (by decide) (by decide)⟩
  refine C41_recursive_diverges pf linkedList 3 _ ⟨⟨none, 1, [3]⟩, [], ⟨[], _, rfl, rfl, by simp⟩, rfl⟩ (by decide) hl ?_ rfl
    (fun i => i = 1 ∨ i = 2) ?_ ?_ ⟨1, by simp, by simp⟩
  · intro pre a b post h ha ⟨n, fs, p, hb⟩
    subst hb
    rcases pre with _ | ⟨x, _ | ⟨y, pre⟩⟩
    · simp at h; obtain ⟨rfl, -⟩ := h; obtain ⟨_, _, _, h⟩ := ha; simp at h
    · simp at h
    · have := congrArg List.length h
      simp at this; omega
  · rintro i (rfl | rfl)
    · exact ⟨_, [0], 2, [], rfl, rfl, .inr rfl, fun k hk => by simp at hk; subst hk; exact h0⟩
    · exact ⟨_, [], 1, [], rfl, rfl, .inl rfl, fun k hk => by simp at hk⟩
  · intro i hi
    simp only [List.length_cons, List.length_nil] at hi
    rcases show i = 0 ∨ i = 1 ∨ i = 2 by omega with rfl | rfl | rfl
    · exact .inr h0
    · exact .inl (.inl rfl)
    · exact .inl (.inr rfl)

/-- The table of the C40 example has no circle. -/
example : Acyclic sampleDecls := by
  refine ⟨fun i => 4 - i + (if i = 1 then 0 else 0) + 1, fun i d hi j hj => ?_⟩
  have hi' : i < 5 := (List.getElem?_eq_some_iff.1 hi).1
  rcases show i = 0 ∨ i = 1 ∨ i = 2 ∨ i = 3 ∨ i = 4 by omega with rfl | rfl | rfl | rfl | rfl <;>
    simp [sampleDecls] at hi <;> subst hi <;> simp [TyDecl.refs] at hj
  · rcases hj with rfl | rfl <;> simp
  · subst hj; simp
  · subst hj; simp

/-! ## C42 -/

/-- C42, for the listings of C40: each named structure keeps the name the records before it give, each anonymous one has
none. -/
theorem C42_names_partial (pf : Profile) (b : UBlock) (n : U64) (ds : List TyDecl) (hc : DeclaresCount b n)
    (hn : n.toNat < 2 ^ 57) (h : Lists [] b.records ds) (hr : Regular ds) (ts : TypeTable)
    (hx : TypeTable.tryFrom pf b = .ok ts) (i : Nat) (nm : Option Str) (fs : List Nat) (p : Bool)
    (hi : ds[i]? = some (.struct nm fs p)) : ∃ tfs, ts[i]? = some (.struct nm tfs p) ∧ tfs.length = fs.length := by
  obtain ⟨h1, h2, h3⟩ := (C40_faithful_partial pf b n ds hc hn h hr ts).1 hx
  have hlt : i < ts.length := by rw [h2]; exact (List.getElem?_eq_some_iff.1 hi).1
  obtain ⟨tfs, ht, hd⟩ := (h3 i _ (List.getElem?_eq_getElem hlt)).1.inv hi
  exact ⟨tfs, by rw [List.getElem?_eq_getElem hlt, ht], hd.1⟩

/-- C42 is false: a named structure directly after any structure is never accepted in a table with the right count. -/
theorem C42_adjacent_rejected (pf : Profile) (b : UBlock) (n : U64) (ds : List TyDecl) (hc : DeclaresCount b n)
    (hn : n.toNat < 2 ^ 57) (h : Lists [] b.records ds) (hlen : ds.length = n.toNat) (hr : ¬ Regular ds) :
    ∃ e, TypeTable.tryFrom pf b = .err e := by
  rw [tryFrom_eq pf b hc, typeCapacity_ok hn, Out.ok_bind]
  rcases foldl_short pf h [] with ⟨e, he⟩ | ⟨s, h1, h2, h3⟩
  · rw [he]; exact ⟨e, rfl⟩
  · rw [h1, Out.ok_bind]
    have := h3 (by intro pre a b post hx; simp at hx) (by simpa using hr)
    simp only [List.length_nil] at this
    exact ⟨_, by rw [reifyTypes, if_pos (by omega)]⟩

/-- Two named structures in a row, as in any module with two structure types in a row: rejected. -/
example (pf : Profile) : TypeTable.tryFrom pf (UBlock.mk (.ir .type)
    [⟨none, 1, [3]⟩, ⟨none, 7, [32]⟩, ⟨none, 19, [0x70, 0x74]⟩, ⟨none, 20, [0, 0]⟩, ⟨none, 19, [0x71, 0x74]⟩,
      ⟨none, 20, [0, 0]⟩] []) = .err (.map (.invalid .structDeclared)) := by cases pf <;> decide +kernel

/-- C42: of two named structures in a row neither ever loses its name to the other: whatever the count, such a table is not
accepted. -/
theorem C42_named_kept_apart (pf : Profile) (b : UBlock) (ds pre post : List TyDecl) (x y : TyDecl)
    (h : Lists [] b.records ds) (hd : ds = pre ++ x :: y :: post) (hx : x.IsNamed) (hy : y.IsNamed) (ts : TypeTable) :
    TypeTable.tryFrom pf b ≠ .ok ts := by
  intro hok
  unfold TypeTable.tryFrom at hok
  simp only [Out.bind_eq_ok] at hok
  obtain ⟨-, -, -, -, -, -, s, hs, -⟩ := hok
  exact (foldl_no_two_named pf h [] s hs).2 pre x y post hd hx hy

/-- The second of two named structures takes the place of the first only in the count: not accepted. -/
example (pf : Profile) (ts : TypeTable) : TypeTable.tryFrom pf (UBlock.mk (.ir .type)
    [⟨none, 1, [1]⟩, ⟨none, 19, [0x70, 0x74]⟩, ⟨none, 20, [0]⟩, ⟨none, 19, [0x71, 0x74]⟩, ⟨none, 20, [0]⟩] []) ≠ .ok ts := by
  refine C42_named_kept_apart pf _ [.struct (some ['p', 't']) [] false, .struct (some ['q', 't']) [] false] [] [] _ _ ?_
    rfl ⟨_, _, _, rfl⟩ ⟨_, _, _, rfl⟩ ts
  refine .numEntry rfl (.name (s := ['p', 't']) rfl rfl (Nat.le_refl 2) (.named (p := 0) (fs := []) rfl rfl ?_))
  exact .name (s := ['q', 't']) rfl rfl (Nat.le_refl 2) (.named (p := 0) (fs := []) rfl rfl .nil)

/-- C42 is false also for names of one byte: a block with such a name is never accepted. -/
theorem C42_short_name_rejected (pf : Profile) (b : UBlock) (r : BRecord) (hr : r ∈ b.records) (hc : r.code = 19)
    (hl : r.fields.length = 1) (ts : TypeTable) : TypeTable.tryFrom pf b ≠ .ok ts := by
  intro h
  unfold TypeTable.tryFrom at h
  simp only [Out.bind_eq_ok] at h
  obtain ⟨-, -, -, -, -, -, s, h, -⟩ := h
  generalize ({ inner := [], lastName := [] } : TypeTableState) = s0 at h
  generalize b.records = rs at hr h
  induction rs generalizing s0 with
  | nil => simp at hr
  | cons x xs ih =>
    rw [List.foldlM_cons, Out.bind_eq_ok] at h
    obtain ⟨s1, h1, h2⟩ := h
    rcases List.mem_cons.1 hr with rfl | hr
    · rcases typeStep_inv pf h1 (fun h7 => by rw [hc] at h7; simp at h7) (fun _ h0 => by rw [h0] at hl; simp at hl) with
        ⟨h, -⟩ | ⟨d, h, -⟩ | ⟨_, -, -, h, -⟩ | ⟨_, _, h, -⟩ | ⟨h, -⟩
      · rw [hc] at h; simp at h
      · cases h <;> rename_i h <;> simp [hc, primCodes] at *
      · omega
      · rw [hc] at h; simp at h
      · rw [hc] at h; simp at h
    · exact ih s1 hr h2

/-- C42: with a count that is short as well, structures are merged. Here `%ab` is declared packed, after an anonymous
structure without fields: what maps is one structure, named `ab` and not packed. -/
theorem C42_merged (pf : Profile) : TypeTable.tryFrom pf (UBlock.mk (.ir .type)
    [⟨none, 1, [2]⟩, ⟨none, 7, [32]⟩, ⟨none, 18, [0]⟩, ⟨none, 19, [0x61, 0x62]⟩, ⟨none, 20, [1, 0]⟩] []) =
      .ok [.integer 32, .struct (some ['a', 'b']) [.integer 32] false] := by cases pf <;> decide +kernel

/-- C42: an opaque structure after an anonymous one gives its name to that one. -/
theorem C42_opaque_merged (pf : Profile) : TypeTable.tryFrom pf (UBlock.mk (.ir .type)
    [⟨none, 1, [2]⟩, ⟨none, 7, [32]⟩, ⟨none, 18, [0, 0]⟩, ⟨none, 19, [0x61, 0x62]⟩, ⟨none, 6, [0]⟩] []) =
      .ok [.integer 32, .struct (some ['a', 'b']) [.integer 32] false] := by cases pf <;> decide +kernel

end Verif
