import Verif.Mapper.GlobalSpec
import Verif.Mapper.TypeLemmas
import Verif.Props.Align
import Verif.Props.Enums
import Verif.Props.Tables

/-! C49: function, alias and COMDAT records. -/

namespace Verif
open Spec

theorem stands_iff {α : Type} {l : List α} {d a : α} {v n : Nat} :
    Stands (numbered n l) d v a ↔ (v, a) ∈ numbered n l ∨ (¬ (n ≤ v ∧ v < n + l.length) ∧ a = d) := by
  unfold Stands
  rw [← numbered_iff, not_exists]

theorem linkage_stands (v : U64) (a : Linkage) : Linkage.ofU64 v = a ↔ Stands linkageTable .external v.toNat a := by
  rw [C50_linkage, linkageTable, stands_iff]
  simp

theorem threadLocal_stands (v : U64) (a : ThreadLocalMode) :
    ThreadLocalMode.ofU64 v = a ↔ Stands threadLocalModeTable .generalDynamicTls v.toNat a := by
  rw [(C50_thread_local v a).1, threadLocalModeTable, stands_iff]
  simp

theorem unnamedAddr_stands (v : U64) (a : UnnamedAddr) :
    UnnamedAddr.ofU64 v = a ↔ Stands unnamedAddrTable .none v.toNat a := by
  rw [(C50_unnamed_addr v a).1, unnamedAddrTable, stands_iff]
  simp

theorem preemption_stands (v : U64) (a : RuntimePreemption) :
    RuntimePreemption.ofU64 v = a ↔ Stands runtimePreemptionTable .dsoPreemptable v.toNat a := by
  rw [(C50_preemption v a).1, runtimePreemptionTable, stands_iff]
  simp

theorem selectionKind_iff (v : U64) (a : SelectionKind) :
    tryFromPrimitive v = some a ↔ (v.toNat, a) ∈ selectionKindTable := decode_table (t := selectionKindTable) rfl v a

theorem tryGet_iff (pf : Profile) (t : Strtab) (ht : t.bytes.length < 2 ^ 64) (o n : U64) (s : Str) :
    t.tryGet pf ⟨o, n⟩ = .ok s ↔ NameAt t.bytes o.toNat n.toNat s := by
  by_cases h : o.toNat + n.toNat < 2 ^ 64
  · exact (C32_lookup_partial pf t ⟨o, n⟩ h).2 s
  · constructor
    · intro hs
      have : ¬ (t.tryGet pf ⟨o, n⟩).Returns ∨ t.bytes.length ≤ o.toNat := by
        rw [(C32_overflow_panics pf t ⟨o, n⟩).1]
        show (o.toNat < t.bytes.length ∧ 2 ^ 64 ≤ o.toNat + n.toNat) ∨ _
        omega
      rcases this with this | this
      · rw [hs] at this; exact absurd trivial this
      · unfold Strtab.tryGet at hs
        simp only at hs
        split at hs
        · simp at hs
        · simp at hs
    · rintro ⟨-, pre, post, h1, h2, h3⟩
      have : t.bytes.length = pre.length + ((utf8 s).length + post.length) := by rw [h1]; simp
      omega

theorem tryGet_returns_iff (pf : Profile) (t : Strtab) (o n : U64) :
    (t.tryGet pf ⟨o, n⟩).Returns ↔ ¬ (o.toNat < t.bytes.length ∧ 2 ^ 64 ≤ o.toNat + n.toNat) := by
  rw [← (C32_overflow_panics pf t ⟨o, n⟩).1, Classical.not_not]

theorem maybeAlign_iff (v : U8) (a : MaybeAlign) : MaybeAlign.tryFrom v = .ok a ↔ AlignNumber v.toNat a := by
  obtain ⟨h0, h1, h2⟩ := Props.C33_maybe_align v
  by_cases hv : v = 0
  · rw [h0 hv, hv]
    constructor
    · intro h; cases h; exact .none
    · intro h
      generalize hk : (0 : U8).toNat = k at h
      cases h with
      | none => rfl
      | some _ => simp at hk
  · have hv' : v.toNat ≠ 0 := fun h => hv (BitVec.eq_of_toNat_eq (by simpa using h))
    by_cases hb : v.toNat ≤ 64
    · obtain ⟨b, hb1, hb2⟩ := h1 (by omega) hb
      rw [hb1]
      constructor
      · intro h; cases h
        rw [← hb2]
        exact .some (by omega)
      · intro h
        generalize hk : v.toNat = k at h
        cases h with
        | none => omega
        | @some c hc =>
          have : b.shift = c.shift := BitVec.eq_of_toNat_eq (by omega)
          cases b; cases c
          simp at this
          rw [this]
    · rw [h2 (by omega)]
      constructor
      · simp
      · intro h
        generalize hk : v.toNat = k at h
        cases h with
        | none => omega
        | some _ => omega

theorem maybeAlign_returns (v : U8) : (MaybeAlign.tryFrom v).Returns := by
  unfold MaybeAlign.tryFrom
  split
  · trivial
  · exact (fromShift_returns _).bind fun _ _ => trivial

theorem oneBased_iff {α : Type} (l : List α) (v : Nat) (x : Option α) :
    OneBased l v x ↔ (v = 0 ∧ x = none) ∨ (v ≠ 0 ∧ ∃ a, x = some a ∧ l[v - 1]? = some a) := by
  constructor
  · rintro (_ | h)
    · exact .inl ⟨rfl, rfl⟩
    · exact .inr ⟨by omega, _, rfl, h⟩
  · rintro (⟨rfl, rfl⟩ | ⟨h0, a, rfl, h⟩)
    · exact .none
    · obtain ⟨k, rfl⟩ : ∃ k, v = k + 1 := ⟨v - 1, by omega⟩
      exact .some h

theorem functionAttributes_iff (a : Attributes) (v : U64) (x : Option AttributeEntry) :
    functionAttributes a v = .ok x ↔ OneBased a v.toNat x := by
  rw [oneBased_iff]
  unfold functionAttributes
  by_cases h : v = 0
  · rw [if_pos h, h]; simp [eq_comm]
  · have hv' : v.toNat ≠ 0 := fun h' => h (BitVec.eq_of_toNat_eq (by simpa using h'))
    have hs : (v - 1).toNat = v.toNat - 1 := by
      have := v.isLt
      rw [BitVec.toNat_sub, show (1 : U64).toNat = 1 from rfl, show 2 ^ 64 - 1 + v.toNat = v.toNat - 1 + 2 ^ 64 by omega,
        Nat.add_mod_right, Nat.mod_eq_of_lt (by omega)]
    rw [if_neg h, Attributes.get, hs]
    simp only [Out.bind_eq_ok, ofOption_eq_ok, Out.ok.injEq, hv', false_and, false_or, ne_eq, not_false_eq_true, true_and]
    exact ⟨fun ⟨b, h1, h2⟩ => ⟨b, h2.symm, h1⟩, fun ⟨b, h1, h2⟩ => ⟨b, h2, h1.symm⟩⟩

theorem tableEntry_iff (err : Nat → FunctionRecordError) (l : List Str) (v : U64) (x : Option Str) :
    tableEntry err l v = .ok x ↔ OneBased l v.toNat x := by
  rw [oneBased_iff]
  unfold tableEntry
  by_cases h : v = 0
  · rw [if_pos h, h]; simp [eq_comm]
  · have hv' : v.toNat ≠ 0 := fun h' => h (BitVec.eq_of_toNat_eq (by simpa using h'))
    rw [if_neg h]
    simp only [Out.bind_eq_ok, ofOption_eq_ok, Out.ok.injEq, hv', false_and, false_or, ne_eq, not_false_eq_true, true_and]
    exact ⟨fun ⟨b, h1, h2⟩ => ⟨b, h2.symm, h1⟩, fun ⟨b, h1, h2⟩ => ⟨b, h2, h1.symm⟩⟩

theorem tableEntry_returns (err : Nat → FunctionRecordError) (l : List Str) (v : U64) : (tableEntry err l v).Returns := by
  unfold tableEntry
  split
  · trivial
  · exact ofOption_returns.bind fun _ _ => trivial

theorem functionType_iff (types : TypeTable) (i : U64) (t : FunctionType) :
    functionType types i = .ok t ↔ types[i.toNat]? = some (.function t.returnType t.paramTypes t.isVararg) := by
  unfold functionType TypeTable.get
  simp only [Out.bind_eq_ok, ofOption_eq_ok]
  constructor
  · rintro ⟨a, h1, h2⟩
    rw [h1]
    split at h2
    · cases h2; rfl
    · simp at h2
  · intro h
    exact ⟨_, h, rfl⟩

theorem fields10 {fs : List U64} (h : 10 ≤ fs.length) :
    ∃ a b c d e f g i j k rest, fs = a :: b :: c :: d :: e :: f :: g :: i :: j :: k :: rest := by
  match fs, h with
  | a :: b :: c :: d :: e :: f :: g :: i :: j :: k :: rest, _ => exact ⟨a, b, c, d, e, f, g, i, j, k, rest, rfl⟩

theorem fields5 {fs : List U64} (h : 5 ≤ fs.length) : ∃ a b c d e rest, fs = a :: b :: c :: d :: e :: rest := by
  match fs, h with
  | a :: b :: c :: d :: e :: rest, _ => exact ⟨a, b, c, d, e, rest, rfl⟩

theorem useStrtab_iff (ctx : MapCtx) : ctx.useStrtab = true ↔ 2 ≤ ctx.version.toNat := by
  unfold MapCtx.useStrtab
  simp [BitVec.le_def]

/-- An optional field: reading it if present and otherwise taking the default is reading 0 for a missing one. -/
theorem optField_eq {ε α : Type} (fs : List U64) (i : Nat) (g : U64 → Out ε α) (d : α) (h0 : g 0 = .ok d) :
    optField fs i d g = g (fs[i]?.getD 0) := by
  unfold optField
  cases fs[i]? with
  | none => exact h0.symm
  | some v => rfl

theorem optValue_eq {α : Type} (fs : List U64) (i : Nat) (g : U64 → α) (d : α) (h0 : g 0 = d) :
    optValue fs i d g = g (fs[i]?.getD 0) := by
  unfold optValue
  cases fs[i]? with
  | none => exact h0.symm
  | some v => rfl

theorem fieldAt_eq {ε : Type} {fs : List U64} {i : Nat} (h : i < fs.length) :
    (fieldAt fs i : Out ε U64) = .ok (fs[i]?.getD 0) := by
  unfold fieldAt
  rw [List.getElem?_eq_getElem h]
  rfl

theorem readName_eq (pf : Profile) (t : Strtab) (r : BRecord) (h : 2 ≤ r.fields.length) :
    t.readName pf r = t.tryGet pf ⟨r.fields[0]?.getD 0, r.fields[1]?.getD 0⟩ := by
  unfold Strtab.readName
  rw [fieldAt_eq (by omega), Out.ok_bind, fieldAt_eq (by omega), Out.ok_bind]

/-- The fields of a function record taken together, once it is known that there are enough of them. -/
theorem FunctionRecord.tryMap_eq (pf : Profile) (r : BRecord) (ctx : MapCtx) (hv : 2 ≤ ctx.version.toNat)
    (hl : 10 ≤ r.fields.length) :
    FunctionRecord.tryMap pf r ctx =
      (ctx.strtab.tryGet pf ⟨r.fields[0]?.getD 0, r.fields[1]?.getD 0⟩).mapErr .strtab >>= fun name =>
      functionType ctx.typeTable (r.fields[2]?.getD 0) >>= fun ty =>
      Out.ofOption (.callingConvention (r.fields[3]?.getD 0)) (tryFromPrimitive (r.fields[3]?.getD 0)) >>= fun cc =>
      functionAttributes ctx.attributes (r.fields[6]?.getD 0) >>= fun attributes =>
      (MaybeAlign.tryFrom ((r.fields[7]?.getD 0).setWidth 8)).mapErr .alignment >>= fun alignment =>
      tableEntry .section ctx.sectionTable (r.fields[8]?.getD 0) >>= fun sect =>
      Out.ofOption (.visibility (r.fields[9]?.getD 0)) (tryFromPrimitive (r.fields[9]?.getD 0)) >>= fun visibility =>
      tableEntry .gc ctx.gcTable (r.fields[10]?.getD 0) >>= fun gcName =>
      Out.ofOption (.dllStorageClass (r.fields[13]?.getD 0)) (tryFromPrimitive (r.fields[13]?.getD 0)) >>=
        fun storageClass =>
      .ok { name, ty, callingConvention := cc, isDeclaration := r.fields[4]?.getD 0 ≠ 0,
            linkage := .ofU64 (r.fields[5]?.getD 0), attributes, alignment, «section» := sect, visibility, gcName,
            unnamedAddr := .ofU64 (r.fields[11]?.getD 0), storageClass } := by
  have hu := (useStrtab_iff ctx).2 hv
  unfold FunctionRecord.tryMap
  simp only [hu, Bool.not_true, Bool.false_eq_true, if_false]
  rw [if_neg (by omega), readName_eq pf _ _ (by omega),
    optField_eq r.fields 10 (tableEntry .gc ctx.gcTable) none rfl, optValue_eq r.fields 11 UnnamedAddr.ofU64 .none rfl,
    optField_eq r.fields 13 _ _ (by decide +kernel)]
  rw [fieldAt_eq (i := 2) (by omega), fieldAt_eq (i := 3) (by omega), fieldAt_eq (i := 4) (by omega),
    fieldAt_eq (i := 5) (by omega), fieldAt_eq (i := 6) (by omega), fieldAt_eq (i := 7) (by omega),
    fieldAt_eq (i := 8) (by omega), fieldAt_eq (i := 9) (by omega)]
  simp only [Out.ok_bind]

/-- C49 for function records: one maps, and to what, exactly as its fields say: the name at its range in the string table,
the function type at its type index, the attributes, section and garbage collector with its (one-based) indices, and the
enumerations by their numbers. -/
theorem C49_function (pf : Profile) (r : BRecord) (ctx : MapCtx) (ht : ctx.strtab.bytes.length < 2 ^ 64)
    (f : FunctionRecord) : FunctionRecord.tryMap pf r ctx = .ok f ↔ FunctionSays ctx r.fields f := by
  by_cases hv : 2 ≤ ctx.version.toNat
  case neg =>
    have hu : ctx.useStrtab = false := by rw [← Bool.not_eq_true, useStrtab_iff]; exact hv
    constructor
    · intro h; simp [FunctionRecord.tryMap, hu] at h
    · intro h; exact absurd h.version hv
  by_cases hl : 10 ≤ r.fields.length
  case neg =>
    have hu := (useStrtab_iff ctx).2 hv
    constructor
    · intro h; simp [FunctionRecord.tryMap, hu] at h; rw [if_pos (by omega)] at h; simp at h
    · intro h; exact absurd h.length hl
  rw [FunctionRecord.tryMap_eq pf r ctx hv hl]
  simp only [Out.bind_eq_ok, Out.mapErr_eq_ok, ofOption_eq_ok, tryGet_iff pf _ ht, functionType_iff,
    C50_callingConvention, functionAttributes_iff, maybeAlign_iff, tableEntry_iff, C50_visibility, C50_dllStorageClass,
    Out.ok.injEq]
  constructor
  · rintro ⟨name, h1, ty, h2, cc, h3, at', h4, al, h5, se, h6, vi, h7, gc, h8, st, h9, rfl⟩
    exact {
      version := hv, length := hl, name := h1, type := h2, callingConvention := h3
      isDeclaration := by simp [field, BitVec.toNat_eq]
      linkage := (linkage_stands _ _).1 rfl
      attributes := h4
      alignment := by rwa [BitVec.toNat_setWidth] at h5
      «section» := h6, visibility := h7, gcName := h8
      unnamedAddr := (unnamedAddr_stands _ _).1 rfl
      storageClass := h9 }
  · intro h
    refine ⟨_, h.name, _, h.type, _, h.callingConvention, _, h.attributes, f.alignment, ?_, _, h.section, _, h.visibility, _,
      h.gcName, _, h.storageClass, ?_⟩
    · rw [BitVec.toNat_setWidth]; exact h.alignment
    · have h1 := (linkage_stands _ _).2 h.linkage
      have h2 := (unnamedAddr_stands _ _).2 h.unnamedAddr
      have h3 := h.isDeclaration
      cases f
      simp only [FunctionRecord.mk.injEq, true_and, and_true] at h1 h2 h3 ⊢
      refine ⟨?_, h1, h2⟩
      rw [Bool.eq_iff_iff, h3]
      simp [field, BitVec.toNat_eq]

theorem tableEntry_err {err : Nat → FunctionRecordError} {l : List Str} {v : U64} {e : FunctionRecordError}
    (h : tableEntry err l v = .err e) : ∃ n, n + 1 = v.toNat ∧ l.length ≤ n ∧ err n = e := by
  unfold tableEntry at h
  split at h
  · simp at h
  · next hv =>
    have hv' : v.toNat ≠ 0 := fun h' => hv (BitVec.eq_of_toNat_eq (by simpa using h'))
    rw [bind_eq_err, ofOption_eq_err] at h
    simp at h
    exact ⟨v.toNat - 1, by omega, h.1, h.2⟩

/-- C49: an error about a function record says what is wrong with it. -/
theorem C49_function_errors (pf : Profile) (r : BRecord) (ctx : MapCtx) (ht : ctx.strtab.bytes.length < 2 ^ 64)
    (e : FunctionRecordError) (h : FunctionRecord.tryMap pf r ctx = .err e) : FunctionErrorMeans ctx r.fields e := by
  by_cases hv : 2 ≤ ctx.version.toNat
  case neg =>
    have hu : ctx.useStrtab = false := by rw [← Bool.not_eq_true, useStrtab_iff]; exact hv
    simp [FunctionRecord.tryMap, hu] at h
    subst h
    exact Nat.lt_of_not_le hv
  by_cases hl : 10 ≤ r.fields.length
  case neg =>
    have hu := (useStrtab_iff ctx).2 hv
    simp [FunctionRecord.tryMap, hu] at h
    rw [if_pos (by omega)] at h
    cases h
    exact ⟨rfl, by omega⟩
  rw [FunctionRecord.tryMap_eq pf r ctx hv hl] at h
  rw [bind_eq_err, mapErr_eq_err] at h
  rcases h with ⟨e', h, rfl⟩ | ⟨name, -, h⟩
  · intro s hs
    exact not_ok_of_err h s ((tryGet_iff pf _ ht _ _ _).2 hs)
  rw [bind_eq_err] at h
  rcases h with h | ⟨ty, -, h⟩
  · unfold functionType TypeTable.get at h
    rw [bind_eq_err, ofOption_eq_err] at h
    rcases h with ⟨h, rfl⟩ | ⟨t, h, h'⟩
    · exact ⟨rfl, by simpa using h⟩
    · rw [ofOption_eq_ok] at h
      split at h'
      · simp at h'
      · next hn =>
        cases h'
        exact ⟨t, h, fun r ps va hc => hn r ps va hc⟩
  rw [bind_eq_err, ofOption_eq_err] at h
  rcases h with ⟨h, rfl⟩ | ⟨cc, -, h⟩
  · refine ⟨rfl, fun x hc => ?_⟩
    rw [(C50_callingConvention _ x).2 hc] at h
    simp at h
  rw [bind_eq_err] at h
  rcases h with h | ⟨at', -, h⟩
  · unfold functionAttributes at h
    split at h
    · simp at h
    · next h0 =>
      rw [bind_eq_err, ofOption_eq_err] at h
      simp only [reduceCtorEq, and_false, exists_false, or_false] at h
      obtain ⟨h, rfl⟩ := h
      refine ⟨rfl, Nat.lt_of_not_le fun hc => ?_⟩
      have hv' : (r.fields[6]?.getD 0).toNat ≠ 0 := fun h' => h0 (BitVec.eq_of_toNat_eq (by simpa using h'))
      have := (functionAttributes_iff ctx.attributes (r.fields[6]?.getD 0)
        (some ctx.attributes[(r.fields[6]?.getD 0).toNat - 1])).2
        ((oneBased_iff _ _ _).2 (.inr ⟨hv', _, rfl, List.getElem?_eq_getElem (by omega)⟩))
      unfold functionAttributes at this
      rw [if_neg h0, h] at this
      simp at this
  rw [bind_eq_err, mapErr_eq_err] at h
  rcases h with ⟨e', h, rfl⟩ | ⟨al, -, h⟩
  · refine Nat.lt_of_not_le fun hc => ?_
    have hf : (BitVec.setWidth 8 (r.fields[7]?.getD 0)).toNat = field r.fields 7 % 256 := BitVec.toNat_setWidth _ _
    by_cases h0 : field r.fields 7 % 256 = 0
    · exact not_ok_of_err h ⟨none⟩ ((maybeAlign_iff _ _).2 (by rw [hf, h0]; exact .none))
    · obtain ⟨-, h1, -⟩ := Props.C33_maybe_align (BitVec.setWidth 8 (r.fields[7]?.getD 0))
      obtain ⟨a, h1, -⟩ := h1 (by omega) (by omega)
      exact not_ok_of_err h _ h1
  rw [bind_eq_err] at h
  rcases h with h | ⟨se, -, h⟩
  · obtain ⟨n, h1, h2, rfl⟩ := tableEntry_err h
    exact ⟨h1, h2⟩
  rw [bind_eq_err, ofOption_eq_err] at h
  rcases h with ⟨h, rfl⟩ | ⟨vi, -, h⟩
  · refine ⟨rfl, fun x hc => ?_⟩
    rw [(C50_visibility _ x).2 hc] at h
    simp at h
  rw [bind_eq_err] at h
  rcases h with h | ⟨gc, -, h⟩
  · obtain ⟨n, h1, h2, rfl⟩ := tableEntry_err h
    exact ⟨h1, h2⟩
  rw [bind_eq_err, ofOption_eq_err] at h
  rcases h with ⟨h, rfl⟩ | ⟨st, -, h⟩
  · refine ⟨rfl, fun x hc => ?_⟩
    rw [(C50_dllStorageClass _ x).2 hc] at h
    simp at h
  simp at h

theorem Out.Returns.of_bind {ε α β : Type} {x : Out ε α} {f : α → Out ε β} (h : (x >>= f).Returns) : x.Returns := by
  cases x <;> simp_all [Out.Returns]

theorem Out.Returns.of_mapErr {ε ε' α : Type} {x : Out ε α} {g : ε → ε'} (h : (x.mapErr g).Returns) : x.Returns := by
  cases x <;> simp_all [Out.Returns, Out.mapErr]

/-- C49, as far as it holds: mapping a function record always returns, except if the record is long enough and its name
range overflows; then it panics. -/
theorem C49_function_returns_partial (pf : Profile) (r : BRecord) (ctx : MapCtx) :
    (FunctionRecord.tryMap pf r ctx).Returns ↔
      ¬ (2 ≤ ctx.version.toNat ∧ 10 ≤ r.fields.length ∧ NameOverflows ctx.strtab.bytes r.fields) := by
  by_cases hv : 2 ≤ ctx.version.toNat
  case neg =>
    have hu : ctx.useStrtab = false := by rw [← Bool.not_eq_true, useStrtab_iff]; exact hv
    simp [FunctionRecord.tryMap, hu, hv, Out.Returns]
  by_cases hl : 10 ≤ r.fields.length
  case neg =>
    have hu := (useStrtab_iff ctx).2 hv
    simp [FunctionRecord.tryMap, hu, hl]
    rw [if_pos (by omega)]
    trivial
  rw [FunctionRecord.tryMap_eq pf r ctx hv hl]
  constructor
  · rintro h ⟨-, -, ho⟩
    exact (tryGet_returns_iff pf _ _ _).1 h.of_bind.of_mapErr ho
  · intro h
    refine Out.Returns.bind (Out.Returns.mapErr ((tryGet_returns_iff pf _ _ _).2 fun hc => h ⟨hv, hl, hc⟩)) fun _ _ => ?_
    refine Out.Returns.bind ?_ fun _ _ => ?_
    · unfold functionType
      refine ofOption_returns.bind fun t _ => ?_
      split <;> trivial
    refine ofOption_returns.bind fun _ _ => ?_
    refine Out.Returns.bind ?_ fun _ _ => ?_
    · unfold functionAttributes
      split
      · trivial
      · exact ofOption_returns.bind fun _ _ => trivial
    refine (maybeAlign_returns _).mapErr.bind fun _ _ => ?_
    refine (tableEntry_returns _ _ _).bind fun _ _ => ?_
    refine ofOption_returns.bind fun _ _ => ?_
    refine (tableEntry_returns _ _ _).bind fun _ _ => ?_
    exact ofOption_returns.bind fun _ _ => trivial

/-! ## Aliases -/

theorem Alias.tryMap_eq (pf : Profile) (r : BRecord) (ctx : MapCtx) (hv : 2 ≤ ctx.version.toNat)
    (hl : 5 ≤ r.fields.length) :
    Alias.tryMap pf r ctx =
      (ctx.strtab.tryGet pf ⟨r.fields[0]?.getD 0, r.fields[1]?.getD 0⟩).mapErr .strtab >>= fun name =>
      Out.ofOption (.type (r.fields[2]?.getD 0)) (ctx.typeTable.get (r.fields[2]?.getD 0)) >>= fun ty =>
      Out.ofOption (.visibility (r.fields[5]?.getD 0)) (tryFromPrimitive (r.fields[5]?.getD 0)) >>= fun visibility =>
      Out.ofOption (.dllStorageClass (r.fields[6]?.getD 0)) (tryFromPrimitive (r.fields[6]?.getD 0)) >>=
        fun storageClass =>
      .ok { name, ty, valueIndex := r.fields[3]?.getD 0, linkage := .ofU64 (r.fields[4]?.getD 0), visibility,
            storageClass, tlsMode := .ofU64 (r.fields[7]?.getD 0), unnamedAddr := .ofU64 (r.fields[8]?.getD 0),
            preemptionSpecifier := .ofU64 (r.fields[9]?.getD 0) } := by
  have hu := (useStrtab_iff ctx).2 hv
  unfold Alias.tryMap
  simp only [hu, Bool.not_true, Bool.false_eq_true, if_false]
  rw [if_neg (by omega), readName_eq pf _ _ (by omega), optValue_eq r.fields 7 ThreadLocalMode.ofU64 .notThreadLocal rfl,
    optValue_eq r.fields 8 UnnamedAddr.ofU64 .none rfl, optValue_eq r.fields 9 RuntimePreemption.ofU64 .dsoPreemptable rfl,
    optField_eq r.fields 5 _ _ (by decide +kernel), optField_eq r.fields 6 _ _ (by decide +kernel)]
  rw [fieldAt_eq (i := 2) (by omega), fieldAt_eq (i := 3) (by omega), fieldAt_eq (i := 4) (by omega)]
  simp only [Out.ok_bind]

/-- C49 for alias records: one maps, and to what, exactly as its fields say. -/
theorem C49_alias (pf : Profile) (r : BRecord) (ctx : MapCtx) (ht : ctx.strtab.bytes.length < 2 ^ 64)
    (a : Alias) : Alias.tryMap pf r ctx = .ok a ↔ AliasSays ctx r.fields a := by
  by_cases hv : 2 ≤ ctx.version.toNat
  case neg =>
    have hu : ctx.useStrtab = false := by rw [← Bool.not_eq_true, useStrtab_iff]; exact hv
    constructor
    · intro h; simp [Alias.tryMap, hu] at h
    · intro h; exact absurd h.version hv
  by_cases hl : 5 ≤ r.fields.length
  case neg =>
    have hu := (useStrtab_iff ctx).2 hv
    constructor
    · intro h; simp [Alias.tryMap, hu] at h; rw [if_pos (by omega)] at h; simp at h
    · intro h; exact absurd h.length hl
  rw [Alias.tryMap_eq pf r ctx hv hl]
  simp only [Out.bind_eq_ok, Out.mapErr_eq_ok, ofOption_eq_ok, tryGet_iff pf _ ht, TypeTable.get, C50_visibility,
    C50_dllStorageClass, Out.ok.injEq]
  constructor
  · rintro ⟨name, h1, ty, h2, vi, h3, st, h4, rfl⟩
    exact {
      version := hv, length := hl, name := h1, type := h2, valueIndex := rfl
      linkage := (linkage_stands _ _).1 rfl
      visibility := h3, storageClass := h4
      tlsMode := (threadLocal_stands _ _).1 rfl
      unnamedAddr := (unnamedAddr_stands _ _).1 rfl
      preemptionSpecifier := (preemption_stands _ _).1 rfl }
  · intro h
    refine ⟨_, h.name, _, h.type, _, h.visibility, _, h.storageClass, ?_⟩
    have h1 := (linkage_stands _ _).2 h.linkage
    have h2 := (threadLocal_stands _ _).2 h.tlsMode
    have h3 := (unnamedAddr_stands _ _).2 h.unnamedAddr
    have h4 := (preemption_stands _ _).2 h.preemptionSpecifier
    have h5 : a.valueIndex = r.fields[3]?.getD 0 := BitVec.eq_of_toNat_eq h.valueIndex
    cases a
    simp only [Alias.mk.injEq, true_and] at h1 h2 h3 h4 h5 ⊢
    exact ⟨h5.symm, h1, h2, h3, h4⟩

/-- C49: an error about an alias record says what is wrong with it. -/
theorem C49_alias_errors (pf : Profile) (r : BRecord) (ctx : MapCtx) (ht : ctx.strtab.bytes.length < 2 ^ 64)
    (e : AliasError) (h : Alias.tryMap pf r ctx = .err e) : AliasErrorMeans ctx r.fields e := by
  by_cases hv : 2 ≤ ctx.version.toNat
  case neg =>
    have hu : ctx.useStrtab = false := by rw [← Bool.not_eq_true, useStrtab_iff]; exact hv
    simp [Alias.tryMap, hu] at h
    subst h
    exact Nat.lt_of_not_le hv
  by_cases hl : 5 ≤ r.fields.length
  case neg =>
    have hu := (useStrtab_iff ctx).2 hv
    simp [Alias.tryMap, hu] at h
    rw [if_pos (by omega)] at h
    cases h
    exact ⟨rfl, by omega⟩
  rw [Alias.tryMap_eq pf r ctx hv hl] at h
  rw [bind_eq_err, mapErr_eq_err] at h
  rcases h with ⟨e', h, rfl⟩ | ⟨name, -, h⟩
  · intro s hs
    exact not_ok_of_err h s ((tryGet_iff pf _ ht _ _ _).2 hs)
  rw [bind_eq_err, ofOption_eq_err] at h
  rcases h with ⟨h, rfl⟩ | ⟨ty, -, h⟩
  · exact ⟨rfl, by simpa [TypeTable.get] using h⟩
  rw [bind_eq_err, ofOption_eq_err] at h
  rcases h with ⟨h, rfl⟩ | ⟨vi, -, h⟩
  · refine ⟨rfl, fun x hc => ?_⟩
    rw [(C50_visibility _ x).2 hc] at h
    simp at h
  rw [bind_eq_err, ofOption_eq_err] at h
  rcases h with ⟨h, rfl⟩ | ⟨st, -, h⟩
  · refine ⟨rfl, fun x hc => ?_⟩
    rw [(C50_dllStorageClass _ x).2 hc] at h
    simp at h
  simp at h

/-- C49, as far as it holds: mapping an alias record always returns, except if the record is long enough and its name
range overflows; then it panics. -/
theorem C49_alias_returns_partial (pf : Profile) (r : BRecord) (ctx : MapCtx) :
    (Alias.tryMap pf r ctx).Returns ↔
      ¬ (2 ≤ ctx.version.toNat ∧ 5 ≤ r.fields.length ∧ NameOverflows ctx.strtab.bytes r.fields) := by
  by_cases hv : 2 ≤ ctx.version.toNat
  case neg =>
    have hu : ctx.useStrtab = false := by rw [← Bool.not_eq_true, useStrtab_iff]; exact hv
    simp [Alias.tryMap, hu, hv, Out.Returns]
  by_cases hl : 5 ≤ r.fields.length
  case neg =>
    have hu := (useStrtab_iff ctx).2 hv
    simp [Alias.tryMap, hu, hl]
    rw [if_pos (by omega)]
    trivial
  rw [Alias.tryMap_eq pf r ctx hv hl]
  constructor
  · rintro h ⟨-, -, ho⟩
    exact (tryGet_returns_iff pf _ _ _).1 h.of_bind.of_mapErr ho
  · intro h
    refine Out.Returns.bind (Out.Returns.mapErr ((tryGet_returns_iff pf _ _ _).2 fun hc => h ⟨hv, hl, hc⟩)) fun _ _ => ?_
    refine ofOption_returns.bind fun _ _ => ?_
    refine ofOption_returns.bind fun _ _ => ?_
    exact ofOption_returns.bind fun _ _ => trivial

/-! ## COMDATs -/

theorem Comdat.tryMap_eq (pf : Profile) (r : BRecord) (ctx : PartialMapCtx) (v : U64) (hver : ctx.version = some v)
    (hv : 2 ≤ v.toNat) (hl : r.fields.length = 3) :
    Comdat.tryMap pf r ctx =
      (ctx.strtab.tryGet pf ⟨r.fields[0]?.getD 0, r.fields[1]?.getD 0⟩).mapErr .name >>= fun name =>
      Out.ofOption (.selectionKind (r.fields[2]?.getD 0)) (tryFromPrimitive (r.fields[2]?.getD 0)) >>=
        fun selectionKind => .ok { selectionKind, name } := by
  have hb : (v ≥ 2) := BitVec.le_def.2 hv
  unfold Comdat.tryMap PartialMapCtx.useStrtab
  simp only [hver, Option.map_some, Out.ofOption_some, Out.mapErr_ok, Out.ok_bind, hb, decide_true, Bool.not_true,
    Bool.false_eq_true, if_false]
  rw [if_neg (by omega), fieldAt_eq (by omega), fieldAt_eq (by omega), fieldAt_eq (by omega)]
  simp only [Out.ok_bind]

theorem Comdat.tryMap_v1 (pf : Profile) (r : BRecord) (ctx : PartialMapCtx) (v : U64) (hver : ctx.version = some v)
    (hv : ¬ 2 ≤ v.toNat) : Comdat.tryMap pf r ctx = .err .v1Unsupported := by
  have hb : ¬ (v ≥ 2) := fun h => hv (BitVec.le_def.1 h)
  unfold Comdat.tryMap PartialMapCtx.useStrtab
  rw [hver]
  simp only [Option.map_some, Out.ofOption_some, Out.mapErr_ok, Out.ok_bind, hb, decide_false, Bool.not_false, if_true]

theorem Comdat.tryMap_short (pf : Profile) (r : BRecord) (ctx : PartialMapCtx) (v : U64) (hver : ctx.version = some v)
    (hv : 2 ≤ v.toNat) (hl : r.fields.length ≠ 3) : Comdat.tryMap pf r ctx = .err (.tooShort r.fields.length) := by
  have hb : (v ≥ 2) := BitVec.le_def.2 hv
  unfold Comdat.tryMap PartialMapCtx.useStrtab
  rw [hver]
  simp only [Option.map_some, Out.ofOption_some, Out.mapErr_ok, Out.ok_bind, hb, decide_true, Bool.not_true,
    Bool.false_eq_true, if_false]
  rw [if_pos hl]

/-- C49 for COMDAT records: one maps, and to what, exactly as its three fields say (with the crate's numbering of the
selection kinds). -/
theorem C49_comdat (pf : Profile) (r : BRecord) (ctx : PartialMapCtx) (v : U64) (hver : ctx.version = some v)
    (ht : ctx.strtab.bytes.length < 2 ^ 64) (c : Comdat) :
    Comdat.tryMap pf r ctx = .ok c ↔ ComdatSays v ctx.strtab.bytes r.fields c := by
  by_cases hv : 2 ≤ v.toNat
  case neg =>
    rw [Comdat.tryMap_v1 pf r ctx v hver hv]
    exact ⟨by simp, fun h => absurd h.version hv⟩
  by_cases hl : r.fields.length = 3
  case neg =>
    rw [Comdat.tryMap_short pf r ctx v hver hv hl]
    exact ⟨by simp, fun h => absurd h.length hl⟩
  rw [Comdat.tryMap_eq pf r ctx v hver hv hl]
  simp only [Out.bind_eq_ok, Out.mapErr_eq_ok, ofOption_eq_ok, tryGet_iff pf _ ht, selectionKind_iff, Out.ok.injEq]
  constructor
  · rintro ⟨name, h1, k, h2, rfl⟩
    exact { version := hv, length := hl, name := h1, selectionKind := h2 }
  · intro h
    exact ⟨_, h.name, _, h.selectionKind, rfl⟩

/-- C49: an error about a COMDAT record says what is wrong with it. -/
theorem C49_comdat_errors (pf : Profile) (r : BRecord) (ctx : PartialMapCtx) (v : U64) (hver : ctx.version = some v)
    (ht : ctx.strtab.bytes.length < 2 ^ 64) (e : ComdatError) (h : Comdat.tryMap pf r ctx = .err e) :
    ComdatErrorMeans v ctx.strtab.bytes r.fields e := by
  by_cases hv : 2 ≤ v.toNat
  case neg =>
    rw [Comdat.tryMap_v1 pf r ctx v hver hv] at h
    cases h
    exact Nat.lt_of_not_le hv
  by_cases hl : r.fields.length = 3
  case neg =>
    rw [Comdat.tryMap_short pf r ctx v hver hv hl] at h
    cases h
    exact ⟨rfl, hl⟩
  rw [Comdat.tryMap_eq pf r ctx v hver hv hl] at h
  rw [bind_eq_err, mapErr_eq_err] at h
  rcases h with ⟨e', h, rfl⟩ | ⟨name, -, h⟩
  · intro s hs
    exact not_ok_of_err h s ((tryGet_iff pf _ ht _ _ _).2 hs)
  rw [bind_eq_err, ofOption_eq_err] at h
  rcases h with ⟨h, rfl⟩ | ⟨st, -, h⟩
  · refine ⟨rfl, fun x hc => ?_⟩
    rw [(selectionKind_iff _ x).2 hc] at h
    simp at h
  simp at h

/-- C49, as far as it holds: mapping a COMDAT record returns unless its name range overflows. -/
theorem C49_comdat_returns_partial (pf : Profile) (r : BRecord) (ctx : PartialMapCtx) (v : U64)
    (hver : ctx.version = some v) :
    (Comdat.tryMap pf r ctx).Returns ↔
      ¬ (2 ≤ v.toNat ∧ r.fields.length = 3 ∧ NameOverflows ctx.strtab.bytes r.fields) := by
  by_cases hv : 2 ≤ v.toNat
  case neg =>
    rw [Comdat.tryMap_v1 pf r ctx v hver hv]
    simp [hv, Out.Returns]
  by_cases hl : r.fields.length = 3
  case neg =>
    rw [Comdat.tryMap_short pf r ctx v hver hv hl]
    simp [hl, Out.Returns]
  rw [Comdat.tryMap_eq pf r ctx v hver hv hl]
  constructor
  · rintro h ⟨-, -, ho⟩
    exact (tryGet_returns_iff pf _ _ _).1 h.of_bind.of_mapErr ho
  · intro h
    refine Out.Returns.bind (Out.Returns.mapErr ((tryGet_returns_iff pf _ _ _).2 fun hc => h ⟨hv, hl, hc⟩)) fun _ _ => ?_
    exact ofOption_returns.bind fun _ _ => trivial

/-- Without a version nothing is said about string tables, and COMDAT records are refused. -/
theorem C49_comdat_no_version (pf : Profile) (r : BRecord) (ctx : PartialMapCtx) (hver : ctx.version = none) :
    Comdat.tryMap pf r ctx = .err (.map (.context .noVersion)) := by
  unfold Comdat.tryMap PartialMapCtx.useStrtab
  simp [hver]

/-! ## Where the records are not read as LLVM writes them -/

/-- C49 is false of the alignment: a record with another alignment number that agrees in the low byte maps to the same
function; for example 257, which stands for no alignment there is, to the alignment 1 stands for. -/
theorem C49_alignment_truncated (pf : Profile) (ctx : MapCtx) (ht : ctx.strtab.bytes.length < 2 ^ 64) (r r' : BRecord)
    (f : FunctionRecord) (h : FunctionRecord.tryMap pf r ctx = .ok f)
    (hl : r'.fields.length = r.fields.length) (hs : ∀ i, i ≠ 7 → field r'.fields i = field r.fields i)
    (h7 : field r'.fields 7 % 256 = field r.fields 7 % 256) : FunctionRecord.tryMap pf r' ctx = .ok f := by
  rw [C49_function pf _ ctx ht] at h ⊢
  exact {
    version := h.version
    length := by rw [hl]; exact h.length
    name := by rw [hs 0 (by omega), hs 1 (by omega)]; exact h.name
    type := by rw [hs 2 (by omega)]; exact h.type
    callingConvention := by rw [hs 3 (by omega)]; exact h.callingConvention
    isDeclaration := by rw [hs 4 (by omega)]; exact h.isDeclaration
    linkage := by rw [hs 5 (by omega)]; exact h.linkage
    attributes := by rw [hs 6 (by omega)]; exact h.attributes
    alignment := by rw [h7]; exact h.alignment
    «section» := by rw [hs 8 (by omega)]; exact h.section
    visibility := by rw [hs 9 (by omega)]; exact h.visibility
    gcName := by rw [hs 10 (by omega)]; exact h.gcName
    unnamedAddr := by rw [hs 11 (by omega)]; exact h.unnamedAddr
    storageClass := by rw [hs 13 (by omega)]; exact h.storageClass }

/-- C49 is false of COMDATs as LLVM writes them, for every kind: `any` and the others are reported as the next kind, and
`samesize` is refused. -/
theorem C49_comdat_kinds_shifted (pf : Profile) (r : BRecord) (ctx : PartialMapCtx) (v : U64)
    (hver : ctx.version = some v) (ht : ctx.strtab.bytes.length < 2 ^ 64) (k : SelectionKind)
    (hk : (field r.fields 2, k) ∈ llvmSelectionKindTable) (c : Comdat) (h : Comdat.tryMap pf r ctx = .ok c) :
    c.selectionKind ≠ k := by
  have h2 := ((C49_comdat pf r ctx v hver ht c).1 h).selectionKind
  generalize field r.fields 2 = n at hk h2
  generalize c.selectionKind = k' at h2
  simp only [llvmSelectionKindTable, selectionKindTable, numbered, List.mem_cons, Prod.mk.injEq, List.not_mem_nil,
    or_false] at hk h2
  rintro rfl
  rcases hk with ⟨rfl, rfl⟩ | ⟨rfl, rfl⟩ | ⟨rfl, rfl⟩ | ⟨rfl, rfl⟩ | ⟨rfl, rfl⟩ <;> simp at h2

/-- The part of an alias record as LLVM writes it (`BitcodeWriter.cpp`, `MODULE_CODE_ALIAS`: name, type, address space,
aliasee, linkage, visibility, ...). -/
structure LlvmAlias where
  offset : U64
  size : U64
  type : U64
  addressSpace : U64
  aliasee : U64
  linkage : U64
  rest : List U64

/-- The fields of the record LLVM writes. -/
def LlvmAlias.fields (a : LlvmAlias) : List U64 :=
  a.offset :: a.size :: a.type :: a.addressSpace :: a.aliasee :: a.linkage :: a.rest

/-- C49 is false of aliases as LLVM writes them: what is reported as the number of the aliasee is the address space,
and what is reported as the linkage is the meaning of the number of the aliasee. -/
theorem C49_alias_layout_wrong (pf : Profile) (ctx : MapCtx) (ht : ctx.strtab.bytes.length < 2 ^ 64) (l : LlvmAlias)
    (abbrev? : Option U64) (a : Alias) (h : Alias.tryMap pf ⟨abbrev?, 14, l.fields⟩ ctx = .ok a) :
    a.valueIndex = l.addressSpace ∧ Stands linkageTable .external l.aliasee.toNat a.linkage ∧
    (l.linkage.toNat, a.visibility) ∈ visibilityTable := by
  have h1 := (C49_alias pf _ ctx ht a).1 h
  exact ⟨BitVec.eq_of_toNat_eq h1.valueIndex, h1.linkage, h1.visibility⟩

/-! ## Examples -/

/-- A context with two types (`void` and a function type), one section, one garbage collector and the names `mainx`. -/
def exampleCtx : MapCtx where
  version := 2
  datalayout := .default
  sectionTable := [".text".toList]
  gcTable := ["shadow-stack".toList]
  strtab := ⟨utf8 "mainx".toList⟩
  attributeGroups := []
  attributes := []
  typeTable := [.prim .void, .function (.prim .void) [] false]
  comdats := []

/-- The function `main`, with calling convention `fastcc`, internal linkage, section `.text` and hidden visibility. -/
example (pf : Profile) : (FunctionRecord.tryMap pf ⟨none, 8, [0, 4, 1, 8, 0, 3, 0, 5, 1, 1]⟩ exampleCtx) =
    .ok { name := "main".toList, ty := ⟨.prim .void, [], false⟩, callingConvention := .fast, isDeclaration := false,
          linkage := .internal, attributes := none, alignment := ⟨some ⟨4⟩⟩, «section» := some ".text".toList,
          visibility := .hidden, gcName := none, unnamedAddr := .none, storageClass := .default } := by
  cases pf <;> decide +kernel

example (pf : Profile) : FunctionRecord.tryMap pf ⟨none, 8, [0, 4, 0, 8, 0, 3, 0, 5, 1, 1]⟩ exampleCtx = .err .type ∧
    FunctionRecord.tryMap pf ⟨none, 8, [0, 4, 2, 8, 0, 3, 0, 5, 1, 1]⟩ exampleCtx = .err (.typeId 2) ∧
    FunctionRecord.tryMap pf ⟨none, 8, [0, 4, 1, 8, 0, 3, 1, 5, 1, 1]⟩ exampleCtx = .err (.attribute 1) ∧
    FunctionRecord.tryMap pf ⟨none, 8, [0, 4, 1, 8, 0, 3, 0, 5, 2, 1]⟩ exampleCtx = .err (.section 1) ∧
    FunctionRecord.tryMap pf ⟨none, 8, [0, 4, 1, 8, 0, 3, 0, 5, 1, 1, 2]⟩ exampleCtx = .err (.gc 1) ∧
    FunctionRecord.tryMap pf ⟨none, 8, [0, 4, 1, 8, 0, 3, 0, 65, 1, 1]⟩ exampleCtx =
      .err (.alignment (.shiftTooBig 64)) ∧
    FunctionRecord.tryMap pf ⟨none, 8, [0, 6, 1, 8, 0, 3, 0, 5, 1, 1]⟩ exampleCtx = .err (.strtab .badRange) ∧
    FunctionRecord.tryMap pf ⟨none, 8, [0, 4]⟩ exampleCtx = .err (.tooShort 2) ∧
    FunctionRecord.tryMap pf ⟨none, 8, [0, 4]⟩ { exampleCtx with version := 1 } = .err .v1Unsupported := by
  cases pf <;> decide +kernel

/-- The name range of this record overflows. -/
example (pf : Profile) : ¬ (FunctionRecord.tryMap pf ⟨none, 8, [1, 0xffffffffffffffff, 1, 8, 0, 3, 0, 5, 1, 1]⟩
    exampleCtx).Returns := by
  cases pf <;> decide +kernel

/-- 257 and 1 are the same alignment. -/
example (pf : Profile) :
    FunctionRecord.tryMap pf ⟨none, 8, [0, 4, 1, 8, 0, 3, 0, 257, 1, 1]⟩ exampleCtx =
      FunctionRecord.tryMap pf ⟨none, 8, [0, 4, 1, 8, 0, 3, 0, 1, 1, 1]⟩ exampleCtx ∧
    (FunctionRecord.tryMap pf ⟨none, 8, [0, 4, 1, 8, 0, 3, 0, 1, 1, 1]⟩ exampleCtx).Returns := by
  cases pf <;> decide +kernel

example (pf : Profile) : Alias.tryMap pf ⟨none, 14, [4, 1, 1, 7, 3, 1, 0, 2, 1, 1]⟩ exampleCtx =
    .ok { name := "x".toList, ty := .function (.prim .void) [] false, valueIndex := 7, linkage := .internal, visibility := .hidden,
          storageClass := .default, tlsMode := .localDynamicTls, unnamedAddr := .global,
          preemptionSpecifier := .dsoLocal } := by
  cases pf <;> decide +kernel

example (pf : Profile) : Comdat.tryMap pf ⟨none, 12, [0, 4, 0]⟩
    { PartialMapCtx.default with version := some 2, strtab := ⟨utf8 "mainx".toList⟩ } =
      .ok { selectionKind := .any, name := "main".toList } ∧
    Comdat.tryMap pf ⟨none, 12, [0, 4, 1]⟩
    { PartialMapCtx.default with version := some 2, strtab := ⟨utf8 "mainx".toList⟩ } =
      .ok { selectionKind := .exactMatch, name := "main".toList } ∧
    Comdat.tryMap pf ⟨none, 12, [0, 4, 5]⟩
    { PartialMapCtx.default with version := some 2, strtab := ⟨utf8 "mainx".toList⟩ } = .err (.selectionKind 5) := by
  cases pf <;> decide +kernel

end Verif
