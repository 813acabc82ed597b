import Verif.Support.EnumLemmas
import Verif.Support.EnumSpec
import Verif.Mapper.UnrollLemmas

/-! C50: enumerations. -/

namespace Verif

theorem decode_table {α : Type} [NumEnum α] [LawfulNumEnum α] {t : List (Nat × α)}
    (ht : t = (NumEnum.all : List α).map fun a => ((NumEnum.code a).toNat, a)) (v : U64) (a : α) :
    tryFromPrimitive v = some a ↔ (v.toNat, a) ∈ t := by
  rw [tryFromPrimitive_iff, ht, List.mem_map]
  constructor
  · rintro rfl; exact ⟨a, LawfulNumEnum.complete a, rfl⟩
  · rintro ⟨b, -, hb⟩
    simp only [Prod.mk.injEq] at hb
    obtain ⟨h1, rfl⟩ := hb
    exact BitVec.eq_of_toNat_eq h1

/-- C50. For each enumeration: a number decodes to an enumerator iff the enumerator has that number; any other number is
rejected. -/
theorem C50_decode {α : Type} [NumEnum α] [LawfulNumEnum α] (v : U64) :
    (∀ a : α, tryFromPrimitive v = some a ↔ NumEnum.code a = v) ∧
    ((tryFromPrimitive v : Option α) = none ↔ ∀ a : α, NumEnum.code a ≠ v) ∧
    (∀ a b : α, NumEnum.code a = NumEnum.code b → a = b) := by
  refine ⟨fun a => tryFromPrimitive_iff, ⟨fun h a hc => ?_, fun h => ?_⟩, fun a b h => ?_⟩
  · rw [tryFromPrimitive_iff.2 hc] at h; simp at h
  · cases hc : (tryFromPrimitive v : Option α) with
    | none => rfl
    | some a => exact absurd (tryFromPrimitive_iff.1 hc) (h a)
  · have h1 := tryFromPrimitive_code a
    rw [h, tryFromPrimitive_code] at h1
    exact (Option.some.inj h1).symm

/-! The numbers are LLVM's. -/

theorem C50_reservedBlockId (v : U64) (a : ReservedBlockId) :
    tryFromPrimitive v = some a ↔ (v.toNat, a) ∈ Spec.reservedBlockIdTable :=
  decode_table rfl v a

theorem C50_irBlockId (v : U64) (a : IrBlockId) : tryFromPrimitive v = some a ↔ (v.toNat, a) ∈ Spec.irBlockIdTable :=
  decode_table rfl v a

theorem C50_identificationCode (v : U64) (a : IdentificationCode) :
    tryFromPrimitive v = some a ↔ (v.toNat, a) ∈ Spec.identificationCodeTable :=
  decode_table rfl v a

theorem C50_moduleCode (v : U64) (a : ModuleCode) :
    tryFromPrimitive v = some a ↔ (v.toNat, a) ∈ Spec.moduleCodeTable :=
  decode_table rfl v a

theorem C50_typeCode (v : U64) (a : TypeCode) : tryFromPrimitive v = some a ↔ (v.toNat, a) ∈ Spec.typeCodeTable :=
  decode_table rfl v a

theorem C50_strtabCode (v : U64) (a : StrtabCode) :
    tryFromPrimitive v = some a ↔ (v.toNat, a) ∈ Spec.strtabCodeTable :=
  decode_table rfl v a

theorem C50_symtabCode (v : U64) (a : SymtabCode) :
    tryFromPrimitive v = some a ↔ (v.toNat, a) ∈ Spec.symtabCodeTable :=
  decode_table rfl v a

theorem C50_attributeCode (v : U64) (a : AttributeCode) :
    tryFromPrimitive v = some a ↔ (v.toNat, a) ∈ Spec.attributeCodeTable :=
  decode_table rfl v a

theorem C50_functionCode (v : U64) (a : FunctionCode) :
    tryFromPrimitive v = some a ↔ (v.toNat, a) ∈ Spec.functionCodeTable :=
  decode_table rfl v a

theorem C50_unaryOpcode (v : U64) (a : UnaryOpcode) :
    tryFromPrimitive v = some a ↔ (v.toNat, a) ∈ Spec.unaryOpcodeTable :=
  decode_table rfl v a

theorem C50_binaryOpcode (v : U64) (a : BinaryOpcode) :
    tryFromPrimitive v = some a ↔ (v.toNat, a) ∈ Spec.binaryOpcodeTable :=
  decode_table rfl v a

theorem C50_rmwOperation (v : U64) (a : RMWOperation) :
    tryFromPrimitive v = some a ↔ (v.toNat, a) ∈ Spec.rmwOperationTable :=
  decode_table rfl v a

theorem C50_visibility (v : U64) (a : Visibility) :
    tryFromPrimitive v = some a ↔ (v.toNat, a) ∈ Spec.visibilityTable :=
  decode_table rfl v a

theorem C50_dllStorageClass (v : U64) (a : DllStorageClass) :
    tryFromPrimitive v = some a ↔ (v.toNat, a) ∈ Spec.dllStorageClassTable :=
  decode_table rfl v a

theorem C50_callingConvention (v : U64) (a : CallingConvention) :
    tryFromPrimitive v = some a ↔ (v.toNat, a) ∈ Spec.callingConventionTable :=
  decode_table rfl v a

theorem C50_attributeKind (v : U64) (a : AttributeKind) :
    tryFromPrimitive v = some a ↔ (v.toNat, a) ∈ Spec.attributeKindTable :=
  decode_table rfl v a

theorem C50_attributeId (v : U64) (a : AttributeId) :
    tryFromPrimitive v = some a ↔ (v.toNat, a) ∈ Spec.attributeIdTable :=
  decode_table rfl v a

example : (tryFromPrimitive 17 : Option IrBlockId) = some .type ∧ (tryFromPrimitive 10 : Option ModuleCode) = none ∧
    (tryFromPrimitive (2 ^ 32 + 8) : Option IrBlockId) = none := by decide +kernel

/-! ## Block ids -/

theorem reserved_iff (v : U64) : (∃ r : ReservedBlockId, tryFromPrimitive v = some r) ↔ v.toNat ≤ 7 := by
  constructor
  · rintro ⟨r, h⟩
    rw [tryFromPrimitive_iff] at h
    subst h
    revert r; intro r; cases r <;> decide
  · intro h
    have : v = BitVec.ofNat 64 v.toNat := by simp
    rw [this]
    revert h
    generalize v.toNat = n
    intro h
    have : n = 0 ∨ n = 1 ∨ n = 2 ∨ n = 3 ∨ n = 4 ∨ n = 5 ∨ n = 6 ∨ n = 7 := by omega
    rcases this with rfl | rfl | rfl | rfl | rfl | rfl | rfl | rfl
    · exact ⟨.blockInfo, by decide +kernel⟩
    · exact ⟨.reserved1, by decide +kernel⟩
    · exact ⟨.reserved2, by decide +kernel⟩
    · exact ⟨.reserved3, by decide +kernel⟩
    · exact ⟨.reserved4, by decide +kernel⟩
    · exact ⟨.reserved5, by decide +kernel⟩
    · exact ⟨.reserved6, by decide +kernel⟩
    · exact ⟨.reserved7, by decide +kernel⟩

theorem numbered_iff {α : Type} (n : Nat) (l : List α) (k : Nat) :
    (∃ a, (k, a) ∈ Spec.numbered n l) ↔ n ≤ k ∧ k < n + l.length := by
  induction l generalizing n with
  | nil => simp [Spec.numbered]
  | cons x l ih =>
    simp only [Spec.numbered, List.mem_cons, Prod.mk.injEq, List.length_cons]
    constructor
    · rintro ⟨a, ⟨rfl, -⟩ | h⟩
      · omega
      · have := (ih (n + 1)).1 ⟨a, h⟩; omega
    · intro h
      by_cases hk : k = n
      · exact ⟨x, .inl ⟨hk, rfl⟩⟩
      · obtain ⟨a, ha⟩ := (ih (n + 1)).2 (by omega)
        exact ⟨a, .inr ha⟩

theorem ir_iff (v : U64) : (∃ r : IrBlockId, tryFromPrimitive v = some r) ↔ 8 ≤ v.toNat ∧ v.toNat ≤ 26 := by
  simp only [C50_irBlockId]
  unfold Spec.irBlockIdTable
  rw [numbered_iff]
  simp only [List.length_cons, List.length_nil]
  omega

/-- C50, block ids: reserved up to 7, IR from 8 to 26, unknown above; and the number can be recovered, so that different
numbers never give the same id. -/
theorem C50_block_ids (v : U64) :
    ((∃ r, BlockId.ofU64 v = .reserved r) ↔ v.toNat ≤ 7) ∧
    ((∃ i, BlockId.ofU64 v = .ir i) ↔ 8 ≤ v.toNat ∧ v.toNat ≤ 26) ∧
    (BlockId.ofU64 v = .unknown v ↔ 27 ≤ v.toNat) ∧
    (∀ w, BlockId.ofU64 v = .unknown w → w = v) ∧
    (∀ w, BlockId.ofU64 v = BlockId.ofU64 w → v = w) ∧
    (∀ r : ReservedBlockId, BlockId.ofU64 v = .reserved r ↔ (v.toNat, r) ∈ Spec.reservedBlockIdTable) ∧
    (∀ i : IrBlockId, BlockId.ofU64 v = .ir i ↔ (v.toNat, i) ∈ Spec.irBlockIdTable) := by
  have hr := reserved_iff v
  have hi := ir_iff v
  simp only [← C50_reservedBlockId, ← C50_irBlockId]
  refine ⟨?_, ?_, ?_, ?_, fun w h => BlockId.ofU64_injective h, ?_, ?_⟩ <;> unfold BlockId.ofU64
  all_goals
    cases h1 : (tryFromPrimitive v : Option ReservedBlockId) with
    | some r =>
      simp only [h1, Option.some.injEq, exists_eq', true_iff] at hr
      have : (tryFromPrimitive v : Option IrBlockId) = none := by
        cases h2 : (tryFromPrimitive v : Option IrBlockId) with
        | none => rfl
        | some i =>
          simp only [h2, Option.some.injEq, exists_eq', true_iff] at hi
          omega
      simp [this]
      try omega
    | none =>
      simp only [h1, reduceCtorEq, exists_false, false_iff] at hr
      cases h2 : (tryFromPrimitive v : Option IrBlockId) with
      | some i =>
        simp only [h2, Option.some.injEq, exists_eq', true_iff] at hi
        simp
        try omega
      | none =>
        simp only [h2, reduceCtorEq, exists_false, false_iff] at hi
        simp
        try omega

/-! ## Enumerations that decode every number -/

theorem numbered_lookup {α : Type} (f : Nat → α) (d : α) (n : Nat) (l : List α)
    (h : ∀ i (hi : i < l.length), f (n + i) = l[i]) (hd : ∀ k, n + l.length ≤ k → f k = d) (k : Nat) (hk : n ≤ k) (a : α) :
    f k = a ↔ (k, a) ∈ Spec.numbered n l ∨ (n + l.length ≤ k ∧ a = d) := by
  induction l generalizing n with
  | nil =>
    simp only [Spec.numbered, List.not_mem_nil, List.length_nil, false_or]
    rw [hd k (by simpa using hk)]
    exact ⟨fun h => ⟨by simpa using hk, h.symm⟩, fun h => h.2.symm⟩
  | cons x l ih =>
    simp only [Spec.numbered, List.mem_cons, Prod.mk.injEq, List.length_cons]
    by_cases hkn : k = n
    · subst hkn
      have h0 := h 0 (by simp)
      simp only [Nat.add_zero, List.getElem_cons_zero] at h0
      rw [h0]
      constructor
      · rintro rfl; exact .inl (.inl ⟨rfl, rfl⟩)
      · rintro ((⟨-, rfl⟩ | h1) | ⟨h1, -⟩)
        · rfl
        · have := (numbered_iff (k + 1) l k).1 ⟨a, h1⟩; omega
        · omega
    · rw [ih (n + 1) (fun i hi => by
        have := h (i + 1) (by simpa using hi)
        rw [List.getElem_cons_succ] at this
        rw [← this]; congr 1; omega) (fun k hk => hd k (by rw [List.length_cons]; omega)) (by omega)]
      constructor
      · rintro (h1 | ⟨h1, h2⟩)
        · exact .inl (.inr h1)
        · exact .inr ⟨by omega, h2⟩
      · rintro ((⟨h1, -⟩ | h1) | ⟨h1, h2⟩)
        · exact absurd h1 hkn
        · exact .inl h1
        · exact .inr ⟨by omega, h2⟩

/-- C50: linkage follows LLVM's table; unknown numbers are external. -/
theorem C50_linkage (v : U64) (a : Linkage) :
    Linkage.ofU64 v = a ↔ (v.toNat, a) ∈ Spec.linkageTable ∨ (20 ≤ v.toNat ∧ a = .external) := by
  let f : Nat → Linkage := fun n => match n with
    | 0 | 5 | 6 | 15 => .external
    | 1 | 16 => .weakAny
    | 2 => .appending
    | 3 => .internal
    | 4 | 18 => .linkOnceAny
    | 7 => .externalWeak
    | 8 => .common
    | 9 | 13 | 14 => .«private»
    | 10 | 17 => .weakOdr
    | 11 | 19 => .linkOnceOdr
    | 12 => .availableExternally
    | _ => .external
  refine numbered_lookup f .external 0 _ ?_ ?_ v.toNat (Nat.zero_le _) a
  · decide
  · intro k hk
    simp only [List.length_cons, List.length_nil] at hk
    match k, hk with
    | k + 20, _ => rfl

/-- C50: thread-local modes; unknown numbers are general dynamic. -/
theorem C50_thread_local (v : U64) (a : ThreadLocalMode) :
    (ThreadLocalMode.ofU64 v = a ↔
      (v.toNat, a) ∈ Spec.threadLocalModeTable ∨ (5 ≤ v.toNat ∧ a = .generalDynamicTls)) ∧
    ThreadLocalMode.ofU64 a.code = a := by
  refine ⟨?_, by cases a <;> decide +kernel⟩
  let f : Nat → ThreadLocalMode := fun n => match n with
    | 0 => .notThreadLocal
    | 1 => .generalDynamicTls
    | 2 => .localDynamicTls
    | 3 => .initialExecTls
    | 4 => .localExecTls
    | _ => .generalDynamicTls
  refine numbered_lookup f .generalDynamicTls 0 _ ?_ ?_ v.toNat (Nat.zero_le _) a
  · decide
  · intro k hk
    simp only [List.length_cons, List.length_nil] at hk
    match k, hk with
    | k + 5, _ => rfl

/-- C50: `unnamed_addr`; unknown numbers mean none. -/
theorem C50_unnamed_addr (v : U64) (a : UnnamedAddr) :
    (UnnamedAddr.ofU64 v = a ↔ (v.toNat, a) ∈ Spec.unnamedAddrTable ∨ (3 ≤ v.toNat ∧ a = .none)) ∧
    UnnamedAddr.ofU64 a.code = a := by
  refine ⟨?_, by cases a <;> decide +kernel⟩
  let f : Nat → UnnamedAddr := fun n => match n with
    | 0 => .none
    | 1 => .«global»
    | 2 => .«local»
    | _ => .none
  refine numbered_lookup f .none 0 _ ?_ ?_ v.toNat (Nat.zero_le _) a
  · decide
  · intro k hk
    simp only [List.length_cons, List.length_nil] at hk
    match k, hk with
    | k + 3, _ => rfl

/-- C50: preemption; unknown numbers mean preemptable. -/
theorem C50_preemption (v : U64) (a : RuntimePreemption) :
    (RuntimePreemption.ofU64 v = a ↔
      (v.toNat, a) ∈ Spec.runtimePreemptionTable ∨ (2 ≤ v.toNat ∧ a = .dsoPreemptable)) ∧
    RuntimePreemption.ofU64 a.code = a := by
  refine ⟨?_, by cases a <;> decide +kernel⟩
  let f : Nat → RuntimePreemption := fun n => match n with
    | 0 => .dsoPreemptable
    | 1 => .dsoLocal
    | _ => .dsoPreemptable
  refine numbered_lookup f .dsoPreemptable 0 _ ?_ ?_ v.toNat (Nat.zero_le _) a
  · decide
  · intro k hk
    simp only [List.length_cons, List.length_nil] at hk
    match k, hk with
    | k + 2, _ => rfl

example : Linkage.ofU64 17 = .weakOdr ∧ Linkage.ofU64 (2 ^ 40 + 3) = .external := by decide +kernel

end Verif
