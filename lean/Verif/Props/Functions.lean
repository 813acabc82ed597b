import Verif.Mapper.FunctionSpec
import Verif.Mapper.TypeLemmas
import Verif.Props.Enums
import Verif.Props.Tables

/-! C47 and C48: operators and function bodies. -/

namespace Verif
open Spec

namespace Spec

/-- `t` is an integer type or a vector of one. -/
def IsIntOrVector (t : Ty) : Prop :=
  IsInteger t ∨ ∃ n e, IsInteger e ∧ (t = .fixedVector n e ∨ t = .scalableVector n e)

/-- `t` is a floating-point type or a vector of one. -/
def IsFloatOrVector (t : Ty) : Prop :=
  IsFloat t ∨ ∃ n e, IsFloat e ∧ (t = .fixedVector n e ∨ t = .scalableVector n e)

/-- LLVM's binary opcodes: the operator on integers and the operator on floating-point numbers, where there is one. -/
def binaryOps : List (Nat × Option BinaryOp × Option BinaryOp) :=
  numbered 0 [(some .add, some .fAdd), (some .sub, some .fSub), (some .mul, some .fMul), (some .uDiv, none),
    (some .sDiv, some .fDiv), (some .uRem, none), (some .sRem, some .fRem), (some .shl, none), (some .lShr, none),
    (some .aShr, none), (some .and, none), (some .or, none), (some .xor, none)]

/-- `op` is the operator that opcode `v` stands for on operands of type `t`. -/
def Operator (v : U64) (t : Ty) (op : BinaryOp) : Prop :=
  ∃ i f, (v.toNat, i, f) ∈ binaryOps ∧ (IsIntOrVector t ∧ i = some op ∨ IsFloatOrVector t ∧ f = some op)

end Spec

theorem isFloatOrVector_iff (t : Ty) : t.isFloatingOrFloatingVector = true ↔ IsFloatOrVector t := by
  have hv : ∀ e, IsFloat e → ∃ p, e = .prim p := fun e ⟨p, _, h⟩ => ⟨p, h⟩
  unfold Ty.isFloatingOrFloatingVector IsFloatOrVector
  cases t <;> simp only [Ty.scalarType, isFloating_iff] <;> try simp
  · intro h; obtain ⟨p, hp⟩ := hv _ h; cases hp
  · intro h; obtain ⟨p, hp⟩ := hv _ h; cases hp

theorem isIntOrVector_iff (t : Ty) : t.isIntegerOrIntegerVector = true ↔ IsIntOrVector t := by
  have hv : ∀ e, IsInteger e → ∃ p, e = .integer p := fun e ⟨p, h⟩ => ⟨p, h⟩
  unfold Ty.isIntegerOrIntegerVector IsIntOrVector
  cases t <;> simp only [Ty.scalarType, isInteger_iff] <;> try simp
  · intro h; obtain ⟨p, hp⟩ := hv _ h; cases hp
  · intro h; obtain ⟨p, hp⟩ := hv _ h; cases hp

/-- No type is both. -/
theorem not_both (t : Ty) : (!t.isFloatingOrFloatingVector || !t.isIntegerOrIntegerVector) = true := by
  unfold Ty.isFloatingOrFloatingVector Ty.isIntegerOrIntegerVector
  generalize t.scalarType = s
  cases s with
  | prim p => cases p <;> rfl
  | _ => rfl

theorem binaryOpcode_known (v : U64) : (∃ o : BinaryOpcode, tryFromPrimitive v = some o) ↔ v.toNat < 13 := by
  simp only [C50_binaryOpcode]
  unfold Spec.binaryOpcodeTable
  rw [numbered_iff]
  simp

/-- What constructing a binary operator does, for every opcode and type: it fails. An unknown opcode is reported as such; with a
known one, every type is called invalid. -/
theorem C47_outcome (v : U64) (t : Ty) :
    (13 ≤ v.toNat → BinaryOp.tryFrom v t = .err (.opcode v)) ∧
    (v.toNat < 13 → BinaryOp.tryFrom v t = .err (.invalidType t)) := by
  unfold BinaryOp.tryFrom
  constructor
  · intro h
    cases hd : (tryFromPrimitive v : Option BinaryOpcode) with
    | none => rfl
    | some o => have := (binaryOpcode_known v).1 ⟨o, hd⟩; omega
  · intro h
    obtain ⟨o, ho⟩ := (binaryOpcode_known v).2 h
    rw [ho]
    simp only [Out.ofOption_some, Out.ok_bind, not_both, if_pos]

/-- C47 is false: whenever there is an operator for the opcode and the type, it is refused as being of an invalid type. The
check asks for a type that is floating-point and integer at the same time. -/
theorem C47_refused {v : U64} {t : Ty} {op : BinaryOp} (h : Operator v t op) :
    BinaryOp.tryFrom v t = .err (.invalidType t) := by
  obtain ⟨i, f, hm, -⟩ := h
  refine (C47_outcome v t).2 ?_
  have := (numbered_iff _ _ _).1 ⟨(i, f), hm⟩
  simpa using this.2

/-- Behind the check, the choice of the operator follows LLVM for the arithmetic opcodes and for those that are reserved to
integers it is the wrong way round: it takes floating-point types and refuses integers. -/
theorem C47_choice (o : BinaryOpcode) (t : Ty) :
    (o.code.toNat < 7 → ∀ (fp : Bool) (op : BinaryOp), BinaryOp.choose o fp t = .ok op ↔
      ∃ i f, (o.code.toNat, i, f) ∈ binaryOps ∧ (if fp then f else i) = some op) ∧
    (7 ≤ o.code.toNat → ∃ op, (o.code.toNat, some op, none) ∈ binaryOps ∧ BinaryOp.choose o true t = .ok op ∧
      BinaryOp.choose o false t = .err (.incompatibleType t)) := by
  constructor
  · intro h fp op
    cases o <;> first | exact absurd h (by decide) | skip
    all_goals
      simp only [BinaryOpcode.code, binaryOps, numbered, List.mem_cons, Prod.mk.injEq, List.not_mem_nil, or_false]
      cases fp <;> simp [BinaryOp.choose, eq_comm]
  · intro h
    cases o <;> first | exact absurd h (by decide) | skip
    all_goals exact ⟨_, by decide, rfl, rfl⟩

example : Operator 0 (.integer 32) .add ∧ Operator 4 (.fixedVector 4 (.prim .float)) .fDiv ∧
    Operator 12 (.scalableVector 2 (.integer 8)) .xor ∧ (∀ op, ¬ Operator 3 (.prim .double) op) ∧
    BinaryOp.tryFrom 0 (.integer 32) = .err (.invalidType (.integer 32)) ∧
    BinaryOp.tryFrom 13 (.integer 32) = .err (.opcode 13) := by
  refine ⟨⟨some .add, some .fAdd, by decide, .inl ⟨.inl ⟨_, rfl⟩, rfl⟩⟩,
    ⟨some .sDiv, some .fDiv, by decide, .inr ⟨.inr ⟨_, _, ⟨.float, by decide, rfl⟩, .inl rfl⟩, rfl⟩⟩,
    ⟨some .xor, none, by decide, .inl ⟨.inr ⟨_, _, ⟨_, rfl⟩, .inr rfl⟩, rfl⟩⟩, ?_, by decide +kernel, by decide +kernel⟩
  rintro op ⟨i, f, hm, ⟨h, -⟩ | ⟨-, h⟩⟩
  · rw [← isIntOrVector_iff] at h
    exact absurd h (by decide)
  · simp [binaryOps, numbered] at hm
    simp [hm.2] at h

/-- Unary operators: opcode 0 is `fneg`, and there is no other. -/
theorem C47_unary (v : U64) :
    (v = 0 → UnaryOp.tryFrom v = .ok .fNeg) ∧ (v ≠ 0 → UnaryOp.tryFrom v = .err (.opcode v)) := by
  constructor
  · rintro rfl; decide +kernel
  · intro h
    unfold UnaryOp.tryFrom
    cases hd : (tryFromPrimitive v : Option UnaryOpcode) with
    | none => rfl
    | some o =>
      have := tryFromPrimitive_iff.1 hd
      cases o
      exact absurd this.symm h

/-! ## Function bodies -/

theorem functionCode_table (c : FunctionCode) : (c.code.toNat, c) ∈ functionCodeTable :=
  (C50_functionCode _ _).1 (tryFromPrimitive_code c)

theorem unpackFields_cases (types : TypeTable) (c : FunctionCode) (r : BRecord) (hc : r.code.toNat ∈ [3, 19, 20, 44]) :
    (unpackFields c r 4 = .ok () ∧ Skipped types r) ∨ (∃ e, unpackFields c r 4 = .err e ∧ ¬ Skipped types r) := by
  unfold unpackFields
  by_cases h : r.fields.length = 4
  · exact .inl ⟨by rw [if_pos h], .inr (.inl ⟨hc, h⟩)⟩
  · refine .inr ⟨_, if_neg h, ?_⟩
    rintro (h1 | ⟨-, h1⟩ | ⟨h1, -⟩)
    · rw [h1] at hc; exact absurd hc (by decide)
    · exact h h1
    · rw [h1] at hc; exact absurd hc (by decide)

theorem functionStep_cases (types : TypeTable) (r : BRecord) :
    (functionStep types r = .ok () ∧ Skipped types r ∧ ¬ NotImplemented r) ∨
    (functionStep types r = .panic .unimplemented ∧ ¬ Skipped types r ∧ NotImplemented r) ∨
    (∃ e, functionStep types r = .err e ∧ ¬ Skipped types r ∧ ¬ NotImplemented r) := by
  rw [functionStep]
  cases hd : (tryFromPrimitive r.code : Option FunctionCode) with
  | none =>
    refine .inr (.inr ⟨_, rfl, ?_, ?_⟩)
    · have hk : ∀ c : FunctionCode, r.code ≠ c.code := by
        intro c hc
        rw [hc] at hd
        rw [show (tryFromPrimitive c.code : Option FunctionCode) = some c from tryFromPrimitive_code c] at hd
        simp at hd
      rintro (h | ⟨h, -⟩ | ⟨h, -⟩)
      · exact hk .declareBlocks h
      · have hb : ∀ k : Nat, k < 2 ^ 64 → r.code.toNat = k → r.code = BitVec.ofNat 64 k := by
          intro k hk h; apply BitVec.eq_of_toNat_eq; simp [h]; omega
        simp only [List.mem_cons, List.not_mem_nil, or_false] at h
        rcases h with h | h | h | h
        · exact hk .instCast (hb _ (by decide) h)
        · exact hk .instAlloca (hb _ (by decide) h)
        · exact hk .instLoad (hb _ (by decide) h)
        · exact hk .instStore (hb _ (by decide) h)
      · exact hk .instUnop h
    · rintro ⟨⟨c, hc⟩, -⟩
      have := (C50_functionCode r.code c).2 hc
      rw [this] at hd; simp at hd
  | some c =>
    have hc : r.code = c.code := (tryFromPrimitive_iff.1 hd).symm
    have hni : NotImplemented r ↔ c.code.toNat ∉ [1, 2, 3, 19, 20, 44, 56] := by
      unfold NotImplemented
      rw [hc]
      exact ⟨fun h => h.2, fun h => ⟨⟨c, functionCode_table c⟩, h⟩⟩
    have hns : c.code.toNat ∉ [1, 2, 3, 19, 20, 44, 56] → ¬ Skipped types r := by
      rintro h (h1 | ⟨h1, -⟩ | ⟨h1, -⟩)
      · rw [← hc, h1] at h; exact h (by decide)
      · rw [← hc] at h
        simp only [List.mem_cons, List.not_mem_nil, or_false] at h h1
        omega
      · rw [← hc, h1] at h; exact h (by decide)
    have hbad : c.code.toNat ∉ [1, 2, 3, 19, 20, 44, 56] → (Out.panic .unimplemented : Out FunctionBlockError Unit) =
        .panic .unimplemented ∧ ¬ Skipped types r ∧ NotImplemented r := fun h => ⟨rfl, hns h, hni.2 h⟩
    have hunpack : c.code.toNat ∈ [3, 19, 20, 44] →
        (unpackFields c r 4 = .ok () ∧ Skipped types r ∧ ¬ NotImplemented r) ∨
        (unpackFields c r 4 = .panic .unimplemented ∧ ¬ Skipped types r ∧ NotImplemented r) ∨
        (∃ e, unpackFields c r 4 = .err e ∧ ¬ Skipped types r ∧ ¬ NotImplemented r) := by
      intro h
      have hn : ¬ NotImplemented r := by
        rw [hni]
        intro h'
        simp only [List.mem_cons, List.not_mem_nil, or_false] at h h'
        omega
      rcases unpackFields_cases types c r (hc ▸ h) with ⟨h1, h2⟩ | ⟨e, h1, h2⟩
      · exact .inl ⟨h1, h2, hn⟩
      · exact .inr (.inr ⟨e, h1, h2, hn⟩)
    simp only [Out.ofOption_some, Out.ok_bind]
    cases c
    case declareBlocks => exact .inl ⟨rfl, .inl hc, fun h => hni.1 h (by decide)⟩
    case instCast => exact hunpack (by decide)
    case instAlloca => exact hunpack (by decide)
    case instLoad => exact hunpack (by decide)
    case instStore => exact hunpack (by decide)
    case instBinop =>
      have hn : ¬ NotImplemented r := fun h => hni.1 h (by decide)
      have hs : ¬ Skipped types r := by
        rintro (h1 | ⟨h1, -⟩ | ⟨h1, -⟩) <;> rw [hc] at h1 <;> exact absurd h1 (by decide)
      refine .inr (.inr ?_)
      dsimp only
      split
      · next a ty b op _ =>
        unfold instType
        cases types.get ty with
        | none => exact ⟨_, rfl, hs, hn⟩
        | some t =>
          simp only [Out.ofOption_some, Out.ok_bind]
          by_cases hv : op.toNat < 13
          · rw [(C47_outcome op t).2 hv]; exact ⟨_, rfl, hs, hn⟩
          · rw [(C47_outcome op t).1 (by omega)]; exact ⟨_, rfl, hs, hn⟩
      · exact ⟨_, rfl, hs, hn⟩
    case instUnop =>
      have hn : ¬ NotImplemented r := fun h => hni.1 h (by decide)
      have hsk : Skipped types r ↔ ∃ (v ty : U64), r.fields = [v, ty, 0] ∧ ty.toNat < types.length := by
        constructor
        · rintro (h1 | ⟨h1, -⟩ | ⟨-, h1⟩)
          · rw [hc] at h1; exact absurd h1 (by decide)
          · rw [hc] at h1; exact absurd h1 (by decide)
          · exact h1
        · exact fun h => .inr (.inr ⟨hc, h⟩)
      dsimp only
      split
      · next a ty op hf =>
        have hsk' : Skipped types r ↔ op = 0 ∧ ty.toNat < types.length := by
          rw [hsk, hf]
          constructor
          · rintro ⟨v, ty', h, h2⟩
            simp only [List.cons.injEq, and_true] at h
            obtain ⟨rfl, rfl, rfl⟩ := h
            exact ⟨rfl, h2⟩
          · rintro ⟨rfl, h⟩; exact ⟨_, _, rfl, h⟩
        unfold instType TypeTable.get
        cases ht : types[ty.toNat]? with
        | none =>
          refine .inr (.inr ⟨_, rfl, ?_, hn⟩)
          rw [hsk']
          have := List.getElem?_eq_none_iff.1 ht
          omega
        | some t =>
          have hlt := (List.getElem?_eq_some_iff.1 ht).1
          simp only [Out.ofOption_some, Out.ok_bind]
          by_cases h0 : op = 0
          · refine .inl ⟨?_, hsk'.2 ⟨h0, hlt⟩, hn⟩
            rw [(C47_unary op).1 h0]; rfl
          · refine .inr (.inr ⟨.badUnOp (.opcode op), ?_, fun h => h0 (hsk'.1 h).1, hn⟩)
            rw [(C47_unary op).2 h0]; rfl
      · next hf =>
        refine .inr (.inr ⟨_, rfl, ?_, hn⟩)
        rw [hsk]
        rintro ⟨v, ty, h, -⟩
        exact hf _ _ _ h
    all_goals exact .inr (.inl (hbad (by decide)))

theorem functionLoop_cases (types : TypeTable) (rs : List BRecord) :
    (functionLoop types rs = .ok () ∧ ∀ r ∈ rs, Skipped types r) ∨
    (∃ pre r post, rs = pre ++ r :: post ∧ (∀ x ∈ pre, Skipped types x) ∧ ¬ Skipped types r ∧
      ((functionLoop types rs = .panic .unimplemented ∧ NotImplemented r) ∨
        ((∃ e, functionLoop types rs = .err e) ∧ ¬ NotImplemented r))) := by
  induction rs with
  | nil => exact .inl ⟨rfl, by simp⟩
  | cons r rs ih =>
    rw [show functionLoop types (r :: rs) = (do functionStep types r; functionLoop types rs) from rfl]
    rcases functionStep_cases types r with ⟨h, hs, hn⟩ | ⟨h, hs, hn⟩ | ⟨e, h, hs, hn⟩
    · rw [h]
      simp only [Out.ok_bind]
      rcases ih with ⟨h1, h2⟩ | ⟨pre, x, post, rfl, hpre, hx, hrest⟩
      · refine .inl ⟨h1, ?_⟩
        intro y hy
        rcases List.mem_cons.1 hy with rfl | hy
        · exact hs
        · exact h2 y hy
      · refine .inr ⟨r :: pre, x, post, rfl, ?_, hx, hrest⟩
        intro y hy
        rcases List.mem_cons.1 hy with rfl | hy
        · exact hs
        · exact hpre y hy
    · rw [h]
      exact .inr ⟨[], r, rs, rfl, by simp, hs, .inl ⟨rfl, hn⟩⟩
    · rw [h]
      exact .inr ⟨[], r, rs, rfl, by simp, hs, .inr ⟨⟨e, rfl⟩, hn⟩⟩

theorem tryFrom_cases (b : UBlock) (types : TypeTable) :
    (∃ n, DeclaresBlocks b.records n ∧
      FunctionBlock.tryFrom b types = (do blockCapacity n; functionLoop types b.records; .panic .unimplemented)) ∨
    ((∀ n, ¬ DeclaresBlocks b.records n) ∧ ∃ e, FunctionBlock.tryFrom b types = .err e) := by
  unfold FunctionBlock.tryFrom
  rw [show FunctionCode.declareBlocks.code = 1 from rfl]
  have hex := (C30_exactly_one b.records 1).1
  cases h : Records.exactlyOne b.records 1 with
  | ok d =>
    obtain ⟨pre, post, he, hc, hx⟩ := (hex d).1 h
    simp only [Out.mapErr, Out.ok_bind]
    cases hf : d.fields with
    | nil =>
      refine .inr ⟨?_, _, rfl⟩
      rintro n ⟨pre', d', post', fs, he', hc', hf', hx'⟩
      have := (hex d').2 ⟨pre', post', he', hc', hx'⟩
      rw [h] at this
      cases this
      rw [hf] at hf'; simp at hf'
    | cons n fs => exact .inl ⟨n, ⟨pre, d, post, fs, he, hc, hf, hx⟩, rfl⟩
  | err e =>
    refine .inr ⟨?_, _, rfl⟩
    rintro n ⟨pre', d', post', fs, he', hc', hf', hx'⟩
    have := (hex d').2 ⟨pre', post', he', hc', hx'⟩
    rw [h] at this; simp at this
  | panic p => unfold Records.exactlyOne at h; split at h <;> simp at h
  | diverge => unfold Records.exactlyOne at h; split at h <;> simp at h

theorem declaresBlocks_unique {rs : List BRecord} {n m : U64} (h1 : DeclaresBlocks rs n) (h2 : DeclaresBlocks rs m) :
    n = m := by
  obtain ⟨pre, d, post, fs, he, hc, hf, hx⟩ := h1
  obtain ⟨pre', d', post', fs', he', hc', hf', hx'⟩ := h2
  have a := ((C30_exactly_one rs 1).1 d).2 ⟨pre, post, he, hc, hx⟩
  have b := ((C30_exactly_one rs 1).1 d').2 ⟨pre', post', he', hc', hx'⟩
  rw [a] at b
  cases b
  rw [hf] at hf'
  simp at hf'
  exact hf'.1

/-- C48 is false: no function body maps, whatever it contains. -/
theorem C48_never_maps (b : UBlock) (types : TypeTable) (f : FunctionBlock) : FunctionBlock.tryFrom b types ≠ .ok f := by
  rcases tryFrom_cases b types with ⟨n, -, h⟩ | ⟨-, e, h⟩
  · rw [h]
    unfold blockCapacity
    split
    · simp only [Out.ok_bind]
      rcases functionLoop_cases types b.records with ⟨h1, -⟩ | ⟨_, _, _, _, _, _, ⟨h1, -⟩ | ⟨⟨e, h1⟩, -⟩⟩ <;> rw [h1] <;> simp
    · simp
  · rw [h]; simp

/-- C48 is false: mapping a function body panics exactly if it declares its number of blocks, and either that number is too
large to reserve memory for, or all its records are read and dropped, or the first one that is not is of a kind nothing is
implemented for. -/
theorem C48_panics_iff (b : UBlock) (types : TypeTable) :
    (∃ p, FunctionBlock.tryFrom b types = .panic p) ↔
      ∃ n, DeclaresBlocks b.records n ∧
        (2 ^ 63 ≤ n.toNat * 24 ∨ (∀ r ∈ b.records, Skipped types r) ∨
          ∃ pre r post, b.records = pre ++ r :: post ∧ (∀ x ∈ pre, Skipped types x) ∧ NotImplemented r) := by
  have hexcl : ∀ r, Skipped types r → ¬ NotImplemented r := by
    intro r hs hn
    rcases functionStep_cases types r with ⟨-, -, h⟩ | ⟨-, h, -⟩ | ⟨_, -, h, -⟩
    · exact h hn
    · exact h hs
    · exact h hs
  rcases tryFrom_cases b types with ⟨n, hn, h⟩ | ⟨hno, e, h⟩
  · rw [h]
    unfold blockCapacity basicBlockSize
    by_cases hcap : n.toNat * 24 < 2 ^ 63
    · rw [if_pos hcap]
      simp only [Out.ok_bind]
      rcases functionLoop_cases types b.records with ⟨h1, h2⟩ | ⟨pre, r, post, he, hpre, hr, ⟨h1, h2⟩ | ⟨⟨e, h1⟩, h2⟩⟩
      · rw [h1]
        exact ⟨fun _ => ⟨n, hn, .inr (.inl h2)⟩, fun _ => ⟨_, rfl⟩⟩
      · rw [h1]
        exact ⟨fun _ => ⟨n, hn, .inr (.inr ⟨pre, r, post, he, hpre, h2⟩)⟩, fun _ => ⟨_, rfl⟩⟩
      · rw [h1]
        refine ⟨by simp, ?_⟩
        rintro ⟨m, hm, hbig | hall | ⟨pre', r', post', he', hpre', hr'⟩⟩
        · rw [declaresBlocks_unique hm hn] at hbig; omega
        · exact absurd (hall r (by rw [he]; simp)) hr
        · rw [he] at he'
          rcases List.append_eq_append_iff.1 he' with ⟨l, hl1, hl2⟩ | ⟨l, hl1, hl2⟩
          · cases l with
            | nil => simp at hl2; rw [← hl2.1] at hr'; exact absurd hr' h2
            | cons y l =>
              simp at hl2
              exact absurd (hpre' r (by rw [hl1, hl2.1]; simp)) hr
          · cases l with
            | nil => simp at hl2; rw [hl2.1] at hr'; exact absurd hr' h2
            | cons y l =>
              simp at hl2
              exact absurd hr' (hexcl _ (hpre r' (by rw [hl1, hl2.1]; simp)))
    · rw [if_neg hcap]
      exact ⟨fun _ => ⟨n, hn, .inl (by omega)⟩, fun _ => ⟨_, rfl⟩⟩
  · rw [h]
    refine ⟨by simp, ?_⟩
    rintro ⟨n, hn, -⟩
    exact absurd hn (hno n)

/-- What is left of C48: mapping a function body ends, and unless it panics as above it returns an error. -/
theorem C48_returns_partial (b : UBlock) (types : TypeTable)
    (h : ∀ n, DeclaresBlocks b.records n → n.toNat * 24 < 2 ^ 63 ∧
      ∃ pre r post, b.records = pre ++ r :: post ∧ (∀ x ∈ pre, Skipped types x) ∧ ¬ Skipped types r ∧ ¬ NotImplemented r) :
    ∃ e, FunctionBlock.tryFrom b types = .err e := by
  rcases tryFrom_cases b types with ⟨n, hn, heq⟩ | ⟨-, he⟩
  · obtain ⟨hcap, pre, r, post, he, hpre, hr, hnr⟩ := h n hn
    have hp : ¬ ∃ p, FunctionBlock.tryFrom b types = .panic p := by
      rw [C48_panics_iff]
      rintro ⟨m, hm, hbig | hall | ⟨pre', r', post', he', hpre', hr'⟩⟩
      · rw [declaresBlocks_unique hm hn] at hbig; omega
      · exact absurd (hall r (by rw [he]; simp)) hr
      · have hexcl : ∀ r, Skipped types r → ¬ NotImplemented r := by
          intro r hs hn
          rcases functionStep_cases types r with ⟨-, -, h⟩ | ⟨-, h, -⟩ | ⟨_, -, h, -⟩
          · exact h hn
          · exact h hs
          · exact h hs
        rw [he] at he'
        rcases List.append_eq_append_iff.1 he' with ⟨l, hl1, hl2⟩ | ⟨l, hl1, hl2⟩
        · cases l with
          | nil => simp at hl2; rw [← hl2.1] at hr'; exact absurd hr' hnr
          | cons y l =>
            simp at hl2
            exact absurd (hpre' r (by rw [hl1, hl2.1]; simp)) hr
        · cases l with
          | nil => simp at hl2; rw [hl2.1] at hr'; exact absurd hr' hnr
          | cons y l =>
            simp at hl2
            exact absurd hr' (hexcl _ (hpre r' (by rw [hl1, hl2.1]; simp)))
    cases hx : FunctionBlock.tryFrom b types with
    | ok f => exact absurd hx (C48_never_maps b types f)
    | err e => exact ⟨e, rfl⟩
    | panic p => exact absurd ⟨p, hx⟩ hp
    | diverge =>
      rw [heq] at hx
      unfold blockCapacity at hx
      split at hx
      · simp only [Out.ok_bind] at hx
        rcases functionLoop_cases types b.records with ⟨h1, -⟩ | ⟨_, _, _, _, _, _, ⟨h1, -⟩ | ⟨⟨e, h1⟩, -⟩⟩ <;>
          rw [h1] at hx <;> simp at hx
      · simp at hx
  · exact he

/-- C48, the everyday case: `define void @f() { ret void }`, one block with a return, panics; so does a body that consists of
nothing but stack allocations. -/
theorem C48_ret_void_panics (types : TypeTable) (id : BlockId) (abbrev₁ abbrev₂ : Option U64) :
    FunctionBlock.tryFrom (.mk id [⟨abbrev₁, 1, [1]⟩, ⟨abbrev₂, 10, []⟩] []) types = .panic .unimplemented ∧
    FunctionBlock.tryFrom (.mk id [⟨abbrev₁, 1, [1]⟩, ⟨abbrev₂, 19, [0, 1, 2, 3]⟩] []) types = .panic .unimplemented :=
  ⟨rfl, rfl⟩

example : DeclaresBlocks [⟨none, 19, [0, 1, 2, 3]⟩, ⟨none, 1, [2, 9]⟩, ⟨none, 2, [0, 0, 0, 0]⟩] 2 ∧
    Skipped [.prim .float] ⟨none, 56, [3, 0, 0]⟩ ∧ NotImplemented ⟨none, 34, []⟩ ∧
    ¬ NotImplemented ⟨none, 2, []⟩ ∧ ¬ NotImplemented ⟨none, 14, []⟩ ∧
    FunctionBlock.tryFrom (.mk (.ir .function)
      [⟨none, 19, [0, 1, 2, 3]⟩, ⟨none, 1, [2, 9]⟩, ⟨none, 2, [0, 0, 0, 0]⟩] []) [.integer 32] =
        .err (.badBinOp (.invalidType (.integer 32))) := by
  refine ⟨⟨[_], _, [_], [9], rfl, rfl, rfl, by decide⟩, .inr (.inr ⟨rfl, 3, 0, rfl, by decide⟩),
    ⟨⟨.instCall, by decide⟩, by decide⟩, fun h => h.2 (by decide), ?_, by decide +kernel⟩
  rintro ⟨⟨c, hc⟩, -⟩
  cases c <;> exact absurd hc (by decide)

end Verif
