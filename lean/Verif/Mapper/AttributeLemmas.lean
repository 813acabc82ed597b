import Verif.Mapper.AttributeSpec
import Verif.Mapper.TypeLemmas
import Verif.Props.Tables
import Verif.Props.Enums

/-! Facts about reading attributes from record fields. -/

namespace Verif
open Spec

/-! ## Numbers -/

theorem decode_attr_id (f : U64) (a : EnumAttribute) :
    (∃ key, (tryFromPrimitive f : Option AttributeId) = some key ∧ EnumAttribute.tryFrom key = .ok a) ↔
      (f.toNat, a) ∈ enumAttributeTable := by
  have hcode : ∀ k : AttributeId, NumEnum.code k = k.code := fun _ => rfl
  have hacode : ∀ x : EnumAttribute, (NumEnum.code x : U64) = x.id.code := fun _ => rfl
  have table : (f.toNat, a) ∈ enumAttributeTable ↔ f = a.id.code := by
    rw [← decode_table (t := enumAttributeTable) rfl f a, tryFromPrimitive_iff, hacode]
    exact eq_comm
  rw [table]
  constructor
  · rintro ⟨key, h1, h2⟩
    rw [tryFromPrimitive_iff, hcode] at h1
    unfold EnumAttribute.tryFrom at h2
    cases h3 : (tryFromPrimitive key.code : Option EnumAttribute) with
    | none => rw [h3] at h2; cases h2
    | some x =>
      rw [h3] at h2
      cases h2
      rw [tryFromPrimitive_iff, hacode] at h3
      rw [h3, h1]
  · rintro rfl
    refine ⟨a.id, tryFromPrimitive_iff.2 rfl, ?_⟩
    unfold EnumAttribute.tryFrom
    rw [show (tryFromPrimitive a.id.code : Option EnumAttribute) = some a from tryFromPrimitive_iff.2 rfl]
    rfl

theorem intAttribute_key {key : AttributeId} {v : U64} {a : IntAttribute} (h : IntAttribute.tryFrom key v = .ok a) :
    key ∈ [AttributeId.alignment, .stackAlignment, .uwTable, .dereferenceable, .dereferenceableOrNull, .allocSize,
      .vScaleRange, .allocKind, .memory] := by
  unfold IntAttribute.tryFrom at h
  cases key <;> first
    | decide
    | (rw [if_pos (by decide +kernel)] at h; cases h)
    | (rw [if_neg (by decide +kernel)] at h; cases h)

theorem alignValue_returns (key : AttributeId) (v : U64) : (alignValue key v).Returns := by
  unfold alignValue MaybeAlign.tryFrom Align.fromShift
  split
  · split
    · trivial
    · split <;> trivial
  · trivial

theorem intAttribute_returns (key : AttributeId) (v : U64) : (IntAttribute.tryFrom key v).Returns := by
  unfold IntAttribute.tryFrom
  split
  · trivial
  · split
    · exact Out.Returns.bind (alignValue_returns _ v) fun _ _ => trivial
    · exact Out.Returns.bind (alignValue_returns _ v) fun _ _ => trivial
    · trivial
    · trivial
    · split <;> trivial
    · trivial
    · cases (tryFromPrimitive v : Option UwTableVariant) <;> trivial
    · trivial
    · trivial
    · trivial

theorem alignValue_ok {key : AttributeId} {v : U64} {a : MaybeAlign} :
    alignValue key v = .ok a ↔ (a = ⟨none⟩ ∧ v.toNat = 0) ∨
      ∃ b : Align, a = ⟨some b⟩ ∧ b.shift.toNat ≤ 63 ∧ v.toNat = b.shift.toNat + 1 := by
  have h8 : (v.setWidth 8).toNat = v.toNat % 256 := by simp
  unfold alignValue
  split
  · rename_i hlt
    rw [Out.mapErr_eq_ok]
    unfold MaybeAlign.tryFrom
    by_cases h0 : v.setWidth 8 = 0
    · rw [if_pos h0]
      have : v.toNat = 0 := by
        have := congrArg BitVec.toNat h0
        simp at this; omega
      simp only [Out.ok.injEq]
      constructor
      · rintro rfl; exact .inl ⟨rfl, this⟩
      · rintro (⟨rfl, -⟩ | ⟨b, -, -, h⟩)
        · rfl
        · omega
    · rw [if_neg h0]
      have hne : v.toNat ≠ 0 := by
        intro h
        exact h0 (BitVec.eq_of_toNat_eq (by simp [h]))
      have hs : (v.setWidth 8 - 1).toNat = v.toNat - 1 := by
        rw [BitVec.toNat_sub, h8]
        simp; omega
      unfold Align.fromShift
      by_cases hgt : v.setWidth 8 - 1 > Align.maxShift
      · rw [if_pos hgt]
        have : 63 < v.toNat - 1 := by
          have := BitVec.lt_def.1 hgt
          rw [hs] at this
          exact this
        simp only [Out.err_bind, reduceCtorEq, false_iff]
        rintro (⟨-, h⟩ | ⟨b, -, h, h'⟩) <;> omega
      · rw [if_neg hgt]
        have : ¬ 63 < v.toNat - 1 := by
          intro h
          apply hgt
          refine BitVec.lt_def.2 ?_
          rw [hs]
          exact h
        simp only [Out.ok_bind, Out.pure_eq, Out.ok.injEq]
        constructor
        · rintro rfl
          exact .inr ⟨_, rfl, by dsimp only; omega, by dsimp only; omega⟩
        · rintro (⟨-, h⟩ | ⟨b, rfl, h, h'⟩)
          · omega
          · have : v.setWidth 8 - 1 = b.shift := BitVec.eq_of_toNat_eq (by omega)
            rw [this]
  · rename_i hlt
    simp only [reduceCtorEq, false_iff]
    rintro (⟨-, h⟩ | ⟨b, -, h, h'⟩) <;> omega

theorem hi32_toNat (v : U64) : (hi32 v).toNat = v.toNat / 2 ^ 32 := by
  have := v.isLt
  simp [hi32, Nat.shiftRight_eq_div_pow]; omega

theorem lo32_toNat (v : U64) : (lo32 v).toNat = v.toNat % 2 ^ 32 := by simp [lo32]

theorem asInt_iff (f v : U64) (a : IntAttribute) :
    (∃ key, (tryFromPrimitive f : Option AttributeId) = some key ∧ IntAttribute.tryFrom key v = .ok a) ↔
      AsInt a f.toNat v.toNat := by
  have hcode : ∀ k : AttributeId, NumEnum.code k = k.code := fun _ => rfl
  have hv := v.isLt
  have hhi := hi32_toNat v
  have hlo := lo32_toNat v
  have hsplit : v.toNat = (hi32 v).toNat * 2 ^ 32 + (lo32 v).toNat := by omega
  constructor
  · rintro ⟨key, h1, h2⟩
    rw [tryFromPrimitive_iff, hcode] at h1
    have hk := intAttribute_key h2
    simp only [List.mem_cons, List.not_mem_nil, or_false] at hk
    unfold IntAttribute.tryFrom at h2
    subst h1
    rcases hk with rfl | rfl | rfl | rfl | rfl | rfl | rfl | rfl | rfl <;>
      rw [if_neg (by decide +kernel)] at h2 <;> dsimp only at h2
    · rw [Out.bind_eq_ok] at h2
      obtain ⟨x, h2, h3⟩ := h2
      cases h3
      rcases alignValue_ok.1 h2 with ⟨rfl, h⟩ | ⟨b, rfl, hb, h⟩
      · rw [h]; exact .alignNone
      · rw [h]; exact .align hb
    · rw [Out.bind_eq_ok] at h2
      obtain ⟨x, h2, h3⟩ := h2
      cases h3
      rcases alignValue_ok.1 h2 with ⟨rfl, h⟩ | ⟨b, rfl, hb, h⟩
      · rw [h]; exact .stackAlignNone
      · rw [h]; exact .stackAlign hb
    · rw [Out.bind_eq_ok] at h2
      obtain ⟨x, h2, h3⟩ := h2
      cases h3
      cases h4 : (tryFromPrimitive v : Option UwTableVariant) with
      | none => rw [h4] at h2; cases h2
      | some y =>
        rw [h4] at h2; cases h2
        rw [tryFromPrimitive_iff] at h4
        subst h4
        cases x
        · exact .uwTableNone
        · exact .uwTableSync
        · exact .uwTableAsync
    · cases h2; exact .dereferenceable v
    · cases h2; exact .dereferenceableOrNull v
    · split at h2
      · cases h2
      · rename_i hne
        cases h2
        have hne' : v.toNat ≠ 0 := fun h => hne (BitVec.eq_of_toNat_eq h)
        split
        · rename_i hl
          have := congrArg BitVec.toNat hl
          rw [hsplit, this]
          exact .allocSizeOne _
        · rename_i hl
          rw [hsplit]
          refine .allocSize _ _ (fun h => hl (BitVec.eq_of_toNat_eq h)) ?_
          omega
    · cases h2
      split
      · rename_i hl
        have : (lo32 v).toNat = 0 := congrArg BitVec.toNat hl
        rw [hsplit, this, Nat.add_zero]
        exact .vScaleRangeOne _
      · rename_i hl
        rw [hsplit]
        exact .vScaleRange _ _ (fun h => hl (BitVec.eq_of_toNat_eq h))
    · cases h2; exact .allocKind v
    · cases h2; exact .memory v
  · have hf : ∀ (k : AttributeId) (n : Nat), f.toNat = n → k.code.toNat = n → f = k.code := fun k n h1 h2 =>
      BitVec.eq_of_toNat_eq (h1.trans h2.symm)
    generalize hfn : f.toNat = fn
    generalize hvn : v.toNat = vn
    intro h
    have mk : ∀ k : AttributeId, k.code.toNat = fn → IntAttribute.tryFrom k v = .ok a →
        ∃ key, (tryFromPrimitive f : Option AttributeId) = some key ∧ IntAttribute.tryFrom key v = .ok a := by
      intro k hk h
      exact ⟨k, tryFromPrimitive_iff.2 (by rw [hf k fn hfn hk]; rfl), h⟩
    cases h with
    | alignNone =>
      refine mk .alignment rfl ?_
      unfold IntAttribute.tryFrom; rw [if_neg (by decide +kernel)]; dsimp only
      rw [alignValue_ok.2 (.inl ⟨rfl, hvn⟩)]; rfl
    | align hb =>
      refine mk .alignment rfl ?_
      unfold IntAttribute.tryFrom; rw [if_neg (by decide +kernel)]; dsimp only
      rw [alignValue_ok.2 (.inr ⟨_, rfl, hb, hvn⟩)]; rfl
    | stackAlignNone =>
      refine mk .stackAlignment rfl ?_
      unfold IntAttribute.tryFrom; rw [if_neg (by decide +kernel)]; dsimp only
      rw [alignValue_ok.2 (.inl ⟨rfl, hvn⟩)]; rfl
    | stackAlign hb =>
      refine mk .stackAlignment rfl ?_
      unfold IntAttribute.tryFrom; rw [if_neg (by decide +kernel)]; dsimp only
      rw [alignValue_ok.2 (.inr ⟨_, rfl, hb, hvn⟩)]; rfl
    | uwTableNone =>
      refine mk .uwTable rfl ?_
      rw [show v = 0 from BitVec.eq_of_toNat_eq hvn]; decide +kernel
    | uwTableSync =>
      refine mk .uwTable rfl ?_
      rw [show v = 1 from BitVec.eq_of_toNat_eq hvn]; decide +kernel
    | uwTableAsync =>
      refine mk .uwTable rfl ?_
      rw [show v = 2 from BitVec.eq_of_toNat_eq hvn]; decide +kernel
    | dereferenceable n =>
      refine mk .dereferenceable rfl ?_
      unfold IntAttribute.tryFrom; rw [if_neg (by decide +kernel)]; dsimp only
      rw [show v = n from BitVec.eq_of_toNat_eq hvn]
    | dereferenceableOrNull n =>
      refine mk .dereferenceableOrNull rfl ?_
      unfold IntAttribute.tryFrom; rw [if_neg (by decide +kernel)]; dsimp only
      rw [show v = n from BitVec.eq_of_toNat_eq hvn]
    | allocSize e n h1 h2 =>
      refine mk .allocSize rfl ?_
      have he := e.isLt
      have hn := n.isLt
      unfold IntAttribute.tryFrom; rw [if_neg (by decide +kernel)]; dsimp only
      rw [if_neg (fun h => by have := congrArg BitVec.toNat h; simp at this; omega),
        show hi32 v = e from BitVec.eq_of_toNat_eq (by omega), show lo32 v = n from BitVec.eq_of_toNat_eq (by omega),
        if_neg (fun h => h1 (congrArg BitVec.toNat h))]
    | allocSizeOne e =>
      refine mk .allocSize rfl ?_
      have he := e.isLt
      unfold IntAttribute.tryFrom; rw [if_neg (by decide +kernel)]; dsimp only
      rw [if_neg (fun h => by have := congrArg BitVec.toNat h; simp at this; omega),
        show hi32 v = e from BitVec.eq_of_toNat_eq (by omega),
        show lo32 v = 0xffffffff from BitVec.eq_of_toNat_eq (by rw [hlo, hvn]; simp), if_pos rfl]
    | vScaleRange min max h1 =>
      refine mk .vScaleRange rfl ?_
      have he := min.isLt
      have hn := max.isLt
      unfold IntAttribute.tryFrom; rw [if_neg (by decide +kernel)]; dsimp only
      rw [show hi32 v = min from BitVec.eq_of_toNat_eq (by omega), show lo32 v = max from BitVec.eq_of_toNat_eq (by omega),
        if_neg (fun h => h1 (congrArg BitVec.toNat h))]
    | vScaleRangeOne min =>
      refine mk .vScaleRange rfl ?_
      have he := min.isLt
      unfold IntAttribute.tryFrom; rw [if_neg (by decide +kernel)]; dsimp only
      rw [show hi32 v = min from BitVec.eq_of_toNat_eq (by omega),
        show lo32 v = 0 from BitVec.eq_of_toNat_eq (by rw [hlo, hvn]; simp), if_pos rfl]
    | allocKind n =>
      refine mk .allocKind rfl ?_
      unfold IntAttribute.tryFrom; rw [if_neg (by decide +kernel)]; dsimp only
      rw [show v = n from BitVec.eq_of_toNat_eq hvn]
    | memory n =>
      refine mk .memory rfl ?_
      unfold IntAttribute.tryFrom; rw [if_neg (by decide +kernel)]; dsimp only
      rw [show v = n from BitVec.eq_of_toNat_eq hvn]

/-! ## Strings -/

theorem takeWhile_ne_zero (l : List U64) :
    (∃ rest, l = l.takeWhile (fun f => f ≠ 0) ++ 0 :: rest) ∨ l = l.takeWhile (fun f => f ≠ 0) := by
  induction l with
  | nil => exact .inr rfl
  | cons a l ih =>
    by_cases h : a = 0
    · subst h; exact .inl ⟨l, by simp⟩
    · rw [List.takeWhile_cons_of_pos (by simpa using h)]
      rcases ih with ⟨rest, h⟩ | h
      · exact .inl ⟨rest, by rw [List.cons_append, ← h]⟩
      · exact .inr (by rw [← h])

theorem strFields_ne {s : Str} (h : (0 : U8) ∉ utf8 s) : ∀ f ∈ strFields s, f ≠ 0 := by
  intro f hf h0
  obtain ⟨b, hb, rfl⟩ := List.mem_map.1 hf
  refine h ?_
  have : b = 0 := by
    refine BitVec.eq_of_toNat_eq ?_
    have := congrArg BitVec.toNat h0
    have hb := b.isLt
    simp at this
    rw [Nat.mod_eq_of_lt (by omega)] at this
    exact this
  exact this ▸ hb

theorem strFields_length (s : Str) : (strFields s).length = (utf8 s).length := by simp [strFields]

theorem takeWhile_append_zero {l : List U64} (h : ∀ f ∈ l, f ≠ 0) (rest : List U64) :
    (l ++ 0 :: rest).takeWhile (fun f => f ≠ 0) = l ∧ l.takeWhile (fun f => f ≠ 0) = l := by
  induction l with
  | nil => simp
  | cons a l ih =>
    have ha := h a (by simp)
    obtain ⟨h1, h2⟩ := ih fun f hf => h f (by simp [hf])
    rw [List.cons_append, List.takeWhile_cons_of_pos (by simpa using ha), h1,
      List.takeWhile_cons_of_pos (by simpa using ha), h2]
    exact ⟨rfl, rfl⟩

theorem utf8_ne_nil {s : Str} (h : s ≠ []) : utf8 s ≠ [] := by
  intro h0
  have := utf8Decode_eq_some.2 h0
  rw [utf8Decode] at this
  cases this
  exact h rfl

/-- `take_string!`: what it reads, and when it gives up. -/
theorem takeString_ok {D : List U64} {s : Str} {n : Nat} :
    takeString D 0 = .ok (s, n) ↔ CString s ∧ n = (strFields s).length + 1 ∧
      ((∃ rest, D = strFields s ++ 0 :: rest) ∨ D = strFields s) := by
  unfold takeString
  rw [if_neg (by omega), List.drop_zero]
  constructor
  · intro h
    rw [Out.bind_eq_ok] at h
    obtain ⟨bytes, h1, h⟩ := h
    cases h2 : toBytes (D.takeWhile fun f => f ≠ 0) with
    | none => rw [h2] at h1; cases h1
    | some bs =>
      rw [h2] at h1
      cases h1
      split at h
      · cases h
      · rename_i hne
        rw [Out.bind_eq_ok] at h
        obtain ⟨s', h3, h⟩ := h
        cases h
        cases h4 : utf8Decode bytes with
        | none => rw [h4] at h3; cases h3
        | some s' =>
          rw [h4] at h3
          cases h3
          rw [utf8Decode_eq_some] at h4
          have hb : D.takeWhile (fun f => f ≠ 0) = strFields s := by
            have := (areBytes_iff _ _).1 h2
            rw [this, strFields, h4]
          refine ⟨⟨?_, ?_⟩, ?_, ?_⟩
          · rintro rfl; exact hne h4.symm
          · intro h0
            have : (0 : U64) ∈ D.takeWhile (fun f => f ≠ 0) := by
              rw [hb]; exact List.mem_map.2 ⟨0, h0, rfl⟩
            have := List.all_takeWhile (p := fun f : U64 => decide (f ≠ 0)) (l := D)
            rw [List.all_eq_true] at this
            have := this 0 (by assumption)
            simp at this
          · rw [strFields_length, h4]
          · rw [← hb]
            exact takeWhile_ne_zero D
  · rintro ⟨⟨h1, h2⟩, rfl, h⟩
    have hb : D.takeWhile (fun f => f ≠ 0) = strFields s := by
      rcases h with ⟨rest, rfl⟩ | rfl
      · exact (takeWhile_append_zero (strFields_ne h2) rest).1
      · exact (takeWhile_append_zero (strFields_ne h2) []).2
    rw [hb, (areBytes_iff (strFields s) (utf8 s)).2 rfl, Out.ofOption_some, Out.ok_bind, if_neg (utf8_ne_nil h1),
      utf8Decode_eq_some.2 rfl, strFields_length]
    rfl

theorem takeString_returns {D : List U64} {n : Nat} (h : n ≤ D.length) : (takeString D n).Returns := by
  unfold takeString
  rw [if_neg (by omega)]
  cases toBytes ((D.drop n).takeWhile fun f => f ≠ 0) with
  | none => trivial
  | some bs =>
    rw [Out.ofOption_some, Out.ok_bind]
    split
    · trivial
    · cases utf8Decode bs <;> trivial

theorem takeString_drop {fields : List U64} {a b : Nat} (h : a ≤ fields.length) :
    takeString fields (a + b) = takeString (fields.drop a) b := by
  unfold takeString
  rw [List.length_drop, List.drop_drop]
  by_cases h' : fields.length < a + b
  · rw [if_pos h', if_pos (by omega)]
  · rw [if_neg h', if_neg (by omega)]

theorem takeString_beyond {D : List U64} {n : Nat} (h : D.length < n) : takeString D n = .panic .attrSlice := by
  unfold takeString
  rw [if_pos h]

/-! ## One attribute -/

theorem nextField_drop {fields : List U64} {a b : Nat} : nextField fields (a + b) = nextField (fields.drop a) b := by
  unfold nextField
  rw [List.getElem?_drop]

theorem fromRecord_drop {fields : List U64} {i : Nat} (h : i ≤ fields.length) :
    Attribute.fromRecord i fields = Attribute.fromRecord 0 (fields.drop i) := by
  unfold Attribute.fromRecord
  rw [show nextField fields i = nextField (fields.drop i) 0 from nextField_drop (b := 0)]
  simp only [nextField_drop, takeString_drop h, Nat.add_assoc, Nat.zero_add]

theorem attributeKind_code (k : AttributeKind) : (NumEnum.code k : U64) = k.code := rfl

theorem decode_kind {k : U64} {kind : AttributeKind} (h : k = kind.code) :
    (tryFromPrimitive k : Option AttributeKind) = some kind := tryFromPrimitive_iff.2 h.symm

/-- What `from_record` reads. -/
theorem fromRecord_complete {a : Attribute} {enc : List U64} (h : AttrWritten a enc) (rest : List U64) :
    Attribute.fromRecord 0 (enc ++ rest) = .ok (enc.length, a) := by
  unfold Attribute.fromRecord
  cases h with
  | @enum a id h =>
    obtain ⟨key, h1, h2⟩ := (decode_attr_id id a).2 h
    simp only [nextField, List.cons_append, List.nil_append, List.getElem?_cons_zero, Out.ofOption_some, Out.ok_bind,
      decode_kind (k := 0) (kind := .enum) rfl, Nat.zero_add, List.getElem?_cons_succ, h1, h2]
    rfl
  | @int a id v h =>
    obtain ⟨key, h1, h2⟩ := (asInt_iff id v a).2 h
    simp only [nextField, List.cons_append, List.nil_append, List.getElem?_cons_zero, Out.ofOption_some, Out.ok_bind,
      decode_kind (k := 1) (kind := .intKeyValue) rfl, Nat.zero_add, List.getElem?_cons_succ, h1, h2]
    rfl
  | @str s h =>
    have : takeString (3 :: (strFields s ++ [0]) ++ rest) (0 + 1) = .ok (s, (strFields s).length + 1) := by
      rw [Nat.zero_add, show (1 : Nat) = 1 + 0 from rfl, takeString_drop (by simp)]
      exact takeString_ok.2 ⟨h, rfl, .inl ⟨rest, by simp⟩⟩
    rw [this]
    simp only [nextField, List.cons_append, List.getElem?_cons_zero, Out.ofOption_some, Out.ok_bind,
      decode_kind (k := 3) (kind := .strKey) rfl]
    simp; omega
  | @strKeyValue k v hk hv =>
    have h1 : takeString (4 :: (strFields k ++ 0 :: (strFields v ++ [0])) ++ rest) (0 + 1) =
        .ok (k, (strFields k).length + 1) := by
      rw [Nat.zero_add, show (1 : Nat) = 1 + 0 from rfl, takeString_drop (by simp)]
      exact takeString_ok.2 ⟨hk, rfl, .inl ⟨strFields v ++ [0] ++ rest, by simp⟩⟩
    have h2 : takeString (4 :: (strFields k ++ 0 :: (strFields v ++ [0])) ++ rest) (0 + 1 + ((strFields k).length + 1)) =
        .ok (v, (strFields v).length + 1) := by
      rw [show 0 + 1 + ((strFields k).length + 1) = ((strFields k).length + 2) + 0 by omega, takeString_drop (by simp)]
      refine takeString_ok.2 ⟨hv, rfl, .inl ⟨rest, ?_⟩⟩
      rw [show 4 :: (strFields k ++ 0 :: (strFields v ++ [0])) ++ rest =
        (4 :: (strFields k ++ [0])) ++ (strFields v ++ 0 :: rest) by simp, List.drop_left' (by simp)]
    rw [h1]
    simp only [nextField, List.cons_append, List.getElem?_cons_zero, Out.ofOption_some, Out.ok_bind,
      decode_kind (k := 4) (kind := .strKeyValue) rfl]
    rw [List.cons_append] at h2
    rw [h2]
    simp; omega

theorem bindOfOption {ε α β : Type} {o : Option α} {e : ε} {f : α → Out ε β} {b : β} :
    (Out.ofOption e o >>= f) = .ok b ↔ ∃ a, o = some a ∧ f a = .ok b := by
  cases o <;> simp

theorem fromRecord_sound {D : List U64} {n : Nat} {a : Attribute} (h : Attribute.fromRecord 0 D = .ok (n, a)) :
    (∃ enc rest, AttrWritten a enc ∧ D = enc ++ rest ∧ n = enc.length) ∨ (CutLast a D ∧ n = D.length + 1) := by
  unfold Attribute.fromRecord nextField at h
  simp only [bindOfOption] at h
  obtain ⟨k, hk, kind, hkind, h⟩ := h
  rw [tryFromPrimitive_iff, attributeKind_code] at hkind
  cases D with
  | nil => simp at hk
  | cons k' D =>
  simp only [List.getElem?_cons_zero, Option.some.injEq] at hk
  subst hk
  subst hkind
  cases kind with
  | enum =>
    dsimp only at h
    simp only [bindOfOption, Nat.zero_add, List.getElem?_cons_succ] at h
    obtain ⟨f, hf, key, hkey, h⟩ := h
    rw [Out.bind_eq_ok] at h
    obtain ⟨x, hx, h⟩ := h
    cases h
    cases D with
    | nil => simp at hf
    | cons f' D =>
      simp only [List.getElem?_cons_zero, Option.some.injEq] at hf
      subst hf
      exact .inl ⟨[0, f'], D, .enum ((decode_attr_id f' x).1 ⟨key, hkey, hx⟩), rfl, rfl⟩
  | intKeyValue =>
    dsimp only at h
    simp only [bindOfOption, Nat.zero_add, List.getElem?_cons_succ] at h
    obtain ⟨f, hf, key, hkey, v, hv, h⟩ := h
    rw [Out.bind_eq_ok] at h
    obtain ⟨x, hx, h⟩ := h
    cases h
    cases D with
    | nil => simp at hf
    | cons f' D =>
      simp only [List.getElem?_cons_zero, Option.some.injEq] at hf
      subst hf
      cases D with
      | nil => simp at hv
      | cons v' D =>
        simp only [List.getElem?_cons_zero, List.getElem?_cons_succ, Option.some.injEq] at hv
        subst hv
        exact .inl ⟨[1, f', v'], D, .int ((asInt_iff f' v' x).1 ⟨key, hkey, hx⟩), rfl, rfl⟩
  | strKey =>
    dsimp only at h
    rw [Nat.zero_add, show (1 : Nat) = 1 + 0 from rfl, takeString_drop (by simp), Out.bind_eq_ok] at h
    obtain ⟨⟨s, m⟩, h1, h⟩ := h
    cases h
    obtain ⟨hs, rfl, ⟨rest, hD⟩ | hD⟩ := takeString_ok.1 h1
    · rw [List.drop_succ_cons, List.drop_zero] at hD
      subst hD
      exact .inl ⟨_, rest, .str hs, by simp; rfl, by simp; omega⟩
    · rw [List.drop_succ_cons, List.drop_zero] at hD
      subst hD
      exact .inr ⟨.str hs, by simp; omega⟩
  | strKeyValue =>
    dsimp only at h
    rw [Out.bind_eq_ok] at h
    obtain ⟨⟨s, m⟩, h1, h⟩ := h
    rw [Nat.zero_add, show (1 : Nat) = 1 + 0 from rfl, takeString_drop (by simp)] at h1
    rw [List.drop_succ_cons, List.drop_zero] at h1
    obtain ⟨hs, rfl, hD⟩ := takeString_ok.1 h1
    dsimp only at h
    rw [Out.bind_eq_ok] at h
    obtain ⟨⟨v, m⟩, h2, h⟩ := h
    cases h
    rcases hD with ⟨rest, rfl⟩ | rfl
    · rw [show 0 + 1 + ((strFields s).length + 1) = ((strFields s).length + 2) + 0 by omega,
        takeString_drop (by simp)] at h2
      rw [show AttributeKind.strKeyValue.code :: (strFields s ++ 0 :: rest) =
        (4 :: (strFields s ++ [0])) ++ rest by simp; rfl, List.drop_left' (by simp)] at h2
      obtain ⟨hv, rfl, ⟨rest, rfl⟩ | rfl⟩ := takeString_ok.1 h2
      · exact .inl ⟨_, rest, .strKeyValue hs hv, by simp; rfl, by simp; omega⟩
      · exact .inr ⟨.strKeyValue hs hv, by simp; omega⟩
    · rw [takeString_beyond (by simp)] at h2
      cases h2

theorem fromRecord_cut {k : Str} (hk : CString k) : Attribute.fromRecord 0 (4 :: strFields k) = .panic .attrSlice := by
  unfold Attribute.fromRecord
  have h1 : takeString (4 :: strFields k) (0 + 1) = .ok (k, (strFields k).length + 1) := by
    rw [Nat.zero_add, show (1 : Nat) = 1 + 0 from rfl, takeString_drop (by simp)]
    exact takeString_ok.2 ⟨hk, rfl, .inr (by simp)⟩
  simp only [nextField, List.getElem?_cons_zero, Out.ofOption_some, Out.ok_bind,
    decode_kind (k := 4) (kind := .strKeyValue) rfl, h1]
  rw [takeString_beyond (by simp)]
  rfl

/-- Reading an attribute either returns, or is cut off in a key. -/
theorem fromRecord_returns (D : List U64) :
    (Attribute.fromRecord 0 D).Returns ∨ ∃ k, CString k ∧ D = 4 :: strFields k := by
  unfold Attribute.fromRecord nextField
  cases D with
  | nil => exact .inl trivial
  | cons k D =>
  rw [List.getElem?_cons_zero, Out.ofOption_some, Out.ok_bind]
  cases hkind : (tryFromPrimitive k : Option AttributeKind) with
  | none => exact .inl trivial
  | some kind =>
  rw [tryFromPrimitive_iff, attributeKind_code] at hkind
  rw [Out.ofOption_some, Out.ok_bind]
  subst hkind
  cases kind with
  | enum =>
    left
    dsimp only
    cases (AttributeKind.enum.code :: D)[0 + 1]? with
    | none => trivial
    | some f =>
      rw [Out.ofOption_some, Out.ok_bind]
      cases (tryFromPrimitive f : Option AttributeId) with
      | none => trivial
      | some key =>
        rw [Out.ofOption_some, Out.ok_bind]
        unfold EnumAttribute.tryFrom
        cases (tryFromPrimitive key.code : Option EnumAttribute) <;> trivial
  | intKeyValue =>
    left
    dsimp only
    cases (AttributeKind.intKeyValue.code :: D)[0 + 1]? with
    | none => trivial
    | some f =>
      rw [Out.ofOption_some, Out.ok_bind]
      cases (tryFromPrimitive f : Option AttributeId) with
      | none => trivial
      | some key =>
        rw [Out.ofOption_some, Out.ok_bind]
        cases (AttributeKind.intKeyValue.code :: D)[0 + 2]? with
        | none => trivial
        | some v =>
          rw [Out.ofOption_some, Out.ok_bind]
          refine Out.Returns.bind (intAttribute_returns key v) fun _ _ => trivial
  | strKey =>
    left
    dsimp only
    exact Out.Returns.bind (takeString_returns (by simp)) fun _ _ => trivial
  | strKeyValue =>
    dsimp only
    rw [Nat.zero_add, show (1 : Nat) = 1 + 0 from rfl, takeString_drop (by simp)]
    rw [List.drop_succ_cons, List.drop_zero]
    cases h : takeString D 0 with
    | ok x =>
      obtain ⟨s, m⟩ := x
      obtain ⟨hs, rfl, ⟨rest, rfl⟩ | rfl⟩ := takeString_ok.1 h
      · left
        rw [Out.ok_bind]
        dsimp only
        exact Out.Returns.bind (takeString_returns (by simp; omega)) fun _ _ => trivial
      · exact .inr ⟨s, hs, rfl⟩
    | err e => exact .inl trivial
    | panic p =>
      have := takeString_returns (Nat.zero_le D.length)
      rw [h] at this
      cases this
    | diverge =>
      have := takeString_returns (Nat.zero_le D.length)
      rw [h] at this
      cases this

/-! ## All attributes of a record -/

theorem Spec.AttrWritten.length_pos {a : Attribute} {enc : List U64} (h : AttrWritten a enc) : 0 < enc.length := by
  cases h <;> simp

theorem loop_prefix {fields : List U64} {l : List (Attribute × List U64)} : ∀ {fuel idx : Nat} {acc : List Attribute}
    {rest : List U64}, AllAttrs l → idx ≤ fields.length → fields.drop idx = l.flatMap (·.2) ++ rest →
    fields.length ≤ fuel + idx →
    attrLoop fields fuel idx acc =
      attrLoop fields (fuel - l.length) (idx + (l.flatMap (·.2)).length) (acc ++ l.map (·.1)) := by
  induction l with
  | nil => intro fuel idx acc rest _ _ _ _; simp
  | cons x l ih =>
    intro fuel idx acc rest hl hidx hd hf
    have hx : AttrWritten x.1 x.2 := hl x (by simp)
    have hpos := hx.length_pos
    have hlen := congrArg List.length hd
    simp only [List.length_drop, List.flatMap_cons, List.length_append] at hlen
    cases fuel with
    | zero => omega
    | succ fuel =>
      rw [attrLoop, if_pos (by omega), fromRecord_drop hidx, hd, List.flatMap_cons, List.append_assoc,
        fromRecord_complete hx, Out.ok_bind]
      dsimp only
      rw [ih (rest := rest) (fun y hy => hl y (by simp [hy])) (by omega) ?_ (by omega)]
      · simp [Nat.add_assoc]
      · rw [← List.drop_drop, hd, List.flatMap_cons, List.append_assoc, List.drop_left]

theorem loop_complete {fields : List U64} {l : List (Attribute × List U64)} {fuel idx : Nat} {acc : List Attribute}
    (hl : AllAttrs l) (hi : idx ≤ fields.length) (hd : fields.drop idx = l.flatMap (·.2)) (hf : fields.length ≤ fuel + idx) :
    attrLoop fields fuel idx acc = .ok (fields.length, acc ++ l.map (·.1)) := by
  rw [loop_prefix (rest := []) hl hi (by simpa using hd) hf]
  have hlen := congrArg List.length hd
  rw [List.length_drop] at hlen
  have : idx + (l.flatMap (·.2)).length = fields.length := by omega
  rw [this]
  generalize fuel - l.length = n
  cases n <;> simp [attrLoop]

theorem loop_cut {fields : List U64} {l : List (Attribute × List U64)} {fuel idx : Nat} {acc : List Attribute} {k : Str}
    (hl : AllAttrs l) (hi : idx ≤ fields.length) (hk : CString k)
    (hd : fields.drop idx = l.flatMap (·.2) ++ 4 :: strFields k) (hf : fields.length ≤ fuel + idx) :
    attrLoop fields fuel idx acc = .panic .attrSlice := by
  rw [loop_prefix hl hi hd hf]
  have hlen := congrArg List.length hd
  simp only [List.length_drop, List.length_append, List.length_cons] at hlen
  have hle : l.length ≤ (l.flatMap (·.2)).length := by
    clear hd hlen
    induction l with
    | nil => simp
    | cons x l ih =>
      have := (hl x (by simp)).length_pos
      have := ih fun y hy => hl y (by simp [hy])
      simp only [List.flatMap_cons, List.length_append, List.length_cons]; omega
  obtain ⟨n, hn⟩ : ∃ n, fuel - l.length = n + 1 := ⟨fuel - l.length - 1, by omega⟩
  rw [hn, attrLoop, if_pos (by omega), fromRecord_drop (by omega), ← List.drop_drop, hd, List.drop_left, fromRecord_cut hk]
  rfl

/-- Whatever the loop does, the fields say so. -/
theorem loop_sound {fields : List U64} : ∀ {fuel idx : Nat} {acc : List Attribute}, idx ≤ fields.length →
    fields.length ≤ fuel + idx →
    (∃ l, AllAttrs l ∧ fields.drop idx = l.flatMap (·.2)) ∨
    (∃ l k, AllAttrs l ∧ CString k ∧ fields.drop idx = l.flatMap (·.2) ++ 4 :: strFields k) ∨
    (∃ e, attrLoop fields fuel idx acc = .err e) ∨
    (∃ out, attrLoop fields fuel idx acc = .ok (fields.length + 1, out)) := by
  intro fuel
  induction fuel with
  | zero =>
    intro idx acc h1 h2
    exact .inl ⟨[], fun x hx => by simp at hx, by rw [List.drop_eq_nil_of_le (by omega)]; rfl⟩
  | succ fuel ih =>
    intro idx acc h1 h2
    by_cases hlt : idx < fields.length
    · rw [attrLoop, if_pos hlt, fromRecord_drop h1]
      rcases fromRecord_returns (fields.drop idx) with hr | ⟨k, hk, hd⟩
      · cases hx : Attribute.fromRecord 0 (fields.drop idx) with
        | ok x =>
          obtain ⟨n, a⟩ := x
          rw [Out.ok_bind]
          dsimp only
          rcases fromRecord_sound hx with ⟨enc, rest, hw, hd, rfl⟩ | ⟨hw, rfl⟩
          · have hlen := congrArg List.length hd
            simp only [List.length_drop, List.length_append] at hlen
            have hpos := hw.length_pos
            have hdrop : fields.drop (idx + enc.length) = rest := by rw [← List.drop_drop, hd, List.drop_left]
            have hall : ∀ {l}, AllAttrs l → AllAttrs ((a, enc) :: l) := by
              intro l hl y hy
              rcases List.mem_cons.1 hy with rfl | hy
              · exact hw
              · exact hl y hy
            rcases ih (idx := idx + enc.length) (acc := acc ++ [a]) (by omega) (by omega) with
              ⟨l, hl, hd'⟩ | ⟨l, k, hl, hk, hd'⟩ | h | h
            · exact .inl ⟨(a, enc) :: l, hall hl, by rw [hd, ← hdrop, hd', List.flatMap_cons]⟩
            · exact .inr (.inl ⟨(a, enc) :: l, k, hall hl, hk, by
                rw [hd, ← hdrop, hd', List.flatMap_cons, List.append_assoc]⟩)
            · exact .inr (.inr (.inl h))
            · exact .inr (.inr (.inr h))
          · right; right; right
            have : idx + ((fields.drop idx).length + 1) = fields.length + 1 := by rw [List.length_drop]; omega
            rw [this]
            refine ⟨acc ++ [a], ?_⟩
            cases fuel with
            | zero => simp [attrLoop]
            | succ n => rw [attrLoop, if_neg (by omega)]
        | err e => exact .inr (.inr (.inl ⟨e, rfl⟩))
        | panic p => rw [hx] at hr; cases hr
        | diverge => rw [hx] at hr; cases hr
      · exact .inr (.inl ⟨[], k, fun x hx => by simp at hx, hk, by simpa using hd⟩)
    · exact .inl ⟨[], fun x hx => by simp at hx, by rw [List.drop_eq_nil_of_le (by omega)]; rfl⟩

end Verif
