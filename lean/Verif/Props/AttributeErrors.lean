import Verif.Props.Align
import Verif.Props.Attributes

/-! C43, C45, C46: which errors are reported for attribute blocks, and looking up a list. -/

namespace Verif
open Spec

theorem takeString_err {D : List U64} {e : AttributeError} (h : takeString D 0 = .err e) :
    e = .badString ∧ ¬ BeginsWithString D := by
  refine ⟨?_, ?_⟩
  · unfold takeString at h
    rw [if_neg (by omega), bind_eq_err, ofOption_eq_err] at h
    rcases h with ⟨-, rfl⟩ | ⟨bs, -, h⟩
    · rfl
    · split at h
      · cases h; rfl
      · rw [bind_eq_err, ofOption_eq_err] at h
        rcases h with ⟨-, rfl⟩ | ⟨s, -, h⟩
        · rfl
        · cases h
  · rintro ⟨s, hs, hD⟩
    have := takeString_ok.2 ⟨hs, rfl, hD⟩
    rw [h] at this
    cases this

theorem any_number (n : Nat) :
    enumAttributeTable.any (fun x => x.1 == n) = true ↔ ∃ a, (n, a) ∈ enumAttributeTable := by
  rw [List.any_eq_true]
  constructor
  · rintro ⟨⟨m, a⟩, h1, h2⟩
    obtain rfl : m = n := by simpa using h2
    exact ⟨a, h1⟩
  · rintro ⟨a, h⟩
    exact ⟨_, h, by simp⟩

theorem valueFault_unique {id v : Nat} {m m' : MalformedMsg} (h : ValueFault id v m) (h' : ValueFault id v m') : m = m' := by
  have he : ∀ {id : Nat}, id ∈ [1, 25, 51] → ¬ ∃ a, (id, a) ∈ enumAttributeTable := by
    intro id hid
    rw [← any_number]
    revert id
    decide +kernel
  have hm : ∀ {id : Nat}, id ∈ [1, 25] → id ∈ [1, 25, 51] ∧ id ≠ 33 ∧ id ≠ 51 := by decide
  cases m <;> cases m' <;> try rfl
  all_goals simp only [ValueFault] at h h'
  case enumGiven.tooLarge => exact absurd h.2 (he (hm h'.1).1)
  case enumGiven.alignment => exact absurd h.2 (he (hm h'.1).1)
  case enumGiven.allocSize => exact absurd h.2 (he (by rw [h'.1]; decide))
  case tooLarge.enumGiven => exact absurd h'.2 (he (hm h.1).1)
  case alignment.enumGiven => exact absurd h'.2 (he (hm h.1).1)
  case allocSize.enumGiven => exact absurd h'.2 (he (by rw [h.1]; decide))
  case tooLarge.allocSize => exact absurd h'.1 (hm h.1).2.2
  case allocSize.tooLarge => exact absurd h.1 (hm h'.1).2.2
  case alignment.allocSize => exact absurd h'.1 (hm h.1).2.2
  case allocSize.alignment => exact absurd h.1 (hm h'.1).2.2
  case tooLarge.unwindTable => exact absurd h'.1 (hm h.1).2.1
  case unwindTable.tooLarge => exact absurd h.1 (hm h'.1).2.1
  case alignment.unwindTable => exact absurd h'.1 (hm h.1).2.1
  case unwindTable.alignment => exact absurd h.1 (hm h'.1).2.1
  all_goals omega

/-- A value with which something is wrong is not read. -/
theorem valueFault_not_int {id v : Nat} {m : MalformedMsg} (h : ValueFault id v m) (a : IntAttribute) : ¬ AsInt a id v := by
  intro ha
  have he : ∀ {id : Nat}, id ∈ valuedNumbers → id ≠ 33 → ¬ ∃ a, (id, a) ∈ enumAttributeTable := by
    intro id hid
    rw [← any_number]
    revert id
    decide +kernel
  have hid : id ∈ valuedNumbers := by cases ha <;> simp [valuedNumbers]
  cases m with
  | nonEnum => exact h
  | enumGiven => exact he hid h.1 h.2
  | tooLarge | alignment | allocSize | unwindTable => simp only [ValueFault, List.mem_cons, List.not_mem_nil, or_false] at h; cases ha <;> omega

theorem valueFault_number {id v : Nat} {m : MalformedMsg} (h : ValueFault id v m) :
    id ∈ valuedNumbers ∨ ∃ a, (id, a) ∈ enumAttributeTable := by
  cases m with
  | nonEnum => exact h.elim
  | enumGiven => exact .inr h.2
  | tooLarge | alignment =>
    have := h.1
    simp only [List.mem_cons, List.not_mem_nil, or_false] at this
    rcases this with rfl | rfl <;> exact .inl (by decide)
  | allocSize | unwindTable =>
    obtain ⟨rfl, -⟩ := h
    exact .inl (by decide)

/-- What is refused, and why. -/
theorem valued_or_not (key : AttributeId) (v : U64) (e : AttributeError) (h : IntAttribute.tryFrom key v = .err e) :
    (∃ m, e = .attributeMalformed m key ∧ ValueFault key.code.toNat v.toNat m) ∨
    (e = .intAttributeUnsupported key ∧ key.code.toNat ∉ valuedNumbers ∧
      enumAttributeTable.any (fun x => x.1 == key.code.toNat) = false) := by
  have hal : ∀ {k : AttributeId} {e}, k.code.toNat ∈ [1, 25] → alignValue k v = .err e →
      ∃ m, e = .attributeMalformed m k ∧ ValueFault k.code.toNat v.toNat m := by
    intro k e hk h
    unfold alignValue at h
    split at h
    · next hv =>
      rw [mapErr_eq_err] at h
      obtain ⟨e', h, rfl⟩ := h
      refine ⟨.alignment, rfl, hk, ?_, hv⟩
      have hw : (v.setWidth 8).toNat = v.toNat := by rw [BitVec.toNat_setWidth]; omega
      obtain ⟨h0, h1, -⟩ := Props.C33_maybe_align (v.setWidth 8)
      rcases Nat.lt_or_ge 64 v.toNat with hlt | hle
      · exact hlt
      · rcases Nat.eq_zero_or_pos v.toNat with hz | hz
        · rw [h0 (BitVec.eq_of_toNat_eq (by rw [hw, hz]; rfl))] at h
          cases h
        · obtain ⟨a, ha, -⟩ := h1 (by omega) (by omega)
          rw [ha] at h
          cases h
    · next hv => cases h; exact ⟨.tooLarge, rfl, hk, by omega⟩
  unfold IntAttribute.tryFrom at h
  cases key <;> first
    | (rw [if_pos (by decide +kernel)] at h; cases h; exact .inl ⟨.enumGiven, rfl, by decide, (any_number _).1 (by decide +kernel)⟩)
    | (rw [if_neg (by decide +kernel)] at h; cases h; exact .inr ⟨rfl, by decide +kernel, by decide +kernel⟩)
    | skip
  all_goals left
  all_goals rw [if_neg (by decide +kernel)] at h
  all_goals dsimp only at h
  all_goals try (cases h; done)
  · rw [bind_eq_err] at h
    rcases h with h | ⟨_, -, h⟩
    · exact hal (by decide) h
    · cases h
  · rw [bind_eq_err] at h
    rcases h with h | ⟨_, -, h⟩
    · exact hal (by decide) h
    · cases h
  · rw [bind_eq_err, ofOption_eq_err] at h
    rcases h with ⟨h, rfl⟩ | ⟨_, -, h⟩
    · refine ⟨.unwindTable, rfl, rfl, ?_⟩
      rcases Nat.lt_or_ge 2 v.toNat with hlt | hle
      · exact hlt
      · have : v = 0 ∨ v = 1 ∨ v = 2 := by
          have : v.toNat = 0 ∨ v.toNat = 1 ∨ v.toNat = 2 := by omega
          rcases this with h | h | h
          · exact .inl (BitVec.eq_of_toNat_eq h)
          · exact .inr (.inl (BitVec.eq_of_toNat_eq h))
          · exact .inr (.inr (BitVec.eq_of_toNat_eq h))
        rcases this with rfl | rfl | rfl <;> exact absurd h (by decide)
    · cases h
  · split at h
    · next h0 => cases h; exact ⟨.allocSize, rfl, rfl, by rw [h0]; rfl⟩
    · cases h

theorem decode_number {f : U64} {key : AttributeId} (h : (tryFromPrimitive f : Option AttributeId) = some key) :
    (f.toNat, key) ∈ attributeIdTable ∧ f.toNat = key.code.toNat :=
  ⟨(C50_attributeId f key).1 h, by rw [← tryFromPrimitive_iff.1 h]; rfl⟩

theorem kind_number {k : U64} (h : (tryFromPrimitive k : Option AttributeKind) = none) : k.toNat ∉ [0, 1, 3, 4] := by
  intro hk
  have : ∃ c : AttributeKind, k = c.code := by
    simp only [List.mem_cons, List.not_mem_nil, or_false] at hk
    rcases hk with hk | hk | hk | hk
    · exact ⟨.enum, BitVec.eq_of_toNat_eq hk⟩
    · exact ⟨.intKeyValue, BitVec.eq_of_toNat_eq hk⟩
    · exact ⟨.strKey, BitVec.eq_of_toNat_eq hk⟩
    · exact ⟨.strKeyValue, BitVec.eq_of_toNat_eq hk⟩
  obtain ⟨c, hc⟩ := this
  rw [decode_kind hc] at h
  cases h

theorem fromRecord_err {D : List U64} {e : AttributeError} (hne : D ≠ []) (h : Attribute.fromRecord 0 D = .err e) :
    AttrFault D e := by
  unfold Attribute.fromRecord nextField at h
  cases D with
  | nil => exact absurd rfl hne
  | cons k D =>
  rw [List.getElem?_cons_zero, Out.ofOption_some, Out.ok_bind, bind_eq_err, ofOption_eq_err] at h
  rcases h with ⟨hk, rfl⟩ | ⟨kind, hkind, h⟩
  · exact .kind (kind_number hk)
  rw [ofOption_eq_ok, tryFromPrimitive_iff, attributeKind_code] at hkind
  subst hkind
  cases kind with
  | enum =>
    dsimp only at h
    simp only [Nat.zero_add, List.getElem?_cons_succ] at h
    rw [bind_eq_err, ofOption_eq_err] at h
    cases D with
    | nil =>
      rcases h with ⟨-, rfl⟩ | ⟨_, h, -⟩
      · exact .cutNumber (by decide)
      · cases h
    | cons id D =>
      rcases h with ⟨h, -⟩ | ⟨f, hf, h⟩
      · cases h
      cases hf
      rw [bind_eq_err, ofOption_eq_err] at h
      rcases h with ⟨h, rfl⟩ | ⟨key, hkey, h⟩
      · refine .number (by decide) fun key hkey => ?_
        rw [(C50_attributeId id key).2 hkey] at h
        cases h
      rw [ofOption_eq_ok] at hkey
      obtain ⟨h1, h2⟩ := decode_number hkey
      rw [bind_eq_err] at h
      rcases h with h | ⟨_, -, h⟩
      · unfold EnumAttribute.tryFrom at h
        rw [ofOption_eq_err] at h
        obtain ⟨h3, rfl⟩ := h
        refine .needsValue h1 fun a ha => ?_
        obtain ⟨key', h4, h5⟩ := (decode_attr_id id a).2 ha
        rw [hkey] at h4
        cases h4
        unfold EnumAttribute.tryFrom at h5
        rw [h3] at h5
        cases h5
      · cases h
  | intKeyValue =>
    dsimp only at h
    simp only [Nat.zero_add, List.getElem?_cons_succ] at h
    rw [bind_eq_err, ofOption_eq_err] at h
    cases D with
    | nil =>
      rcases h with ⟨-, rfl⟩ | ⟨_, h, -⟩
      · exact .cutNumber (by decide)
      · cases h
    | cons id D =>
      rcases h with ⟨h, -⟩ | ⟨f, hf, h⟩
      · cases h
      cases hf
      rw [bind_eq_err, ofOption_eq_err] at h
      rcases h with ⟨h, rfl⟩ | ⟨key, hkey, h⟩
      · refine .number (by decide) fun key hkey => ?_
        rw [(C50_attributeId id key).2 hkey] at h
        cases h
      rw [ofOption_eq_ok] at hkey
      obtain ⟨h1, h2⟩ := decode_number hkey
      rw [bind_eq_err, ofOption_eq_err] at h
      cases D with
      | nil =>
        rcases h with ⟨-, rfl⟩ | ⟨_, h, -⟩
        · exact .cutValue h1
        · cases h
      | cons v D =>
        rcases h with ⟨h, -⟩ | ⟨f, hf, h⟩
        · cases h
        cases hf
        rw [bind_eq_err] at h
        rcases h with h | ⟨_, -, h⟩
        · rcases valued_or_not key v e h with ⟨m, rfl, h3⟩ | ⟨rfl, h3, h4⟩
          · exact .badValue h1 (by rw [h2]; exact h3)
          · refine .unsupported h1 (by rw [h2]; exact h3) fun a ha => ?_
            rw [h2] at ha
            rw [(any_number _).2 ⟨a, ha⟩] at h4
            cases h4
        · cases h
  | strKey =>
    dsimp only at h
    rw [Nat.zero_add, show (1 : Nat) = 1 + 0 from rfl, takeString_drop (by simp), bind_eq_err] at h
    rw [List.drop_succ_cons, List.drop_zero] at h
    rcases h with h | ⟨_, -, h⟩
    · obtain ⟨rfl, hbad⟩ := takeString_err h
      exact .badKey (by decide) hbad
    · cases h
  | strKeyValue =>
    dsimp only at h
    rw [bind_eq_err] at h
    rw [Nat.zero_add, show (1 : Nat) = 1 + 0 from rfl, takeString_drop (by simp)] at h
    rw [List.drop_succ_cons, List.drop_zero] at h
    rcases h with h | ⟨⟨s, n⟩, h1, h⟩
    · obtain ⟨rfl, hbad⟩ := takeString_err h
      exact .badKey (by decide) hbad
    obtain ⟨hs, rfl, hD⟩ := takeString_ok.1 h1
    dsimp only at h
    rw [bind_eq_err] at h
    rcases hD with ⟨rest, rfl⟩ | rfl
    · rcases h with h | ⟨_, -, h⟩
      · rw [show 1 + 0 + ((strFields s).length + 1) = ((strFields s).length + 2) + 0 by omega,
          takeString_drop (by simp)] at h
        rw [show AttributeKind.strKeyValue.code :: (strFields s ++ 0 :: rest) =
          (4 :: (strFields s ++ [0])) ++ rest by simp; rfl, List.drop_left' (by simp)] at h
        obtain ⟨rfl, hbad⟩ := takeString_err h
        exact .badString hs hbad
      · cases h
    · rcases h with h | ⟨_, h, -⟩
      · rw [takeString_beyond (by simp)] at h
        cases h
      · rw [takeString_beyond (by simp)] at h
        cases h

/-- If the loop stops with an error, the fields from some attribute on say so. -/
theorem loop_err {fields : List U64} {e : AttributeError} : ∀ {fuel idx : Nat} {acc : List Attribute}, idx ≤ fields.length →
    attrLoop fields fuel idx acc = .err e →
    ∃ l fs, AllAttrs l ∧ fields.drop idx = l.flatMap (·.2) ++ fs ∧ AttrFault fs e := by
  intro fuel
  induction fuel with
  | zero =>
    intro idx acc h1 h
    rw [attrLoop] at h
    split at h <;> cases h
  | succ fuel ih =>
    intro idx acc h1 h
    rw [attrLoop] at h
    split at h
    · next hlt =>
      rw [fromRecord_drop h1, bind_eq_err] at h
      rcases h with h | ⟨⟨n, a⟩, hx, h⟩
      · refine ⟨[], fields.drop idx, fun x hx => by simp at hx, rfl, fromRecord_err ?_ h⟩
        intro hc
        have := congrArg List.length hc
        simp at this
        omega
      · dsimp only at h
        rcases fromRecord_sound hx with ⟨enc, rest, hw, hd, rfl⟩ | ⟨hw, rfl⟩
        · have hlen := congrArg List.length hd
          simp only [List.length_drop, List.length_append] at hlen
          obtain ⟨l, fs, hl, hd', hfault⟩ := ih (by omega) h
          refine ⟨(a, enc) :: l, fs, ?_, ?_, hfault⟩
          · intro y hy
            rcases List.mem_cons.1 hy with rfl | hy
            · exact hw
            · exact hl y hy
          · have hdrop : fields.drop (idx + enc.length) = rest := by rw [← List.drop_drop, hd, List.drop_left]
            rw [hd, ← hdrop, hd', List.flatMap_cons, List.append_assoc]
        · rw [List.length_drop] at h
          cases fuel with
          | zero =>
            rw [attrLoop] at h
            split at h <;> cases h
          | succ n =>
            rw [attrLoop, if_neg (by omega)] at h
            cases h
    · cases h

/-- If the loop ends beyond the fields, the last attribute is cut off. -/
theorem loop_beyond {fields : List U64} {n : Nat} {out : List Attribute} : ∀ {fuel idx : Nat} {acc : List Attribute},
    idx ≤ fields.length → attrLoop fields fuel idx acc = .ok (n, out) → n ≠ fields.length →
    n = fields.length + 1 ∧ ∃ l fs a, AllAttrs l ∧ fields.drop idx = l.flatMap (·.2) ++ fs ∧ CutLast a fs := by
  intro fuel
  induction fuel with
  | zero =>
    intro idx acc h1 h hn
    rw [attrLoop] at h
    split at h
    · cases h
    · cases h; omega
  | succ fuel ih =>
    intro idx acc h1 h hn
    rw [attrLoop] at h
    split at h
    · next hlt =>
      rw [fromRecord_drop h1, Out.bind_eq_ok] at h
      obtain ⟨⟨m, a⟩, hx, h⟩ := h
      dsimp only at h
      rcases fromRecord_sound hx with ⟨enc, rest, hw, hd, rfl⟩ | ⟨hw, rfl⟩
      · have hlen := congrArg List.length hd
        simp only [List.length_drop, List.length_append] at hlen
        obtain ⟨h2, l, fs, a', hl, hd', hcut⟩ := ih (by omega) h hn
        refine ⟨h2, (a, enc) :: l, fs, a', ?_, ?_, hcut⟩
        · intro y hy
          rcases List.mem_cons.1 hy with rfl | hy
          · exact hw
          · exact hl y hy
        · have hdrop : fields.drop (idx + enc.length) = rest := by rw [← List.drop_drop, hd, List.drop_left]
          rw [hd, ← hdrop, hd', List.flatMap_cons, List.append_assoc]
      · have : n = fields.length + 1 := by
          rw [List.length_drop] at h
          cases fuel with
          | zero =>
            rw [attrLoop, if_neg (by omega)] at h
            cases h; omega
          | succ k =>
            rw [attrLoop, if_neg (by omega)] at h
            cases h; omega
        exact ⟨this, [], fields.drop idx, a, fun x hx => by simp at hx, rfl, hw⟩
    · cases h; omega

theorem groupStep_err {g : AttributeGroups} {r : BRecord} {e : AttributeError} (h : groupStep g r = .err e) :
    GroupFault r e := by
  unfold groupStep at h
  rw [bind_eq_err, ofOption_eq_err] at h
  rcases h with ⟨hc, rfl⟩ | ⟨c, hc, h⟩
  · refine .code fun hk => ?_
    have : ∃ c : AttributeCode, r.code = c.code := by
      simp only [List.mem_cons, List.not_mem_nil, or_false] at hk
      rcases hk with hk | hk | hk
      · exact ⟨.entryOld, BitVec.eq_of_toNat_eq hk⟩
      · exact ⟨.entry, BitVec.eq_of_toNat_eq hk⟩
      · exact ⟨.groupCodeEntry, BitVec.eq_of_toNat_eq hk⟩
    obtain ⟨c, hc'⟩ := this
    rw [attributeCode_eq hc'] at hc
    cases hc
  rw [ofOption_eq_ok, tryFromPrimitive_iff] at hc
  have hc' : r.code = c.code := hc.symm
  split at h
  · next hne =>
    cases h
    cases c with
    | entryOld => exact .old hc'
    | entry => exact .list hc'
    | groupCodeEntry => exact absurd rfl hne
  · next heq =>
    have heq' : c = .groupCodeEntry := Classical.not_not.1 heq
    subst heq'
    have hcode : r.code = 3 := hc'
    split at h
    · next hl => cases h; exact .empty hcode hl
    · next hl =>
      obtain ⟨id, param, rest, hf⟩ : ∃ id param rest, r.fields = id :: param :: rest := by
        match h : r.fields with
        | [] => rw [h] at hl; simp at hl
        | [_] => rw [h] at hl; simp at hl
        | a :: b :: c => exact ⟨a, b, c, rfl⟩
      have h0 : attrField r.fields 0 = .ok id := by rw [hf]; rfl
      have h1 : attrField r.fields 1 = .ok param := by rw [hf]; rfl
      rw [h0, Out.ok_bind, h1, Out.ok_bind, bind_eq_err] at h
      have hdrop : ∀ l : List U64, r.fields.drop 2 = l → r.fields = id :: param :: l := by
        intro l hl'
        rw [hf] at hl' ⊢
        simpa using hl'
      rcases h with h | ⟨⟨n, out⟩, hok, h⟩
      · obtain ⟨l, fs, hl', hd, hfault⟩ := loop_err (by rw [hf]; simp) h
        exact .attribute hcode hl' (hdrop _ hd) hfault
      · dsimp only at h
        split at h
        · next hn =>
          cases h
          obtain ⟨rfl, l, fs, a, hl', hd, hcut⟩ := loop_beyond (by rw [hf]; simp) hok hn
          exact .cut hcode hl' (hdrop _ hd) hcut
        · cases h

theorem takeString_fault {D : List U64} (h : ¬ BeginsWithString D) : takeString D 0 = .err .badString := by
  have hr := takeString_returns (Nat.zero_le D.length)
  cases ht : takeString D 0 with
  | ok x =>
    obtain ⟨s, n⟩ := x
    obtain ⟨hs, -, hD⟩ := takeString_ok.1 ht
    exact absurd ⟨s, hs, hD⟩ h
  | err e => rw [(takeString_err ht).1]
  | panic p => rw [ht] at hr; cases hr
  | diverge => rw [ht] at hr; cases hr

theorem kind_none {k : U64} (h : k.toNat ∉ [0, 1, 3, 4]) : (tryFromPrimitive k : Option AttributeKind) = none := by
  cases hk : (tryFromPrimitive k : Option AttributeKind) with
  | none => rfl
  | some c =>
    rw [tryFromPrimitive_iff, attributeKind_code] at hk
    subst hk
    cases c <;> exact absurd (by decide) h

theorem decode_id {f : U64} {key : AttributeId} (h : (f.toNat, key) ∈ attributeIdTable) :
    (tryFromPrimitive f : Option AttributeId) = some key := (C50_attributeId f key).2 h

theorem id_none {f : U64} (h : ∀ key, (f.toNat, key) ∉ attributeIdTable) : (tryFromPrimitive f : Option AttributeId) = none := by
  cases hk : (tryFromPrimitive f : Option AttributeId) with
  | none => rfl
  | some key => exact absurd ((C50_attributeId f key).1 hk) (h key)

/-- The converse of `fromRecord_err`. -/
theorem fromRecord_fault {D : List U64} {e : AttributeError} (h : AttrFault D e) : Attribute.fromRecord 0 D = .err e := by
  have hints : ∀ {k : U64}, k.toNat ∈ [0, 1] → k = 0 ∨ k = 1 := by
    intro k hk
    simp only [List.mem_cons, List.not_mem_nil, or_false] at hk
    rcases hk with hk | hk
    · exact .inl (BitVec.eq_of_toNat_eq hk)
    · exact .inr (BitVec.eq_of_toNat_eq hk)
  have k0 := decode_kind (k := 0) (kind := .enum) rfl
  have k1 := decode_kind (k := 1) (kind := .intKeyValue) rfl
  have k3 := decode_kind (k := 3) (kind := .strKey) rfl
  have k4 := decode_kind (k := 4) (kind := .strKeyValue) rfl
  have int_err : ∀ {key : AttributeId} {id v : U64}, (tryFromPrimitive id : Option AttributeId) = some key →
      (∀ a, ¬ AsInt a id.toNat v.toNat) → ∃ e, IntAttribute.tryFrom key v = .err e := by
    intro key id v hk hn
    have hr := intAttribute_returns key v
    cases ht : IntAttribute.tryFrom key v with
    | ok a => exact absurd ((asInt_iff id v a).1 ⟨key, hk, ht⟩) (hn a)
    | err e => exact ⟨e, rfl⟩
    | panic p => rw [ht] at hr; cases hr
    | diverge => rw [ht] at hr; cases hr
  unfold Attribute.fromRecord nextField
  cases h with
  | kind h =>
    rw [List.getElem?_cons_zero, Out.ofOption_some, Out.ok_bind, kind_none h]
    rfl
  | cutNumber h =>
    rcases hints h with rfl | rfl <;> rw [List.getElem?_cons_zero, Out.ofOption_some, Out.ok_bind]
    · rw [k0]; rfl
    · rw [k1]; rfl
  | cutValue h =>
    rw [List.getElem?_cons_zero, Out.ofOption_some, Out.ok_bind, k1, Out.ofOption_some, Out.ok_bind]
    dsimp only
    simp only [Nat.zero_add, List.getElem?_cons_succ, List.getElem?_cons_zero, Out.ofOption_some, Out.ok_bind, decode_id h]
    rfl
  | number h hn =>
    rcases hints h with rfl | rfl <;> rw [List.getElem?_cons_zero, Out.ofOption_some, Out.ok_bind]
    · rw [k0, Out.ofOption_some, Out.ok_bind]
      dsimp only
      simp only [Nat.zero_add, List.getElem?_cons_succ, List.getElem?_cons_zero, Out.ofOption_some, Out.ok_bind, id_none hn]
      rfl
    · rw [k1, Out.ofOption_some, Out.ok_bind]
      dsimp only
      simp only [Nat.zero_add, List.getElem?_cons_succ, List.getElem?_cons_zero, Out.ofOption_some, Out.ok_bind, id_none hn]
      rfl
  | @needsValue id key rest h hn =>
    rw [List.getElem?_cons_zero, Out.ofOption_some, Out.ok_bind, k0, Out.ofOption_some, Out.ok_bind]
    dsimp only
    simp only [Nat.zero_add, List.getElem?_cons_succ, List.getElem?_cons_zero, Out.ofOption_some, Out.ok_bind, decode_id h]
    unfold EnumAttribute.tryFrom
    cases ht : (tryFromPrimitive key.code : Option EnumAttribute) with
    | none => rfl
    | some a =>
      refine absurd ((decode_attr_id id a).1 ⟨key, decode_id h, ?_⟩) (hn a)
      unfold EnumAttribute.tryFrom
      rw [ht]; rfl
  | @badValue id v key rest m h hv =>
    rw [List.getElem?_cons_zero, Out.ofOption_some, Out.ok_bind, k1, Out.ofOption_some, Out.ok_bind]
    dsimp only
    simp only [Nat.zero_add, List.getElem?_cons_succ, List.getElem?_cons_zero, Out.ofOption_some, Out.ok_bind, decode_id h]
    obtain ⟨e, he⟩ := int_err (decode_id h) (valueFault_not_int hv)
    have hk := (decode_number (decode_id h)).2
    rw [hk] at hv
    rcases valued_or_not key v e he with ⟨m', rfl, hm⟩ | ⟨-, h1, h2⟩
    · rw [he, valueFault_unique hm hv]; rfl
    · rcases valueFault_number hv with hv | hv
      · exact absurd hv h1
      · rw [(any_number _).2 hv] at h2; cases h2
  | @unsupported id v key rest h h1 h2 =>
    rw [List.getElem?_cons_zero, Out.ofOption_some, Out.ok_bind, k1, Out.ofOption_some, Out.ok_bind]
    dsimp only
    simp only [Nat.zero_add, List.getElem?_cons_succ, List.getElem?_cons_zero, Out.ofOption_some, Out.ok_bind, decode_id h]
    obtain ⟨e, he⟩ := int_err (v := v) (decode_id h) (fun a ha => h1 (by generalize id.toNat = n at ha ⊢; generalize v.toNat = m at ha; cases ha <;> simp [valuedNumbers]))
    have hk := (decode_number (decode_id h)).2
    rw [hk] at h1 h2
    rcases valued_or_not key v e he with ⟨m, -, hm⟩ | ⟨rfl, -, -⟩
    · rcases valueFault_number hm with h3 | ⟨a, ha⟩
      · exact absurd h3 h1
      · exact absurd ha (h2 a)
    · rw [he]; rfl
  | @badKey k rest h hn =>
    have hs : takeString (k :: rest) (0 + 1) = .err .badString := by
      rw [Nat.zero_add, show (1 : Nat) = 1 + 0 from rfl, takeString_drop (by simp)]
      exact takeString_fault hn
    have hk : k = 3 ∨ k = 4 := by
      simp only [List.mem_cons, List.not_mem_nil, or_false] at h
      rcases h with h | h
      · exact .inl (BitVec.eq_of_toNat_eq h)
      · exact .inr (BitVec.eq_of_toNat_eq h)
    rw [List.getElem?_cons_zero, Out.ofOption_some, Out.ok_bind]
    rcases hk with rfl | rfl
    · rw [k3, Out.ofOption_some, Out.ok_bind]; dsimp only; rw [hs]; rfl
    · rw [k4, Out.ofOption_some, Out.ok_bind]; dsimp only; rw [hs]; rfl
  | @badString k rest hk hn =>
    have h1 : takeString (4 :: (strFields k ++ 0 :: rest)) (0 + 1) = .ok (k, (strFields k).length + 1) := by
      rw [Nat.zero_add, show (1 : Nat) = 1 + 0 from rfl, takeString_drop (by simp)]
      exact takeString_ok.2 ⟨hk, rfl, .inl ⟨rest, by simp⟩⟩
    have h2 : takeString (4 :: (strFields k ++ 0 :: rest)) (0 + 1 + ((strFields k).length + 1)) = .err .badString := by
      rw [show 0 + 1 + ((strFields k).length + 1) = ((strFields k).length + 2) + 0 by omega, takeString_drop (by simp)]
      rw [show (4 : U64) :: (strFields k ++ 0 :: rest) = (4 :: (strFields k ++ [0])) ++ rest by simp,
        List.drop_left' (by simp)]
      exact takeString_fault hn
    rw [List.getElem?_cons_zero, Out.ofOption_some, Out.ok_bind, k4, Out.ofOption_some, Out.ok_bind]
    dsimp only
    rw [h1, Out.ok_bind]
    dsimp only
    rw [h2]; rfl

/-- An attribute cut off in its last string is read as if its NUL were there. -/
theorem fromRecord_cutLast {a : Attribute} {D : List U64} (h : CutLast a D) :
    Attribute.fromRecord 0 D = .ok (D.length + 1, a) := by
  unfold Attribute.fromRecord nextField
  cases h with
  | @str s hs =>
    have h1 : takeString (3 :: strFields s) (0 + 1) = .ok (s, (strFields s).length + 1) := by
      rw [Nat.zero_add, show (1 : Nat) = 1 + 0 from rfl, takeString_drop (by simp)]
      exact takeString_ok.2 ⟨hs, rfl, .inr (by simp)⟩
    rw [List.getElem?_cons_zero, Out.ofOption_some, Out.ok_bind, decode_kind (k := 3) (kind := .strKey) rfl,
      Out.ofOption_some, Out.ok_bind]
    dsimp only
    rw [h1, Out.ok_bind]
    simp; omega
  | @strKeyValue k v hk hv =>
    have h1 : takeString (4 :: (strFields k ++ 0 :: strFields v)) (0 + 1) = .ok (k, (strFields k).length + 1) := by
      rw [Nat.zero_add, show (1 : Nat) = 1 + 0 from rfl, takeString_drop (by simp)]
      exact takeString_ok.2 ⟨hk, rfl, .inl ⟨strFields v, by simp⟩⟩
    have h2 : takeString (4 :: (strFields k ++ 0 :: strFields v)) (0 + 1 + ((strFields k).length + 1)) =
        .ok (v, (strFields v).length + 1) := by
      rw [show 0 + 1 + ((strFields k).length + 1) = ((strFields k).length + 2) + 0 by omega, takeString_drop (by simp)]
      rw [show (4 : U64) :: (strFields k ++ 0 :: strFields v) = (4 :: (strFields k ++ [0])) ++ strFields v by simp,
        List.drop_left' (by simp)]
      exact takeString_ok.2 ⟨hv, rfl, .inr rfl⟩
    rw [List.getElem?_cons_zero, Out.ofOption_some, Out.ok_bind, decode_kind (k := 4) (kind := .strKeyValue) rfl,
      Out.ofOption_some, Out.ok_bind]
    dsimp only
    rw [h1, Out.ok_bind]
    dsimp only
    rw [h2, Out.ok_bind]
    simp; omega

theorem attrs_length {l : List (Attribute × List U64)} (hl : AllAttrs l) : l.length ≤ (l.flatMap (·.2)).length := by
  induction l with
  | nil => simp
  | cons x l ih =>
    have := (hl x (by simp)).length_pos
    have := ih fun y hy => hl y (by simp [hy])
    simp only [List.flatMap_cons, List.length_append, List.length_cons]; omega

/-- The converse of `groupStep_err`. -/
theorem groupStep_fault {g : AttributeGroups} {r : BRecord} {e : AttributeError} (h : GroupFault r e) :
    groupStep g r = .err e := by
  unfold groupStep
  cases h with
  | code h =>
    cases hc : (tryFromPrimitive r.code : Option AttributeCode) with
    | none => rfl
    | some c =>
      have hc : r.code = c.code := (tryFromPrimitive_iff.1 hc).symm
      rw [hc] at h
      cases c <;> exact absurd (by decide) h
  | old h => rw [attributeCode_eq (c := .entryOld) h]; rfl
  | list h => rw [attributeCode_eq (c := .entry) h]; rfl
  | empty h hl =>
    rw [attributeCode_eq (c := .groupCodeEntry) h, Out.ofOption_some, Out.ok_bind, if_neg (by simp), if_pos hl]
  | @«attribute» id param l fs _ hc hl hf hfault =>
    have hpos : 0 < fs.length := by cases hfault <;> simp
    have hle := attrs_length hl
    rw [attributeCode_eq (c := .groupCodeEntry) hc, Out.ofOption_some, Out.ok_bind, if_neg (by simp), hf]
    rw [if_neg (by simp; omega)]
    simp only [attrField, List.getElem?_cons_zero, List.getElem?_cons_succ, Out.ok_bind]
    rw [loop_prefix (l := l) (rest := fs) hl (by simp) (by simp) (by omega)]
    obtain ⟨n, hn⟩ : ∃ n, (id :: param :: (l.flatMap (·.2) ++ fs)).length - l.length = n + 1 :=
      ⟨(id :: param :: (l.flatMap (·.2) ++ fs)).length - l.length - 1, by
        simp only [List.length_cons, List.length_append]; omega⟩
    rw [hn, attrLoop, if_pos (by simp; omega), fromRecord_drop (by simp; omega), ← List.drop_drop,
      List.drop_succ_cons, List.drop_succ_cons, List.drop_zero, List.drop_left, fromRecord_fault hfault]
    rfl
  | @cut id param l fs a hc hl hf hcut =>
    have hpos : 0 < fs.length := by cases hcut <;> simp
    have hle := attrs_length hl
    rw [attributeCode_eq (c := .groupCodeEntry) hc, Out.ofOption_some, Out.ok_bind, if_neg (by simp), hf]
    rw [if_neg (by simp; omega)]
    simp only [attrField, List.getElem?_cons_zero, List.getElem?_cons_succ, Out.ok_bind]
    rw [loop_prefix (l := l) (rest := fs) hl (by simp) (by simp) (by omega)]
    obtain ⟨n, hn⟩ : ∃ n, (id :: param :: (l.flatMap (·.2) ++ fs)).length - l.length = n + 1 :=
      ⟨(id :: param :: (l.flatMap (·.2) ++ fs)).length - l.length - 1, by
        simp only [List.length_cons, List.length_append]; omega⟩
    rw [hn, attrLoop, if_pos (by simp; omega), fromRecord_drop (by simp; omega), ← List.drop_drop,
      List.drop_succ_cons, List.drop_succ_cons, List.drop_zero, List.drop_left, fromRecord_cutLast hcut, Out.ok_bind]
    dsimp only
    have hend : attrLoop (id :: param :: (l.flatMap (·.2) ++ fs)) n (2 + (l.flatMap (·.2)).length + (fs.length + 1))
        ([] ++ l.map (·.1) ++ [a]) = .ok (2 + (l.flatMap (·.2)).length + (fs.length + 1), [] ++ l.map (·.1) ++ [a]) := by
      cases n <;> rw [attrLoop, if_neg (by simp; omega)]
    rw [hend, Out.ok_bind]
    dsimp only
    rw [if_pos (by simp; omega)]
    congr 2
    simp; omega

/-- C43. A block of attribute groups is refused with an error exactly if that is what is wrong with the first record that is
not one of a group. -/
theorem C43_errors (b : UBlock) (e : AttributeError) : AttributeGroups.tryFrom b = .err e ↔
    ∃ pre r post, b.records = pre ++ r :: post ∧ (∀ x ∈ pre, ∃ id param attrs, IsAttrGroup x id param attrs) ∧
      GroupFault r e := by
  unfold AttributeGroups.tryFrom
  generalize ([] : AttributeGroups) = g0
  generalize b.records = rs
  constructor
  · intro h
    induction rs generalizing g0 with
    | nil => cases h
    | cons r rs ih =>
      rw [List.foldlM_cons, bind_eq_err] at h
      rcases h with h | ⟨g1, h1, h2⟩
      · exact ⟨[], r, rs, rfl, by simp, groupStep_err h⟩
      · obtain ⟨pre, r', post, hrs, hpre, hf⟩ := ih g1 h2
        refine ⟨r :: pre, r', post, by rw [hrs]; rfl, fun x hx => ?_, hf⟩
        rcases List.mem_cons.1 hx with rfl | hx
        · exact groupStep_ok h1
        · exact hpre x hx
  · rintro ⟨pre, r, post, rfl, hpre, hf⟩
    induction pre generalizing g0 with
    | nil => rw [List.nil_append, List.foldlM_cons, groupStep_fault hf]; rfl
    | cons x pre ih =>
      obtain ⟨id, param, attrs, hx⟩ := hpre x (by simp)
      rw [List.cons_append, List.foldlM_cons, groupStep_group hx, Out.ok_bind]
      exact ih _ (fun y hy => hpre y (by simp [hy]))

/-- `noreturn` (17) with a value, an `enum` attribute cut off after its kind, `align` without a value and a type
attribute. -/
example : AttributeGroups.tryFrom (UBlock.mk (.ir .paramAttrGroup) [sampleGroup, ⟨none, 3, [1, 0, 1, 17, 5]⟩] []) =
      .err (.attributeMalformed .enumGiven .noReturn) ∧
    AttributeGroups.tryFrom (UBlock.mk (.ir .paramAttrGroup) [sampleGroup, ⟨none, 3, [1, 0, 0]⟩] []) = .err .tooShort ∧
    AttributeGroups.tryFrom (UBlock.mk (.ir .paramAttrGroup) [sampleGroup, ⟨none, 3, [1, 0, 0, 1]⟩] []) =
      .err (.attributeMalformed .nonEnum .alignment) ∧
    AttributeGroups.tryFrom (UBlock.mk (.ir .paramAttrGroup) [sampleGroup, ⟨none, 3, [1, 0, 5, 1]⟩] []) =
      .err (.unknownAttributeKind 5) := by decide +kernel

/-- C46. Looking up list number `k` (from 0) gives the groups whose ids are in the fields of record number `k`, in order,
and nothing if there is no such record. -/
theorem C46_get (b : UBlock) (g : AttributeGroups) (as : Attributes) (h : Attributes.tryFrom b g = .ok as) (k : U64) :
    (b.records[k.toNat]? = none → as.get k = none) ∧
    ∀ r, b.records[k.toNat]? = some r → ∃ e, as.get k = some e ∧ e.map some =
      r.fields.map fun f => g.get (BitVec.ofNat 32 f.toNat) := by
  obtain ⟨h1, h2⟩ := (C46_lists b g as).1 h
  constructor
  · intro hk
    unfold Attributes.get
    simp only [List.getElem?_eq_none_iff] at hk ⊢
    omega
  · intro r hr
    have hlt : k.toNat < as.length := by rw [h1]; exact (List.getElem?_eq_some_iff.1 hr).1
    obtain ⟨-, h3, h4⟩ := h2 k.toNat r _ hr (List.getElem?_eq_getElem hlt)
    refine ⟨_, List.getElem?_eq_getElem hlt, ?_⟩
    refine List.ext_getElem (by simpa using h3) fun j hj hj' => ?_
    simp only [List.length_map] at hj hj'
    simp only [List.getElem_map]
    exact (h4 j _ _ (List.getElem?_eq_getElem hj') (List.getElem?_eq_getElem hj)).symm

example : (∃ as, Attributes.tryFrom (UBlock.mk (.ir .paramAttr) [⟨none, 2, [1, 2]⟩, ⟨none, 2, [2]⟩] [])
    [(1, ⟨.return, []⟩), (2, ⟨.function, []⟩)] = .ok as ∧ as.get 1 = some [⟨.function, []⟩] ∧ as.get 2 = none) :=
  ⟨_, rfl, by decide +kernel, by decide +kernel⟩

end Verif
