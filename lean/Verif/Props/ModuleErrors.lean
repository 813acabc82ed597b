import Verif.Props.TypeErrors
import Verif.Props.File

/-! C53, continued: what the errors of tables, modules and function bodies say. -/

namespace Verif
open Spec

/-! ## Lookups -/

theorem one_none {rs : List BRecord} {code : U64} (h : Records.one rs code = none) : NoRecord code rs := by
  intro r hr hc
  obtain ⟨x, hx⟩ : ∃ x, Records.one rs code = some x := by
    unfold Records.one
    cases hh : (Records.byCode rs code) with
    | nil =>
      have : r ∈ Records.byCode rs code := by simp [Records.byCode, hr, hc]
      rw [hh] at this; cases this
    | cons y l => exact ⟨y, rfl⟩
  rw [h] at hx; cases hx

theorem exactlyOne_err {rs : List BRecord} {code : U64} {e : ConsistencyError} (h : Records.exactlyOne rs code = .err e) :
    (withCode rs code.toNat = [] ∧ e = .missingRecord code) ∨
    (2 ≤ (withCode rs code.toNat).length ∧ e = .tooManyRecords code) := by
  unfold Records.exactlyOne at h
  rw [byCode_withCode] at h
  split at h
  · next h1 => cases h; exact .inl ⟨h1, rfl⟩
  · cases h
  · next _ _ h1 =>
    cases h
    refine .inr ⟨?_, rfl⟩
    rw [h1]; simp

theorem oneOrNone_err {rs : List BRecord} {code : U64} {e : ConsistencyError} (h : Records.oneOrNone rs code = .err e) :
    2 ≤ (withCode rs code.toNat).length ∧ e = .tooManyRecords code := by
  unfold Records.oneOrNone at h
  rw [byCode_withCode] at h
  split at h
  · cases h
  · cases h
  · next _ _ h1 =>
    cases h
    refine ⟨?_, rfl⟩
    rw [h1]; simp

/-! ## String tables, symbol tables and identifications -/

/-- C53. An error for a string table names what is wrong with its block. -/
theorem C53_strtab (pf : Profile) (b : UBlock) (e : StrtabError) (h : Strtab.tryFrom pf b = .err e) :
    StrtabFault b.records e := by
  unfold Strtab.tryFrom at h
  rw [show StrtabCode.blob.code = 1 from rfl] at h
  simp only [bind_eq_err, ofOption_eq_err, ofOption_eq_ok, mapErr_eq_err, reduceCtorEq, and_false, exists_false, or_false] at h
  rcases h with ⟨h, rfl⟩ | ⟨r, hr, e', he, rfl⟩
  · exact one_none h
  · exact ⟨r, (one_iff ..).1 hr, (blob_err pf).1 he⟩

/-- C53. An error for a symbol table names what is wrong with its block. -/
theorem C53_symtab (pf : Profile) (b : UBlock) (e : SymtabError) (h : Symtab.tryFrom pf b = .err e) :
    SymtabFault b.records e := by
  unfold Symtab.tryFrom at h
  rw [show SymtabCode.blob.code = 1 from rfl] at h
  simp only [bind_eq_err, ofOption_eq_err, ofOption_eq_ok, mapErr_eq_err, reduceCtorEq, and_false, exists_false, or_false] at h
  rcases h with ⟨h, rfl⟩ | ⟨r, hr, e', he, rfl⟩
  · exact one_none h
  · exact ⟨r, (one_iff ..).1 hr, (blob_err pf).1 he⟩

/-- C53. An error for an identification names what is wrong with its block. -/
theorem C53_identification (pf : Profile) (b : UBlock) (e : IdentificationError) (h : Identification.tryFrom pf b = .err e) :
    IdentificationFault b.records e := by
  unfold Identification.tryFrom at h
  rw [show IdentificationCode.producerString.code = 1 from rfl, show IdentificationCode.epoch.code = 2 from rfl] at h
  simp only [bind_eq_err, ofOption_eq_err, ofOption_eq_ok, mapErr_eq_err, reduceCtorEq, and_false, exists_false, or_false] at h
  rcases h with ⟨h, rfl⟩ | ⟨r, hr, ⟨e', he, rfl⟩ | ⟨p, hp, ⟨h, rfl⟩ | ⟨r', hr', h, rfl⟩⟩⟩
  · exact one_none h
  · exact ⟨r, e', (one_iff ..).1 hr, (string_err pf).1 he⟩
  · exact .inl (one_none h)
  · exact .inr ⟨r', (one_iff ..).1 hr', List.head?_eq_none_iff.1 h⟩

/-! ## Lists of attributes -/

/-- C53. An error for the lists of attributes names what is wrong with their block. -/
theorem C53_lists (b : UBlock) (g : AttributeGroups) (hg : Sorted g) (e : AttributeError) (h : Attributes.tryFrom b g = .err e) :
    ListFault b.records g e := by
  unfold Attributes.tryFrom at h
  rw [mapOut_eq_err] at h
  obtain ⟨pre, r, post, he, -, hr⟩ := h
  have hmem : r ∈ b.records := by rw [he]; simp
  unfold attrsStep at hr
  rw [bind_eq_err, ofOption_eq_err] at hr
  rcases hr with ⟨hd, rfl⟩ | ⟨c, hd, hr⟩
  · refine .code hmem fun hc => ?_
    have hk : ∀ c : AttributeCode, r.code ≠ c.code := by
      intro c hc
      rw [hc, show (tryFromPrimitive c.code : Option AttributeCode) = some c from tryFromPrimitive_code c] at hd
      cases hd
    have hb : ∀ k : Nat, k < 2 ^ 64 → r.code.toNat = k → r.code = BitVec.ofNat 64 k := by
      intro k hk h; apply BitVec.eq_of_toNat_eq; simp [h]; omega
    simp only [List.mem_cons, List.not_mem_nil, or_false] at hc
    rcases hc with hc | hc | hc
    · exact hk .entryOld (hb _ (by decide) hc)
    · exact hk .entry (hb _ (by decide) hc)
    · exact hk .groupCodeEntry (hb _ (by decide) hc)
  · rw [ofOption_eq_ok] at hd
    have hc := (tryFromPrimitive_iff.1 hd).symm
    cases c with
    | entryOld => cases hr
    | entry =>
      simp only [mapOut_eq_err] at hr
      obtain ⟨fpre, f, fpost, hf, -, hr⟩ := hr
      unfold groupRef at hr
      rw [ofOption_eq_err] at hr
      obtain ⟨hn, rfl⟩ := hr
      exact .undefined hmem hc (f := f) (by rw [hf]; simp) (by simp) fun x hx => by rw [(get_iff hg _ x).2 hx] at hn; cases hn
    | groupCodeEntry =>
      cases hr
      exact .group hmem hc

/-! ## Function bodies -/

theorem functionStep_err {types : TypeTable} {r : BRecord} {e : FunctionBlockError} (h : functionStep types r = .err e)
    {rs : List BRecord} (hmem : r ∈ rs) : BodyFault types rs e := by
  unfold functionStep at h
  rw [bind_eq_err, ofOption_eq_err] at h
  rcases h with ⟨hd, rfl⟩ | ⟨c, hd, h⟩
  · refine .code hmem fun c hc => ?_
    rw [(C50_functionCode r.code c).2 hc] at hd
    cases hd
  · rw [ofOption_eq_ok] at hd
    have hc : r.code = c.code := (tryFromPrimitive_iff.1 hd).symm
    have htab := functionCode_table c
    rw [← hc] at htab
    have hunpack : c.code.toNat ∈ [3, 19, 20, 44] → unpackFields c r 4 = .err e → BodyFault types rs e := by
      intro hk h
      unfold unpackFields at h
      split at h
      · cases h
      · next hl =>
        cases h
        refine .fields hmem htab (.inl ⟨?_, rfl⟩) hl
        rw [hc]
        exact List.mem_cons_of_mem _ hk
    cases c
    case instCast => exact hunpack (by decide) h
    case instAlloca => exact hunpack (by decide) h
    case instLoad => exact hunpack (by decide) h
    case instStore => exact hunpack (by decide) h
    case instBinop =>
      dsimp only at h
      split at h
      · next a ty b op hf =>
        rw [bind_eq_err] at h
        unfold instType at h
        rw [ofOption_eq_err] at h
        rcases h with ⟨hn, rfl⟩ | ⟨t, ht, h⟩
        · exact .type hmem htab (i := ty) (by rw [hc]; decide) (by rw [hf]; rfl) (List.getElem?_eq_none_iff.1 hn)
        · rw [ofOption_eq_ok] at ht
          simp only [bind_eq_err, mapErr_eq_err, reduceCtorEq, and_false, exists_false, or_false] at h
          obtain ⟨e', he', rfl⟩ := h
          by_cases hv : op.toNat < 13
          · rw [(C47_outcome op t).2 hv] at he'
            cases he'
            exact .operand hmem hc hf ht
          · rw [(C47_outcome op t).1 (by omega)] at he'
            cases he'
            exact .opcode hmem hc hf (by omega)
      · next hf =>
        cases h
        refine .fields hmem htab (.inl ⟨by rw [hc]; decide, rfl⟩) fun hl => ?_
        match hx : r.fields, hl with
        | [a, b, c, d], _ => exact hf _ _ _ _ hx
    case instUnop =>
      dsimp only at h
      split at h
      · next a ty op hf =>
        rw [bind_eq_err] at h
        unfold instType at h
        rw [ofOption_eq_err] at h
        rcases h with ⟨hn, rfl⟩ | ⟨t, ht, h⟩
        · exact .type hmem htab (i := ty) (by rw [hc]; decide) (by rw [hf]; rfl) (List.getElem?_eq_none_iff.1 hn)
        · simp only [bind_eq_err, mapErr_eq_err, reduceCtorEq, and_false, exists_false, or_false] at h
          obtain ⟨e', he', rfl⟩ := h
          by_cases hv : op = 0
          · rw [(C47_unary op).1 hv] at he'
            cases he'
          · rw [(C47_unary op).2 hv] at he'
            cases he'
            exact .unary hmem hc hf hv
      · next hf =>
        cases h
        refine .fields hmem htab (.inr ⟨hc, rfl⟩) fun hl => ?_
        match hx : r.fields, hl with
        | [a, b, c], _ => exact hf _ _ _ hx
    all_goals cases h

theorem functionLoop_err {types : TypeTable} {rs : List BRecord} {e : FunctionBlockError} {all : List BRecord}
    (hsub : ∀ r ∈ rs, r ∈ all) (h : functionLoop types rs = .err e) : BodyFault types all e := by
  induction rs with
  | nil => cases h
  | cons r rs ih =>
    unfold functionLoop at h
    rw [bind_eq_err] at h
    rcases h with h | ⟨_, -, h⟩
    · exact functionStep_err h (hsub r (by simp))
    · exact ih (fun x hx => hsub x (by simp [hx])) h

/-- C53, for function bodies: an error names what is wrong with the body, except that of operand types (`BodyFault.operand`),
which is reported for every binary operator that is known, whatever its operands (C47). -/
theorem C53_body_partial (b : UBlock) (types : TypeTable) (e : FunctionBlockError) (h : FunctionBlock.tryFrom b types = .err e) :
    BodyFault types b.records e := by
  unfold FunctionBlock.tryFrom at h
  rw [bind_eq_err, mapErr_eq_err] at h
  rcases h with ⟨e', he, rfl⟩ | ⟨r, hr, h⟩
  · rcases exactlyOne_err he with ⟨hw, rfl⟩ | ⟨hw, rfl⟩
    · exact .noCount hw
    · exact .counts hw
  · rw [Out.mapErr_eq_ok, exactlyOne_iff] at hr
    rw [bind_eq_err, ofOption_eq_err] at h
    rcases h with ⟨hn, rfl⟩ | ⟨n, -, h⟩
    · exact .emptyCount hr (List.head?_eq_none_iff.1 hn)
    · rw [bind_eq_err] at h
      rcases h with h | ⟨_, -, h⟩
      · unfold blockCapacity at h
        split at h <;> cases h
      · rw [bind_eq_err] at h
        rcases h with h | ⟨_, -, h⟩
        · exact functionLoop_err (fun _ h => h) h
        · cases h

/-! ## Modules -/

theorem withCode_mem {rs : List BRecord} {k : Nat} {r : BRecord} (h : r ∈ withCode rs k) : r ∈ rs ∧ r.code.toNat = k := by
  unfold withCode at h
  rw [List.mem_filter] at h
  exact ⟨h.1, by simpa using h.2⟩

theorem code_of_toNat {c : U64} {k : U64} (h : c.toNat = k.toNat) : c = k := BitVec.eq_of_toNat_eq h

theorem moduleStrings_err {pf : Profile} {rs : List BRecord} {code : ModuleCode} {e : ModuleError}
    (h : moduleStrings pf rs code = .err e) :
    ∃ r e', r ∈ rs ∧ r.code = code.code ∧ TextFault r e' ∧ e = .map (.recordString e') := by
  unfold moduleStrings at h
  rw [mapErr_eq_err] at h
  obtain ⟨e', he, rfl⟩ := h
  rw [mapOut_eq_err] at he
  obtain ⟨pre, r, post, hl, -, hr⟩ := he
  have hm : r ∈ Records.byCode rs code.code := by rw [hl]; simp
  unfold Records.byCode at hm
  rw [List.mem_filter] at hm
  exact ⟨r, e', hm.1, by simpa using hm.2, (string_err pf).1 hr, rfl⟩

theorem byId_mem {id : U64} {t : Forest} {u : UBlock} (hu : Unrolled id t u) (k : U64) {v : UBlock}
    (hv : v ∈ Blocks.byId u.blocks (.ofU64 k)) : ∃ c ∈ t.withId k, v.records = c.2.records := by
  obtain ⟨-, -, hc, hs⟩ := hu
  have hc := hc k
  have hs := hs k
  obtain ⟨i, hi⟩ := List.mem_iff_getElem?.1 hv
  have hlt := (List.getElem?_eq_some_iff.1 hi).1
  obtain ⟨c, hcc⟩ : ∃ c, (t.withId k)[i]? = some c := by
    cases hx : (t.withId k)[i]? with
    | none => have := List.getElem?_eq_none_iff.1 hx; omega
    | some c => exact ⟨c, rfl⟩
  obtain ⟨-, h, -, -⟩ := hs i c v hcc hi
  exact ⟨c, List.mem_iff_getElem?.2 ⟨i, hcc⟩, h⟩

theorem blocks_exactlyOne_err {id : U64} {t : Forest} {u : UBlock} (hu : Unrolled id t u) (k : U64) {e : ModuleError}
    (h : inconsistent (Blocks.exactlyOne u.blocks (.ofU64 k)) = .err e) :
    (t.withId k = [] ∧ e = .map (.inconsistent (.missingBlock (.ofU64 k)))) ∨
    (2 ≤ (t.withId k).length ∧ e = .map (.inconsistent (.tooManyBlocks (.ofU64 k)))) := by
  unfold inconsistent Blocks.exactlyOne at h
  rw [mapErr_eq_err] at h
  obtain ⟨e', h, rfl⟩ := h
  rcases byId_cases hu k with ⟨h1, h2⟩ | ⟨c, v, h1, h2, h3⟩ | ⟨c, c', l, v, v', m, h1, h2⟩
  · rw [h2] at h; cases h; exact .inl ⟨h1, rfl⟩
  · rw [h2] at h; cases h
  · rw [h2] at h; cases h; exact .inr ⟨by rw [h1]; simp, rfl⟩

theorem blocks_oneOrNone_err {id : U64} {t : Forest} {u : UBlock} (hu : Unrolled id t u) (k : U64) {e : ModuleError}
    (h : inconsistent (Blocks.oneOrNone u.blocks (.ofU64 k)) = .err e) :
    2 ≤ (t.withId k).length ∧ e = .map (.inconsistent (.tooManyBlocks (.ofU64 k))) := by
  unfold inconsistent Blocks.oneOrNone at h
  rw [mapErr_eq_err] at h
  obtain ⟨e', h, rfl⟩ := h
  rcases byId_cases hu k with ⟨h1, h2⟩ | ⟨c, v, h1, h2, h3⟩ | ⟨c, c', l, v, v', m, h1, h2⟩
  · rw [h2] at h; cases h
  · rw [h2] at h; cases h
  · rw [h2] at h; cases h; exact ⟨by rw [h1]; simp, rfl⟩

theorem orElse_err {ε α β : Type} {o : Option α} {missing : β} {f : α → Out ε β} {e : ε} (h : orElse o missing f = .err e) :
    ∃ a, o = some a ∧ f a = .err e := by
  cases o with
  | none => cases h
  | some a => exact ⟨a, rfl, h⟩

theorem oneOrNone_some {rs : List BRecord} {code : U64} {r : BRecord}
    (h : inconsistent (Records.oneOrNone rs code) = .ok (some r)) : withCode rs code.toNat = [r] := by
  unfold inconsistent Records.oneOrNone at h
  rw [Out.mapErr_eq_ok, byCode_withCode] at h
  split at h
  · cases h
  · next x hx => cases h; exact hx
  · cases h

theorem inconsistent_records {rs : List BRecord} {code : U64} {e : ModuleError}
    (h : inconsistent (Records.oneOrNone rs code) = .err e) :
    2 ≤ (withCode rs code.toNat).length ∧ e = .map (.inconsistent (.tooManyRecords code)) := by
  unfold inconsistent at h
  rw [mapErr_eq_err] at h
  obtain ⟨e', h, rfl⟩ := h
  obtain ⟨h1, rfl⟩ := oneOrNone_err h
  exact ⟨h1, rfl⟩

theorem blocks_oneOrNone_some {id : U64} {t : Forest} {u : UBlock} (hu : Unrolled id t u) (k : U64) {v : UBlock}
    (h : inconsistent (Blocks.oneOrNone u.blocks (.ofU64 k)) = .ok (some v)) :
    ∃ c, t.withId k = [c] ∧ v.records = c.2.records := by
  unfold inconsistent Blocks.oneOrNone at h
  rw [Out.mapErr_eq_ok] at h
  rcases byId_cases hu k with ⟨h1, h2⟩ | ⟨c, v', h1, h2, h3⟩ | ⟨c, c', l, v', v'', m, h1, h2⟩
  · rw [h2] at h; cases h
  · rw [h2] at h; cases h; exact ⟨c, h1, h3⟩
  · rw [h2] at h; cases h

theorem blocks_exactlyOne_ok {id : U64} {t : Forest} {u : UBlock} (hu : Unrolled id t u) (k : U64) {v : UBlock}
    (h : inconsistent (Blocks.exactlyOne u.blocks (.ofU64 k)) = .ok v) : ∃ c, t.withId k = [c] ∧ v.records = c.2.records := by
  unfold inconsistent Blocks.exactlyOne at h
  rw [Out.mapErr_eq_ok] at h
  rcases byId_cases hu k with ⟨h1, h2⟩ | ⟨c, v', h1, h2, h3⟩ | ⟨c, c', l, v', v'', m, h1, h2⟩
  · rw [h2] at h; cases h
  · rw [h2] at h; cases h; exact ⟨c, h1, h3⟩
  · rw [h2] at h; cases h

theorem fill_err (pf : Profile) {id : U64} {t : Forest} {u : UBlock} (hu : Unrolled id t u) (strtab : Strtab)
    (hs : strtab.bytes.length < 2 ^ 64) {e : ModuleError}
    (h : Module.fill pf u { PartialMapCtx.default with strtab } = .err e) : ModuleFault pf strtab t e := by
  have hr : u.records = t.records := by obtain ⟨-, h, -, -⟩ := hu; exact h
  unfold Module.fill at h
  rw [bind_eq_err] at h
  rcases h with h | ⟨v, hv, h⟩
  · unfold moduleVersion at h
    rw [bind_eq_err] at h
    rcases h with h | ⟨r, hrr, h⟩
    · unfold inconsistent at h
      rw [mapErr_eq_err] at h
      obtain ⟨e', h, rfl⟩ := h
      rw [hr] at h
      rcases exactlyOne_err h with ⟨hw, rfl⟩ | ⟨hw, rfl⟩
      · exact .noVersion hw
      · exact .records (by decide) hw
    · unfold inconsistent at hrr
      rw [Out.mapErr_eq_ok, hr, exactlyOne_iff] at hrr
      rw [ofOption_eq_err] at h
      obtain ⟨hn, rfl⟩ := h
      exact .emptyVersion hrr (List.head?_eq_none_iff.1 hn)
  rw [moduleVersion_iff, hr] at hv
  obtain ⟨vr, vrest, hvr, hvf⟩ := hv
  rw [bind_eq_err] at h
  rcases h with h | ⟨o, ho, h⟩
  · rw [hr] at h
    obtain ⟨h1, rfl⟩ := inconsistent_records h
    exact .records (by decide) h1
  rw [bind_eq_err] at h
  rcases h with h | ⟨d, hd, h⟩
  · obtain ⟨r, rfl, h'⟩ := orElse_err h
    clear h
    have h := h'
    rw [hr] at ho
    have ho := oneOrNone_some ho
    rw [mapErr_eq_err] at h
    obtain ⟨e', h, rfl⟩ := h
    unfold DataLayout.tryMap at h
    rw [bind_eq_err, mapErr_eq_err] at h
    rcases h with ⟨e'', h, rfl⟩ | ⟨s, hss, h⟩
    · exact .datalayoutText ho ((string_err pf).1 h)
    · rw [Out.mapErr_eq_ok, holds_iff] at hss
      exact .datalayout ho hss ((Props.C59_rejects _ _).1 h)
  rw [bind_eq_err] at h
  rcases h with h | ⟨ss, hss, h⟩
  · obtain ⟨r, e', h1, h2, h3, rfl⟩ := moduleStrings_err h
    exact .text (hr ▸ h1) (by rw [h2]; decide) h3
  rw [bind_eq_err] at h
  rcases h with h | ⟨gs, hgs, h⟩
  · obtain ⟨r, e', h1, h2, h3, rfl⟩ := moduleStrings_err h
    exact .text (hr ▸ h1) (by rw [h2]; decide) h3
  rw [bind_eq_err] at h
  rcases h with h | ⟨tb, htb, h⟩
  · rcases blocks_exactlyOne_err hu 17 h with ⟨h1, rfl⟩ | ⟨h1, rfl⟩
    · exact .noTypes h1
    · exact .blocks (by decide) h1
  rw [bind_eq_err] at h
  rcases h with h | ⟨ts, hts, h⟩
  · rw [mapErr_eq_err] at h
    obtain ⟨e', h, rfl⟩ := h
    obtain ⟨c, h1, h2⟩ := blocks_exactlyOne_ok hu 17 htb
    have h : TypeTable.tryFrom pf (.mk (.ir .type) c.2.records []) = .err e' := by rw [← h2]; exact h
    exact .types h1 ((C53_types pf _ _).1 h)
  rw [bind_eq_err] at h
  rcases h with h | ⟨vb, hvb, h⟩
  · rcases blocks_exactlyOne_err hu 14 h with ⟨h1, rfl⟩ | ⟨h1, rfl⟩
    · exact .noSymbols h1
    · exact .blocks (by decide) h1
  rw [bind_eq_err] at h
  rcases h with h | ⟨o2, ho2, h⟩
  · obtain ⟨h1, rfl⟩ := blocks_oneOrNone_err hu 10 h
    exact .blocks (by decide) h1
  rw [bind_eq_err] at h
  rcases h with h | ⟨g, hg, h⟩
  · obtain ⟨v, rfl, h'⟩ := orElse_err h
    clear h
    rw [mapErr_eq_err] at h'
    obtain ⟨e', h, rfl⟩ := h'
    obtain ⟨c, h1, h2⟩ := blocks_oneOrNone_some hu 10 ho2
    obtain ⟨pre, r, post, he, -, hf⟩ := (C43_errors _ _).1 h
    exact .groups h1 (h2 ▸ he) hf
  have hg := (block_oneOrNone hu 10 [] (fun v => (AttributeGroups.tryFrom v).mapErr .attributeBlock)
    GroupsSay (fun v ts => by rw [Out.mapErr_eq_ok]; exact C43_exact v ts) g).1 ⟨o2, ho2, hg⟩
  rw [bind_eq_err] at h
  rcases h with h | ⟨o3, ho3, h⟩
  · obtain ⟨h1, rfl⟩ := blocks_oneOrNone_err hu 9 h
    exact .blocks (by decide) h1
  rw [bind_eq_err] at h
  rcases h with h | ⟨as, has, h⟩
  · obtain ⟨v, rfl, h'⟩ := orElse_err h
    clear h
    rw [mapErr_eq_err] at h'
    obtain ⟨e', h, rfl⟩ := h'
    obtain ⟨c, h1, h2⟩ := blocks_oneOrNone_some hu 9 ho3
    exact .attributes hg h1 (h2 ▸ C53_lists _ _ (optionally_sorted hg) _ h)
  simp only [bind_eq_err, mapErr_eq_err, reduceCtorEq, and_false, exists_false, or_false] at h
  obtain ⟨e', h, rfl⟩ := h
  rw [mapOut_eq_err] at h
  obtain ⟨pre, r, post, hl, -, h⟩ := h
  have hm : r ∈ Records.byCode u.records ModuleCode.comdat.code := by rw [hl]; simp
  rw [byCode_withCode, hr] at hm
  obtain ⟨hm, hk⟩ := withCode_mem hm
  have := C49_comdat_errors pf r _ v rfl hs e' h
  exact .comdat hvr hvf hm (code_of_toNat hk) this

/-- C53, for modules: whatever error mapping a module block returns, the block has the fault it names; only that about
operand types in function bodies says nothing (`BodyFault.operand`). -/
theorem C53_module_partial (pf : Profile) (target : Str) {id : U64} {t : Forest} {u : UBlock} (hu : Unrolled id t u)
    (strtab : Strtab) (hs : strtab.bytes.length < 2 ^ 64) (e : ModuleError)
    (h : Module.tryFrom pf target u { PartialMapCtx.default with strtab } = .err e) : ModuleFault pf strtab t e := by
  have hr : u.records = t.records := by obtain ⟨-, h, -, -⟩ := hu; exact h
  unfold Module.tryFrom Module.tryFromFull at h
  simp only [bind_eq_err, reduceCtorEq, and_false, exists_false, or_false] at h
  rcases h with h | ⟨c, hc, ⟨h⟩ | ⟨ctx, hctx, h⟩⟩
  · exact fill_err pf hu strtab hs h
  · -- The context is complete after a successful `fill`.
    exfalso
    unfold Module.fill at hc
    simp only [Out.bind_eq_ok, Out.ok.injEq] at hc
    obtain ⟨v, -, o, -, d, -, ss, -, gs, -, tb, -, ts, -, vb, -, o2, -, g, -, o3, -, as, -, cs, -, rfl⟩ := hc
    cases h
  · rw [Out.mapErr_eq_ok] at hctx
    have htab := (fill_iff pf hu strtab hs ctx).1 ⟨c, hc, hctx⟩
    have hs' : ctx.strtab.bytes.length < 2 ^ 64 := by rw [htab.strtab]; exact hs
    unfold Module.finish at h
    rw [hr] at h
    rw [bind_eq_err] at h
    rcases h with h | ⟨o, ho, h⟩
    · obtain ⟨h1, rfl⟩ := inconsistent_records h
      exact .records (by decide) h1
    rw [bind_eq_err] at h
    rcases h with h | ⟨tr, htr, h⟩
    · obtain ⟨r, rfl, h'⟩ := orElse_err h
      rw [mapErr_eq_err] at h'
      obtain ⟨e', h', rfl⟩ := h'
      have hm := withCode_mem (k := 2) (rs := t.records) (r := r) (by rw [show withCode t.records 2 = [r] from oneOrNone_some ho]; simp)
      exact .text hm.1 (by rw [hm.2]; decide) ((string_err pf).1 h')
    rw [bind_eq_err] at h
    rcases h with h | ⟨o2, ho2, h⟩
    · obtain ⟨h1, rfl⟩ := inconsistent_records h
      exact .records (by decide) h1
    rw [bind_eq_err] at h
    rcases h with h | ⟨asm, hasm, h⟩
    · obtain ⟨r, rfl, h'⟩ := orElse_err h
      simp only [bind_eq_err, mapErr_eq_err, reduceCtorEq, and_false, exists_false, or_false] at h'
      obtain ⟨e', h', rfl⟩ := h'
      have hm := withCode_mem (k := 4) (rs := t.records) (r := r) (by rw [show withCode t.records 4 = [r] from oneOrNone_some ho2]; simp)
      exact .text hm.1 (by rw [hm.2]; decide) ((string_err pf).1 h')
    rw [bind_eq_err] at h
    rcases h with h | ⟨dl, hdl, h⟩
    · obtain ⟨r, e', h1, h2, h3, rfl⟩ := moduleStrings_err h
      exact .text h1 (by rw [h2]; decide) h3
    rw [bind_eq_err] at h
    rcases h with h | ⟨fs, hfs, h⟩
    · rw [mapErr_eq_err] at h
      obtain ⟨e', h, rfl⟩ := h
      rw [mapOut_eq_err] at h
      obtain ⟨pre, r, post, hl, -, h⟩ := h
      have hm : r ∈ Records.byCode t.records ModuleCode.function.code := by rw [hl]; simp
      rw [byCode_withCode] at hm
      obtain ⟨hm, hk⟩ := withCode_mem hm
      exact .function htab hm (code_of_toNat hk) (C49_function_errors pf r ctx hs' e' h)
    rw [bind_eq_err] at h
    rcases h with h | ⟨bs, hbs, h⟩
    · rw [mapErr_eq_err] at h
      obtain ⟨e', h, rfl⟩ := h
      rw [mapOut_eq_err] at h
      obtain ⟨pre, v, post, hl, -, h⟩ := h
      obtain ⟨c, hc, hv⟩ := byId_mem hu 12 (v := v) (by rw [show BlockId.ofU64 12 = .ir .function from rfl, hl]; simp)
      exact .body htab hc (hv ▸ C53_body_partial _ _ _ h)
    simp only [bind_eq_err, mapErr_eq_err, reduceCtorEq, and_false, exists_false, or_false] at h
    obtain ⟨e', h, rfl⟩ := h
    rw [mapOut_eq_err] at h
    obtain ⟨pre, r, post, hl, -, h⟩ := h
    have hm : r ∈ Records.byCode t.records ModuleCode.alias.code := by rw [hl]; simp
    rw [byCode_withCode] at hm
    obtain ⟨hm, hk⟩ := withCode_mem hm
    exact .alias htab hm (code_of_toNat hk) (C49_alias_errors pf r ctx hs' e' h)

/-! ## Files -/

theorem optEach_some {α β : Type} {P : α → β → Prop} {o : Option α} {b : β} (h : OptEach P o (some b)) : ∃ a, o = some a ∧ P a b := by
  cases o with
  | none => exact h.elim
  | some a => exact ⟨a, rfl, h⟩

theorem optEach_none {α β : Type} {P : α → β → Prop} {o : Option α} (h : OptEach P o (none : Option β)) : o = none := by
  cases o with
  | none => rfl
  | some a => exact h.elim

theorem reify_err (pf : Profile) (target : Str) {bytes : List U8} {tops : List (BBlock × Forest)}
    (hb : Begins pf bytes tops [] .done) {p : Parts (BBlock × Forest)} (hp : p ∈ parts tops) {q : PartialModule}
    (hi : StandsFor p.identification q.identification) (hm : OptEach StandsFor p.module q.module)
    (hst : OptEach StandsFor p.strtab q.strtab) (hsy : OptEach StandsFor p.symtab q.symtab)
    (hmem : ∀ c bs, p.strtab = some c → TableSays pf c.2.records bs → bs.length < 2 ^ 64) {e : MapperError}
    (h : q.reify pf target = .err e) : FileFault pf bytes e := by
  unfold PartialModule.reify at h
  rw [bind_eq_err, ofOption_eq_err] at h
  rcases h with ⟨hn, rfl⟩ | ⟨sb, hsb, h⟩
  · rw [hn] at hst
    exact .noStrtab hb hp (optEach_none hst)
  rw [ofOption_eq_ok] at hsb
  rw [hsb] at hst
  obtain ⟨c, hc, hcs⟩ := optEach_some hst
  rw [bind_eq_err, mapErr_eq_err] at h
  rcases h with ⟨e', h, rfl⟩ | ⟨st, hst', h⟩
  · exact .strtab hb hp hc (hcs.records ▸ C53_strtab pf _ _ h)
  rw [Out.mapErr_eq_ok, strtab_says pf hcs] at hst'
  rw [bind_eq_err, mapErr_eq_err] at h
  rcases h with ⟨e', h, rfl⟩ | ⟨i, -, h⟩
  · exact .identification hb hp (hi.records ▸ C53_identification pf _ _ h)
  rw [bind_eq_err, ofOption_eq_err] at h
  rcases h with ⟨hn, rfl⟩ | ⟨mb, hmb, h⟩
  · rw [hn] at hm
    exact .noModule hb hp (optEach_none hm)
  rw [ofOption_eq_ok] at hmb
  rw [hmb] at hm
  obtain ⟨d, hd, hds⟩ := optEach_some hm
  rw [bind_eq_err, mapErr_eq_err] at h
  rcases h with ⟨e', h, rfl⟩ | ⟨m, -, h⟩
  · exact .inModule hb hp hc hst' hd (C53_module_partial pf target hds st (hmem c _ hc hst') _ h)
  simp only [bind_eq_err, mapErr_eq_err, reduceCtorEq, and_false, exists_false, or_false] at h
  obtain ⟨e', h, rfl⟩ := h
  cases hq : q.symtab with
  | none => rw [hq] at h; cases h
  | some sy =>
    rw [hq] at h hsy
    obtain ⟨x, hx, hxs⟩ := optEach_some hsy
    simp only [optSymtab, bind_eq_err, reduceCtorEq, and_false, exists_false, or_false] at h
    exact .symtab hb hp hx (hxs.records ▸ C53_symtab pf _ _ h)

/-- C53, for files: whatever error mapping bytes returns, they have the fault it names; only that about operand types in
function bodies says nothing (`BodyFault.operand`). -/
theorem C53_file_partial (pf : Profile) (target : Str) (bytes : List U8) (e : MapperError)
    (hlen : bytes.length ≤ 2 ^ 61) (h : Bitcode.tryFrom pf target bytes = .err e) : FileFault pf bytes e := by
  unfold Bitcode.tryFrom at h
  rw [bind_eq_err, mapErr_eq_err] at h
  rcases h with ⟨e', h, rfl⟩ | ⟨⟨w, b⟩, hb, h⟩
  · exact .header h
  rw [Out.mapErr_eq_ok] at hb
  obtain ⟨tops, P, us, r, b₁, b₂, ⟨es, hes, hit⟩, hn, hne, hnd, hlen, hun, hok, herr⟩ := C28_unroll pf (.auto hb)
  have hbeg : Begins pf bytes tops P r := ⟨w, b, b₁, b₂, es, hb, hes, hit, hn, hne⟩
  have hs : Each StandsFor tops us := ⟨hlen, hun⟩
  unfold Bitcode.ofStream at h
  rcases orderly_or us with ho | ⟨pre, u, post, m, he, ho, hm⟩
  · rw [hok ho] at h
    cases r with
    | item x => exact absurd rfl (hne x)
    | diverge => exact absurd rfl hnd
    | panic p => cases h
    | error x => cases h; exact .stream hbeg
    | done =>
      unfold ending at h
      by_cases hP : P = []
      · subst hP
        simp only [if_true, Out.mapErr, Out.ok_bind, bind_eq_err, reduceCtorEq, and_false, exists_false, or_false] at h
        rw [mapOut_eq_err] at h
        obtain ⟨qpre, q, qpost, hq, -, h⟩ := h
        have hp := parts_pairs hs
        have hqi : (pairs us)[qpre.length]? = some q := by rw [hq]; simp
        have hlt : qpre.length < (parts tops).length := by rw [← hp.1]; exact (List.getElem?_eq_some_iff.1 hqi).1
        obtain ⟨g1, g2, g3, g4⟩ := hp.2 _ _ q (List.getElem?_eq_getElem hlt) hqi
        have hpm := List.getElem_mem hlt
        refine reify_err pf target hbeg hpm g1 g2 g3 g4 (fun c bs hc hbs => ?_) h
        have hl := from_len hb
        have hds : items (iterate pf es.length b).1 = completeEntries tops := by
          rw [hit]
          simp only [hes, openEntries, List.flatMap_nil, List.append_nil]
          exact items_map _
        have := table_small (.auto hb) hds (parts_strtab_mem hpm hc) hbs
        omega
      · rw [if_neg hP] at h
        cases h
        exact .truncated hbeg hP
  · rw [herr pre u post m he ho hm] at h
    cases h
    subst he
    obtain ⟨tpre, ty, rfl, hpre, hy⟩ := each_append_left.1 hs.flip
    obtain ⟨c, tpost, rfl, hu, hpost⟩ := each_cons_left.1 hy
    have hu : StandsFor c u := hu
    have hids : ∀ {l : List UBlock} {m : List (BBlock × Forest)}, Each (fun b a => StandsFor a b) l m →
        ∀ d ∈ m, ∃ v ∈ l, StandsFor d v := by
      intro l m h d hd
      obtain ⟨k, hk⟩ := List.getElem?_of_mem hd
      have hlt : k < l.length := by rw [← h.1]; exact (List.getElem?_eq_some_iff.1 hk).1
      exact ⟨_, List.getElem_mem hlt, h.2 k _ d (List.getElem?_eq_getElem hlt) hk⟩
    unfold offence at hm
    rw [hu.kinds.1, hu.kinds.2.1, hu.kinds.2.2.1, hu.kinds.2.2.2] at hm
    split at hm
    · next hmod =>
      have hmod : c.1.blockId = 8 := by simpa using hmod
      split at hm
      · next hall =>
        cases hm
        refine .unidentified hbeg hmod fun d hd => ?_
        obtain ⟨v, hv, hdv⟩ := hids hpre d hd
        have := List.all_eq_true.1 hall v hv
        rw [hdv.kinds.1] at this
        simpa using this
      · next hall =>
        split at hm
        · next hany =>
          cases hm
          rcases last_with isIdentification pre with h' | ⟨a, i, b', hpe, hi, hb'⟩
          · exact absurd h' hall
          · subst hpe
            rw [takeWhile_reverse_last _ _ _ _ hi hb'] at hany
            obtain ⟨d, hd, hdm⟩ := List.any_eq_true.1 hany
            obtain ⟨x1, x2, hx⟩ := List.append_of_mem (List.mem_reverse.1 hd)
            subst hx
            obtain ⟨a', y', rfl, ha, hy'⟩ := each_append_left.1 hpre
            obtain ⟨i', b'', rfl, hi', hb''⟩ := each_cons_left.1 hy'
            obtain ⟨y1, y2, rfl, hy1, hy2⟩ := each_append_left.1 hb''
            obtain ⟨d', y3, rfl, hd', hy3⟩ := each_cons_left.1 hy2
            have hd' : StandsFor d' d := hd'
            refine .adjacent (pre := a' ++ i' :: y1) (c := d') (between := y3) (d := c) (post := tpost) (stillOpen := P) (r := r)
              ?_ ?_ hmod ?_
            · simpa using hbeg
            · rw [hd'.kinds.2.1] at hdm; simpa using hdm
            · intro z hz
              obtain ⟨v, hv, hzv⟩ := hids hy3 z hz
              have := List.all_eq_true.1 hb' v (by simp [hv])
              rw [hzv.kinds.1] at this
              simpa using this
        · cases hm
    · next hmod =>
      split at hm
      · cases hm
      · next hoth =>
        cases hm
        rw [hu.id]
        refine .unexpected hbeg (c := c) (by simp) ?_
        simp only [beq_iff_eq] at hmod
        simp only [Bool.or_eq_true, beq_iff_eq, not_or] at hoth
        intro hc
        simp only [List.mem_cons, List.not_mem_nil, or_false] at hc
        rcases hc with hc | hc | hc | hc
        · exact hmod (code_of_toNat hc)
        · exact hoth.1.1 (code_of_toNat hc)
        · exact hoth.1.2 (code_of_toNat hc)
        · exact hoth.2 (code_of_toNat hc)

end Verif
