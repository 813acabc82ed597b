import Verif.Props.Reserve
import Verif.Props.Stops
import Verif.Props.Costs

/-! C81, for the mapper. -/

namespace Verif
open Spec

/-! ## Why mapping ends for want of room -/

/-- The end for want of room. -/
abbrev wantOfRoom : Stop := .panic .capacity

theorem not_empty_text {pf : Profile} {r : BRecord} : ¬ EmptyText pf r wantOfRoom := fun h => by simp [EmptyText] at h

theorem not_name {pf : Profile} : wantOfRoom ≠ .panic (nameSite pf) := by cases pf <;> decide

theorem text_room (pf : Profile) {r : BRecord} : (r.tryString pf 0).Stops wantOfRoom ↔ False := by
  rw [string_stops, iff_false]; exact not_empty_text

theorem strings_room (pf : Profile) {rs : List BRecord} {code : ModuleCode} : (moduleStrings pf rs code).Stops wantOfRoom ↔ False := by
  rw [iff_false]
  intro h
  obtain ⟨r, -, -, h⟩ := moduleStrings_stops pf h
  exact not_empty_text h

theorem orElse_room {ε α β : Type} {o : Option α} {missing : β} {f : α → Out ε β} (hf : ∀ a, ¬ (f a).Stops wantOfRoom) :
    (orElse o missing f).Stops wantOfRoom ↔ False := by
  rw [iff_false]
  intro h
  obtain ⟨a, -, h⟩ := orElse_stops h
  exact hf a h

theorem mapOut_room {ε α β : Type} {f : α → Out ε β} {l : List α} (hf : ∀ a, ¬ (f a).Stops wantOfRoom) :
    (mapOut f l).Stops wantOfRoom ↔ False := by
  rw [iff_false]
  intro h
  obtain ⟨a, -, h⟩ := mapOut_stops h
  exact hf a h

theorem version_room {b : UBlock} : (moduleVersion b).Stops wantOfRoom ↔ False := by
  unfold moduleVersion
  simp only [bind_stops, inconsistent_exactlyOne_stops, ofOption_stops, and_false, exists_false, or_false]

theorem layout_room (pf : Profile) (r : BRecord) : ¬ (DataLayout.tryMap pf r).Stops wantOfRoom := by
  unfold DataLayout.tryMap
  rw [bind_stops, mapErr_stops, text_room]
  rintro (h | ⟨x, -, h⟩)
  · exact h
  · exact absurd h (Props.C37_returns x).not_stops

theorem types_room (pf : Profile) (b : UBlock) : (TypeTable.tryFrom pf b).Stops wantOfRoom ↔ ∃ n ∈ Reserve.types b, 2 ^ 63 ≤ n := by
  unfold TypeTable.tryFrom Reserve.types
  cases h1 : Records.one b.records TypeCode.numEntry.code with
  | none => simp [Out.ofOption, err_stops]
  | some r =>
    simp only [Out.ofOption, Out.ok_bind]
    cases h2 : r.fields.head? with
    | none => simp [err_stops]
    | some n =>
      simp only [Out.ok_bind, List.mem_singleton, exists_eq_left]
      unfold typeCapacity
      split
      · next h =>
        simp only [Out.ok_bind]
        rw [iff_false_right (by omega), bind_stops]
        rintro (h | ⟨s, -, h⟩)
        · obtain ⟨_, a, _, c, -, -, h⟩ := foldlM_stops.1 h
          exact not_empty_text ((typeStep_stops pf).1 h).2
        · exact absurd (reifyTypes_stops.1 h).1 (by decide)
      · next h =>
        simp only [Out.panic_bind, panic_stops, true_iff]
        omega

theorem body_room (b : UBlock) (types : TypeTable) : (FunctionBlock.tryFrom b types).Stops wantOfRoom ↔ ∃ n ∈ Reserve.body b, 2 ^ 63 ≤ n := by
  unfold FunctionBlock.tryFrom Reserve.body
  cases h1 : Records.exactlyOne b.records FunctionCode.declareBlocks.code with
  | ok r =>
    simp only [Out.mapErr, Out.ok_bind]
    cases h2 : r.fields.head? with
    | none => simp [err_stops]
    | some n =>
      simp only [Out.ofOption, Out.ok_bind, List.mem_singleton, exists_eq_left]
      unfold blockCapacity
      split
      · next h =>
        simp only [Out.ok_bind]
        rw [iff_false_right (by omega), bind_stops]
        rintro (h | ⟨s, -, h⟩)
        · rcases functionLoop_cases types b.records with ⟨h1, -⟩ | ⟨_, _, _, _, _, _, ⟨h1, -⟩ | ⟨⟨e, h1⟩, -⟩⟩ <;> rw [h1] at h <;>
            simp [ok_stops, err_stops, panic_stops] at h
        · simp [panic_stops] at h
      · next h =>
        simp only [Out.panic_bind, panic_stops, true_iff]
        omega
  | err e => simp [Out.mapErr, err_stops]
  | panic e => unfold Records.exactlyOne at h1; split at h1 <;> cases h1
  | diverge => unfold Records.exactlyOne at h1; split at h1 <;> cases h1

/-- The function bodies. -/
theorem bodies_room (types : TypeTable) (fs : List UBlock) :
    (mapOut (fun f => FunctionBlock.tryFrom f types) fs).Stops wantOfRoom ↔ ∃ n ∈ Reserve.bodies types fs, 2 ^ 63 ≤ n := by
  induction fs with
  | nil => simp [mapOut, ok_stops, Reserve.bodies]
  | cons f fs ih =>
    simp only [mapOut, Reserve.bodies, bind_stops, ok_stops, and_false, exists_false, or_false, body_room, List.mem_append]
    cases h : FunctionBlock.tryFrom f types with
    | ok a =>
      simp only [Out.ok.injEq, exists_eq_left', ih]
      constructor
      · rintro (⟨n, h1, h2⟩ | ⟨n, h1, h2⟩)
        · exact ⟨n, .inl h1, h2⟩
        · exact ⟨n, .inr h1, h2⟩
      · rintro ⟨n, h1 | h1, h2⟩
        · exact .inl ⟨n, h1, h2⟩
        · exact .inr ⟨n, h1, h2⟩
    | err e => simp
    | panic e => simp
    | diverge => simp

theorem fill_room (pf : Profile) (b : UBlock) (ctx : PartialMapCtx) : (Module.fill pf b ctx).Stops wantOfRoom ↔
    ∃ tb, Reserve.typeBlock pf b ctx = .ok tb ∧ (TypeTable.tryFrom pf tb).Stops wantOfRoom := by
  have hl : ∀ dl : Option BRecord, (orElse dl ctx.datalayout fun r => (DataLayout.tryMap pf r).mapErr ModuleError.dataLayoutRecord).Stops wantOfRoom ↔ False :=
    fun dl => orElse_room fun r => by rw [mapErr_stops]; exact layout_room pf r
  have hg : ∀ gb : Option UBlock, (orElse gb ctx.attributeGroups fun g => (AttributeGroups.tryFrom g).mapErr ModuleError.attributeBlock).Stops wantOfRoom ↔ False :=
    fun gb => orElse_room fun g => by
      rw [mapErr_stops]
      exact fun h => absurd ((C44_groups_panic_iff g _).1 h).1 (by decide)
  have ha : ∀ (gb : Option UBlock) (gs : AttributeGroups), (orElse gb ctx.attributes fun a => (Attributes.tryFrom a gs).mapErr ModuleError.attributeBlock).Stops wantOfRoom ↔ False :=
    fun gb gs => orElse_room fun g => by
      rw [mapErr_stops]
      exact fun h => absurd ((C44_lists_panic_iff g gs _).1 h).1 (by decide)
  have hc : ∀ (c : PartialMapCtx) v (rs : List BRecord), c.version = some v → ((mapOut (fun r => Comdat.tryMap pf r c) rs).Stops wantOfRoom ↔ False) :=
    fun c v rs hv => mapOut_room fun r h => not_name (Comdat.stops pf hv h).2.2.2
  unfold Module.fill Reserve.typeBlock
  simp only [bind_stops, inconsistent_oneOrNone_stops, inconsistent_blocks_stops, mapErr_stops, ok_stops, version_room, strings_room, hl, hg, ha,
    and_false, exists_false, false_or, or_false, Out.bind_eq_ok]
  constructor
  · rintro ⟨v, hv, o, ho, d, hd, ss, hss, gs, hgs, tb, htb, h | ⟨_, -, _, -, _, -, _, -, _, -, _, -, h⟩⟩
    rotate_left
    · exact ((hc _ v _ rfl).1 h).elim
    exact ⟨tb, ⟨v, hv, o, ho, d, hd, ss, hss, gs, hgs, htb⟩, h⟩
  · rintro ⟨tb, ⟨v, hv, o, ho, d, hd, ss, hss, gs, hgs, htb⟩, h⟩
    exact ⟨v, hv, o, ho, d, hd, ss, hss, gs, hgs, tb, htb, .inl h⟩

theorem module_room (pf : Profile) (target : Str) (b : UBlock) (ctx : PartialMapCtx) :
    (Module.tryFrom pf target b ctx).Stops wantOfRoom ↔ ∃ n ∈ Reserve.module pf target b ctx, 2 ^ 63 ≤ n := by
  have hr : ∀ c : PartialMapCtx, (c.reify.mapErr fun e => ModuleError.map (.context e)).Stops wantOfRoom ↔ False := by
    intro c
    rw [mapErr_stops]
    unfold PartialMapCtx.reify
    simp only [bind_stops, ofOption_stops, ok_stops, and_false, exists_false, or_false]
  have ht : ∀ o : Option BRecord, (orElse o target fun r => (r.tryString pf 0).mapErr fun e => ModuleError.map (.recordString e)).Stops wantOfRoom ↔ False :=
    fun o => orElse_room fun r => by rw [mapErr_stops, text_room]; exact id
  have has : ∀ o : Option BRecord, (orElse o [] fun r => do
      let s ← (r.tryString pf 0).mapErr fun e => ModuleError.map (.recordString e)
      .ok (split '\n' s)).Stops wantOfRoom ↔ False :=
    fun o => orElse_room fun r => by simp only [bind_stops, mapErr_stops, text_room, ok_stops, and_false, exists_false, or_false, not_false_eq_true]
  have hf : ∀ (c : MapCtx) (rs : List BRecord), (mapOut (fun r => FunctionRecord.tryMap pf r c) rs).Stops wantOfRoom ↔ False :=
    fun c rs => mapOut_room fun r h => not_name (FunctionRecord.stops pf h).2.2.2
  have hal : ∀ (c : MapCtx) (rs : List BRecord), (mapOut (fun r => Alias.tryMap pf r c) rs).Stops wantOfRoom ↔ False :=
    fun c rs => mapOut_room fun r h => not_name (Alias.stops pf h).2.2.2
  have hlist : (∃ n ∈ Reserve.module pf target b ctx, 2 ^ 63 ≤ n) ↔
      (∃ tb, Reserve.typeBlock pf b ctx = .ok tb ∧ ∃ n ∈ Reserve.types tb, 2 ^ 63 ≤ n) ∨
      ∃ c, Reserve.beforeBodies pf target b ctx = .ok c ∧ ∃ n ∈ Reserve.bodies c.typeTable (Blocks.byId b.blocks (.ir .function)), 2 ^ 63 ≤ n := by
    unfold Reserve.module
    cases Reserve.typeBlock pf b ctx <;> cases Reserve.beforeBodies pf target b ctx <;> simp [or_and_right, exists_or]
  rw [hlist]
  simp only [← types_room pf, ← bodies_room]
  rw [← fill_room]
  unfold Module.tryFrom Module.tryFromFull Module.finish Reserve.beforeBodies
  simp only [bind_stops, inconsistent_oneOrNone_stops, mapErr_stops, ok_stops, strings_room, hr, ht, has, hf, hal,
    and_false, exists_false, false_or, or_false, Out.bind_eq_ok]
  constructor
  · rintro (h | ⟨c, hc, c', hc', tr, htr, t, hT, o, ho, a, ha, d, hd, fs, hfs, h⟩)
    · exact .inl h
    · exact .inr ⟨c', ⟨c, hc, c', hc', tr, htr, t, hT, o, ho, a, ha, d, hd, fs, hfs, rfl⟩, h⟩
  · rintro (h | ⟨c'', ⟨c, hc, c', hc', tr, htr, t, hT, o, ho, a, ha, d, hd, fs, hfs, he⟩, h⟩)
    · exact .inl h
    · cases he
      exact .inr ⟨c, hc, c'', hc', tr, htr, t, hT, o, ho, a, ha, d, hd, fs, hfs, h⟩

theorem reify_room (pf : Profile) (target : Str) (p : PartialModule) :
    (p.reify pf target).Stops wantOfRoom ↔ ∃ n ∈ Reserve.reify pf target p, 2 ^ 63 ≤ n := by
  have hst : ∀ b, (Strtab.tryFrom pf b).Stops wantOfRoom ↔ False := fun b => by
    rw [iff_false]
    intro h
    obtain ⟨r, -, h⟩ := strtab_stops pf h
    exact not_empty_text h
  have hid : ∀ b, (Identification.tryFrom pf b).Stops wantOfRoom ↔ False := fun b => by
    rw [iff_false]
    intro h
    obtain ⟨r, -, h⟩ := identification_stops pf h
    exact not_empty_text h
  have hsy : ∀ o, (optSymtab pf o).Stops wantOfRoom ↔ False := fun o => by
    rw [iff_false]
    cases o with
    | none => simp [optSymtab, ok_stops]
    | some b =>
      simp only [optSymtab, bind_stops, ok_stops, and_false, exists_false, or_false]
      intro h
      obtain ⟨r, -, h⟩ := symtab_stops pf h
      exact not_empty_text h
  unfold PartialModule.reify Reserve.reify
  simp only [bind_stops, mapErr_stops, ofOption_stops, ok_stops, hst, hid, hsy, module_room, and_false, exists_false, false_or, or_false,
    ofOption_eq_ok, Out.mapErr_eq_ok]
  constructor
  · rintro ⟨sb, h1, st, h2, i, h3, mb, h4, h⟩
    rw [h1]; simp only; rw [h2]; simp only; rw [h3]; simp only; rw [h4]
    exact h
  · intro h
    split at h
    · simp at h
    · next sb h1 =>
      split at h
      · next st h2 =>
        split at h
        · next i h3 =>
          split at h
          · simp at h
          · next mb h4 => exact ⟨sb, h1, st, h2, i, h3, mb, h4, h⟩
        · simp at h
      · simp at h

theorem modules_room (pf : Profile) (target : Str) (ps : List PartialModule) :
    (mapOut (PartialModule.reify pf target) ps).Stops wantOfRoom ↔ ∃ n ∈ Reserve.modules pf target ps, 2 ^ 63 ≤ n := by
  induction ps with
  | nil => simp [mapOut, ok_stops, Reserve.modules]
  | cons p ps ih =>
    simp only [mapOut, Reserve.modules, bind_stops, ok_stops, and_false, exists_false, or_false, reify_room, List.mem_append]
    cases h : p.reify pf target with
    | ok a =>
      simp only [Out.ok.injEq, exists_eq_left', ih]
      constructor
      · rintro (⟨n, h1, h2⟩ | ⟨n, h1, h2⟩)
        · exact ⟨n, .inl h1, h2⟩
        · exact ⟨n, .inr h1, h2⟩
      · rintro ⟨n, h1 | h1, h2⟩
        · exact .inl ⟨n, h1, h2⟩
        · exact .inr ⟨n, h1, h2⟩
    | err e => simp
    | panic e => simp
    | diverge => simp

/-! ## The types of mapped modules -/

/-- The records of the blocks in a block. -/
def innerRecords (bs : Blocks) : Nat := (bs.map fun e => (e.2.map fun u => u.records.length).sum).sum

def load (u : UBlock) : Nat := u.records.length + innerRecords u.blocks

theorem le_sum_of_mem {l : List Nat} {n : Nat} (h : n ∈ l) : n ≤ l.sum := by
  induction l with
  | nil => cases h
  | cons m l ih =>
    rw [List.sum_cons]
    rcases List.mem_cons.1 h with rfl | h
    · omega
    · have := ih h; omega

theorem inner_push (bs : Blocks) (k : BlockId) (u : UBlock) : innerRecords (bs.push k u) = innerRecords bs + u.records.length := by
  induction bs with
  | nil => simp [Blocks.push, innerRecords]
  | cons e bs ih =>
    obtain ⟨k', l⟩ := e
    simp only [Blocks.push]
    split
    · simp only [innerRecords, List.map_cons, List.sum_cons, List.map_append, List.sum_append, List.map_nil, List.sum_nil]
      omega
    · simp only [innerRecords, List.map_cons, List.sum_cons] at ih ⊢
      omega

theorem inner_mem {bs : Blocks} {k : BlockId} {u : UBlock} (h : u ∈ bs.byId k) : u.records.length ≤ innerRecords bs := by
  induction bs with
  | nil => simp [Blocks.byId, Blocks.get] at h
  | cons e bs ih =>
    obtain ⟨k', l⟩ := e
    simp only [innerRecords, List.map_cons, List.sum_cons] at ih ⊢
    unfold Blocks.byId Blocks.get at h ih
    rw [List.lookup_cons] at h
    split at h
    · simp only [Option.getD_some] at h
      have := le_sum_of_mem (List.mem_map_of_mem (f := fun u : UBlock => u.records.length) h)
      omega
    · have := ih h
      omega

theorem load_enter (pf : Profile) (fuel : Nat) {b b' : Bitstream} (hp : PInv b.parser) {acc u : UBlock}
    (h : enterLoop pf fuel acc b = (.ok u, b')) : PInv b'.parser ∧ b.pos ≤ b'.pos ∧ load u ≤ load acc + (b'.pos - b.pos) := by
  induction fuel generalizing b b' acc u with
  | zero => simp [enterLoop, StM.diverge] at h
  | succ n ih =>
    have h2 := next_pinv (pf := pf) hp
    have h4 := (next_progress (pf := pf) hp).2.2.1
    have h5 := (next_progress (pf := pf) hp).2.2.2.2.2.1
    simp only [enterLoop] at h
    match hx : Bitstream.next pf b with
    | (.done, b₁) => rw [hx] at h; simp at h
    | (.error e, b₁) => rw [hx] at h; simp at h
    | (.panic e, b₁) => rw [hx] at h; simp at h
    | (.diverge, b₁) => rw [hx] at h; simp at h
    | (.item .endBlock, b₁) =>
      rw [hx] at h h2 h4
      simp only [Prod.mk.injEq, Out.ok.injEq] at h
      obtain ⟨rfl, rfl⟩ := h
      exact ⟨h2, h4, Nat.le_add_right _ _⟩
    | (.item (.record r), b₁) =>
      rw [hx] at h h2 h4 h5
      obtain ⟨g1, g2, g3⟩ := ih h2 h
      have := h5 _ rfl
      have e : load (acc.pushRecord r) = load acc + 1 := by
        simp only [load, UBlock.pushRecord, UBlock.records, UBlock.blocks, List.length_append, List.length_cons, List.length_nil]
        cases acc
        simp only
        omega
      simp only at this g2 g3
      exact ⟨g1, by omega, by omega⟩
    | (.item (.subBlock s), b₁) =>
      rw [hx] at h h2 h4
      simp only at h h2 h4
      match hy : enterLoop pf n (UBlock.new s.blockId) b₁ with
      | (.ok child, b₂) =>
        rw [hy] at h
        obtain ⟨g1, g2, g3⟩ := ih h2 hy
        obtain ⟨k1, k2, k3⟩ := ih g1 h
        have e : load (acc.pushBlock child) = load acc + child.records.length := by
          simp only [load, UBlock.pushBlock, UBlock.records, UBlock.blocks, inner_push]
          cases acc; cases child
          simp only
          omega
        have e' : load (UBlock.new s.blockId) = 0 := rfl
        have e'' : child.records.length ≤ load child := Nat.le_add_right _ _
        exact ⟨k1, by omega, by omega⟩
      | (.err e, b₂) => rw [hy] at h; simp at h
      | (.panic e, b₂) => rw [hy] at h; simp at h
      | (.diverge, b₂) => rw [hy] at h; simp at h

def moduleLoad (ps : List PartialModule) : Nat := (ps.map fun p => p.module.elim 0 fun u => innerRecords u.blocks).sum

theorem setModule_load {top : UBlock} {ps ps' : List PartialModule} (h : setModule top ps = .ok ps') :
    moduleLoad ps' ≤ moduleLoad ps + innerRecords top.blocks := by
  induction ps generalizing ps' with
  | nil => simp [setModule] at h
  | cons p ps ih =>
    cases ps with
    | nil =>
      simp only [setModule] at h
      split at h
      · cases h
      · cases h
        simp [moduleLoad]
    | cons q ps =>
      simp only [setModule, Out.bind_eq_ok] at h
      obtain ⟨qs, h1, h2⟩ := h
      cases h2
      have := ih h1
      simp only [moduleLoad, List.map_cons, List.sum_cons] at this ⊢
      omega

theorem setWhile_load (free : PartialModule → Bool) (set : PartialModule → PartialModule) (hset : ∀ p, (set p).module = p.module)
    (ps : List PartialModule) : moduleLoad (setWhile free set ps) = moduleLoad ps := by
  have hgo : ∀ ps, moduleLoad (setWhile.go free set ps) = moduleLoad ps := by
    intro ps
    induction ps with
    | nil => rfl
    | cons p ps ih =>
      simp only [setWhile.go]
      split
      · simp only [moduleLoad, List.map_cons, List.sum_cons, hset] at ih ⊢
        omega
      · rfl
  have hrev : ∀ ps : List PartialModule, moduleLoad ps.reverse = moduleLoad ps := fun ps => by
    simp only [moduleLoad, List.map_reverse, List.sum_reverse]
  unfold setWhile
  rw [hrev, hgo, hrev]

theorem addTop_load {top : UBlock} {ps ps' : List PartialModule} (h : addTop ps top = .ok ps') :
    moduleLoad ps' ≤ moduleLoad ps + innerRecords top.blocks := by
  unfold addTop at h
  split at h
  · cases h
    simp [moduleLoad, PartialModule.new]
  · exact setModule_load h
  · cases h
    exact Nat.le_trans (Nat.le_of_eq (setWhile_load _ _ (fun _ => by rfl) ps)) (Nat.le_add_right _ _)
  · cases h
    exact Nat.le_trans (Nat.le_of_eq (setWhile_load _ _ (fun _ => by rfl) ps)) (Nat.le_add_right _ _)
  · cases h

theorem load_unroll (pf : Profile) (fuel : Nat) {b b' : Bitstream} (hp : PInv b.parser) {ps ps' : List PartialModule}
    (h : unrollLoop pf fuel ps b = (.ok ps', b')) : PInv b'.parser ∧ b.pos ≤ b'.pos ∧ moduleLoad ps' ≤ moduleLoad ps + (b'.pos - b.pos) := by
  induction fuel generalizing b b' ps with
  | zero => simp [unrollLoop, StM.diverge] at h
  | succ n ih =>
    have h2 := next_pinv (pf := pf) hp
    have h4 := (next_progress (pf := pf) hp).2.2.1
    simp only [unrollLoop] at h
    match hx : Bitstream.next pf b with
    | (.done, b₁) =>
      rw [hx] at h h2 h4
      simp only [Prod.mk.injEq, Out.ok.injEq] at h
      obtain ⟨rfl, rfl⟩ := h
      exact ⟨h2, h4, Nat.le_add_right _ _⟩
    | (.error e, b₁) => rw [hx] at h; simp at h
    | (.panic e, b₁) => rw [hx] at h; simp at h
    | (.diverge, b₁) => rw [hx] at h; simp at h
    | (.item e, b₁) =>
      rw [hx] at h h2 h4
      simp only at h h2 h4
      cases hb : e.asBlock with
      | none => rw [hb] at h; simp at h
      | some s =>
        rw [hb] at h
        simp only [enterUBlock] at h
        match hy : enterLoop pf n (UBlock.new s.blockId) b₁ with
        | (.ok top, b₂) =>
          rw [hy] at h
          simp only at h
          obtain ⟨g1, g2, g3⟩ := load_enter pf n h2 hy
          have e' : load (UBlock.new s.blockId) = 0 := rfl
          have e'' : innerRecords top.blocks ≤ load top := Nat.le_add_left _ _
          cases ht : addTop ps top with
          | ok qs =>
            rw [ht] at h
            obtain ⟨k1, k2, k3⟩ := ih g1 h
            have := addTop_load ht
            exact ⟨k1, by omega, by omega⟩
          | err e => rw [ht] at h; simp at h
          | panic e => rw [ht] at h; simp at h
          | diverge => rw [ht] at h; simp at h
        | (.err e, b₂) => rw [hy] at h; simp at h
        | (.panic e, b₂) => rw [hy] at h; simp at h
        | (.diverge, b₂) => rw [hy] at h; simp at h

theorem types_fit {pf : Profile} {b : UBlock} {ts : TypeTable} (h : TypeTable.tryFrom pf b = .ok ts) :
    (Reserve.types b).sum ≤ 56 * b.records.length := by
  obtain ⟨ds, ⟨n, nm, hn, -, hbs, hlen⟩, hl, -⟩ := (C40_exact pf b ts).1 h
  obtain ⟨r, rest, hr, hf⟩ := hn
  have h1 := builds_length hbs
  have h2 : Records.one b.records TypeCode.numEntry.code = some r := (one_iff ..).2 hr
  unfold Reserve.types
  rw [h2]
  simp only [hf, List.head?_cons, List.sum_cons, List.sum_nil, partialTypeSize, List.length_nil] at h1 ⊢
  omega

theorem body_fails (b : UBlock) (types : TypeTable) (f : FunctionBlock) : FunctionBlock.tryFrom b types ≠ .ok f := by
  unfold FunctionBlock.tryFrom
  simp only [ne_eq, Out.bind_eq_ok, reduceCtorEq, and_false, exists_false, not_false_eq_true]

theorem module_fit {pf : Profile} {target : Str} {b : UBlock} {ctx : PartialMapCtx} {m : Module} (h : Module.tryFrom pf target b ctx = .ok m) :
    (Reserve.module pf target b ctx).sum ≤ 56 * innerRecords b.blocks := by
  unfold Module.tryFrom Module.tryFromFull at h
  simp only [Out.bind_eq_ok] at h
  obtain ⟨_, ⟨c, hc, c', hc', fin, hfin, -⟩, -⟩ := h
  have hbody : Blocks.byId b.blocks (.ir .function) = [] := by
    unfold Module.finish at hfin
    simp only [Out.bind_eq_ok, Out.mapErr_eq_ok] at hfin
    obtain ⟨_, -, _, -, _, -, _, -, _, -, _, -, fs, hfs, -⟩ := hfin
    cases hl : Blocks.byId b.blocks (.ir .function) with
    | nil => rfl
    | cons f l =>
      rw [hl] at hfs
      simp only [mapOut, Out.bind_eq_ok] at hfs
      obtain ⟨x, hx, -⟩ := hfs
      exact absurd hx (body_fails _ _ _)
  unfold Reserve.module
  rw [hbody]
  unfold Module.fill at hc
  simp only [Out.bind_eq_ok, Out.mapErr_eq_ok] at hc
  obtain ⟨v, hv, o, ho, d, hd, ss, hss, gs, hgs, tb, htb, ts, hts, -⟩ := hc
  have ht : Reserve.typeBlock pf b ctx = .ok tb := by
    unfold Reserve.typeBlock
    rw [hv]; simp only [Out.ok_bind]
    rw [ho]; simp only [Out.ok_bind]
    rw [hd]; simp only [Out.ok_bind]
    rw [hss]; simp only [Out.ok_bind]
    rw [hgs]; simp only [Out.ok_bind]
    exact htb
  rw [ht]
  have hmem : tb ∈ Blocks.byId b.blocks (.ir .type) := by
    unfold inconsistent at htb
    rw [Out.mapErr_eq_ok] at htb
    unfold Blocks.exactlyOne at htb
    split at htb
    · cases htb
    · next x hx => cases htb; rw [hx]; simp
    · cases htb
  have h1 := types_fit hts
  have h2 := inner_mem hmem
  cases Reserve.beforeBodies pf target b ctx <;> simp only [Reserve.bodies, List.append_nil] <;> omega

theorem reify_fit {pf : Profile} {target : Str} {p : PartialModule} {m : BitcodeModule} (h : p.reify pf target = .ok m) :
    (Reserve.reify pf target p).sum ≤ 56 * p.module.elim 0 fun u => innerRecords u.blocks := by
  unfold PartialModule.reify at h
  simp only [Out.bind_eq_ok, ofOption_eq_ok, Out.mapErr_eq_ok] at h
  obtain ⟨sb, h1, st, h2, i, h3, mb, h4, x, h5, -⟩ := h
  unfold Reserve.reify
  rw [h1]; simp only; rw [h2]; simp only; rw [h3]; simp only; rw [h4]
  exact module_fit h5

theorem modules_fit {pf : Profile} {target : Str} {ps : List PartialModule} {ms : List BitcodeModule}
    (h : mapOut (PartialModule.reify pf target) ps = .ok ms) : (Reserve.modules pf target ps).sum ≤ 56 * moduleLoad ps := by
  induction ps generalizing ms with
  | nil => simp [Reserve.modules]
  | cons p ps ih =>
    simp only [mapOut, Out.bind_eq_ok] at h
    obtain ⟨x, hx, xs, hxs, -⟩ := h
    have h1 := reify_fit hx
    have h2 := ih hxs
    simp only [Reserve.modules, hx, List.sum_append, moduleLoad, List.map_cons, List.sum_cons] at h2 ⊢
    omega

theorem file_room (pf : Profile) (target : Str) (bytes : List U8) :
    Bitcode.tryFrom pf target bytes = .panic .capacity ↔ ∃ n ∈ Reserve.file pf target bytes, 2 ^ 63 ≤ n := by
  have he : Bitcode.tryFrom pf target bytes = .panic .capacity ↔ (Bitcode.tryFrom pf target bytes).Stops wantOfRoom := Iff.rfl
  rw [he]
  unfold Bitcode.tryFrom Reserve.file
  rw [bind_stops, mapErr_stops, or_iff_right (show ¬ (Bitstream.from pf bytes).Stops wantOfRoom from (Props.C23_open_no_panic pf bytes _).2.2)]
  simp only [Out.mapErr_eq_ok]
  cases hb : Bitstream.from pf bytes with
  | ok s =>
    obtain ⟨w, b⟩ := s
    have ho : Opened pf b := .auto hb
    have hu := paid_unroll pf ho.start.1 (opened_small ho)
    simp only [Out.ok.injEq, exists_eq_left', Bitcode.ofStream, bind_stops, mapErr_stops, ok_stops, and_false, exists_false, or_false,
      modules_room, Out.mapErr_eq_ok, List.mem_append]
    rw [show (unroll pf b).Stops wantOfRoom ↔ ∃ n ∈ Reserve.unroll pf b, 2 ^ 63 ≤ n from hu.cap]
    cases unroll pf b <;> simp [or_and_right, exists_or]
  | err e => simp
  | panic e => simp
  | diverge => simp

theorem file_fit {pf : Profile} {target : Str} {bytes : List U8} {f : Bitcode} (h : Bitcode.tryFrom pf target bytes = .ok f) :
    (Reserve.file pf target bytes).sum ≤ 512 * bytes.length := by
  unfold Bitcode.tryFrom Bitcode.ofStream at h
  simp only [Out.bind_eq_ok, Out.mapErr_eq_ok] at h
  obtain ⟨⟨w, b⟩, hb, ps, hps, ms, hms, -⟩ := h
  have ho : Opened pf b := .auto hb
  have hu := (paid_unroll pf ho.start.1 (opened_small ho)).fit ⟨ps, hps⟩
  have hl := from_len hb
  have hm := modules_fit hms
  have hld : moduleLoad ps ≤ moduleLoad [] + ((unrollLoop pf (unrollFuel b) [] b).2.pos - b.pos) :=
    (load_unroll pf (unrollFuel b) ho.start.1 (ps := []) (ps' := ps) (Prod.ext hps rfl)).2.2
  have h0 : moduleLoad [] = 0 := rfl
  obtain ⟨-, -, k1, k2⟩ := paid_unrollLoop pf (unrollFuel b) ho.start.1 (opened_small ho) []
  have hpos := Cursor.tellBit_le k2.cur
  unfold Reserve.file
  rw [hb]
  simp only [hps, List.sum_append]
  unfold Bitstream.pos Bitstream.len Cursor.bitLen at *
  omega

end Verif
