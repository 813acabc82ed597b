import Verif.Mapper.LlvmTypeSpec
import Verif.Props.Types
import Verif.Props.TypeErrors

/-! C90: which tables of types that LLVM allows map. -/

namespace Verif
open Spec

theorem valid_llvm {t : Ty} (h : Valid t) : (∀ u, Part u t → ¬ EmptyVector u) → LlvmValid t ∧ ∀ u, Part u t → ¬ PointerVector u := by
  have leaf : ∀ {t : Ty}, components t = [] → ¬ PointerVector t → ∀ u, Part u t → ¬ PointerVector u := by
    intro t ht hp u hu
    cases hu with
    | self => exact hp
    | within h _ => rw [ht] at h; cases h
  have node : ∀ {t : Ty}, ¬ PointerVector t → (∀ s ∈ components t, ∀ u, Part u s → ¬ PointerVector u) →
      ∀ u, Part u t → ¬ PointerVector u := by
    intro t hp h u hu
    cases hu with
    | self => exact hp
    | within hs hu => exact h _ hs u hu
  have lane : ∀ {e : Ty}, OkVectorElement e → ∀ a, e ≠ .opaquePointer a := by
    rintro _ (⟨p, -, rfl⟩ | ⟨w, rfl⟩ | ⟨p, a, rfl⟩) b <;> exact fun h => by cases h
  induction h with
  | prim p => exact fun _ => ⟨.prim p, leaf rfl (by rintro ⟨n, a, h | h⟩ <;> cases h)⟩
  | integer h1 h2 => exact fun _ => ⟨.integer h1 h2, leaf rfl (by rintro ⟨n, a, h | h⟩ <;> cases h)⟩
  | opaquePointer a => exact fun _ => ⟨.opaquePointer a, leaf rfl (by rintro ⟨n, a, h | h⟩ <;> cases h)⟩
  | function hr h1 hps h2 ih1 ih2 =>
    intro h
    have hr' := ih1 fun u hu => h u (.within (by simp [components]) hu)
    have hp' := fun p hp => ih2 p hp fun u hu => h u (.within (by simp [components, hp]) hu)
    refine ⟨.function hr'.1 h1 (fun p hp => (hp' p hp).1) h2, node (by rintro ⟨n, a, h | h⟩ <;> cases h) ?_⟩
    intro s hs
    simp only [components, List.mem_cons] at hs
    rcases hs with rfl | hs
    · exact hr'.2
    · exact (hp' s hs).2
  | pointer hp h1 ih =>
    intro h
    have h' := ih fun u hu => h u (.within (by simp [components]) hu)
    refine ⟨.pointer h'.1 h1, node (by rintro ⟨n, a, h | h⟩ <;> cases h) ?_⟩
    intro s hs; simp only [components, List.mem_singleton] at hs; subst hs; exact h'.2
  | struct hf h1 ih =>
    intro h
    have h' := fun p hp => ih p hp fun u hu => h u (.within (by simp [components, hp]) hu)
    exact ⟨.struct (fun p hp => (h' p hp).1) h1, node (by rintro ⟨n, a, h | h⟩ <;> cases h) fun s hs => (h' s hs).2⟩
  | array he h1 ih =>
    intro h
    have h' := ih fun u hu => h u (.within (by simp [components]) hu)
    refine ⟨.array h'.1 h1, node (by rintro ⟨n, a, h | h⟩ <;> cases h) ?_⟩
    intro s hs; simp only [components, List.mem_singleton] at hs; subst hs; exact h'.2
  | @fixedVector n e he h1 ih =>
    intro h
    have h' := ih fun u hu => h u (.within (by simp [components]) hu)
    refine ⟨.fixedVector h'.1 ?_ ?_, node ?_ ?_⟩
    · rcases h1 with h1 | h1 | h1
      · exact .inl h1
      · exact .inr (.inl h1)
      · exact .inr (.inr (.inl h1))
    · rintro rfl; exact h _ .self ⟨e, .inl rfl⟩
    · rintro ⟨n, a, h | h⟩ <;> cases h; exact lane h1 _ rfl
    · intro s hs; simp only [components, List.mem_singleton] at hs; subst hs; exact h'.2
  | @scalableVector n e he h1 ih =>
    intro h
    have h' := ih fun u hu => h u (.within (by simp [components]) hu)
    refine ⟨.scalableVector h'.1 ?_ ?_, node ?_ ?_⟩
    · rcases h1 with h1 | h1 | h1
      · exact .inl h1
      · exact .inr (.inl h1)
      · exact .inr (.inr (.inl h1))
    · rintro rfl; exact h _ .self ⟨e, .inr rfl⟩
    · rintro ⟨n, a, h | h⟩ <;> cases h; exact lane h1 _ rfl
    · intro s hs; simp only [components, List.mem_singleton] at hs; subst hs; exact h'.2

theorem llvm_valid {t : Ty} (h : LlvmValid t) : (∀ u, Part u t → ¬ PointerVector u) → Valid t ∧ ∀ u, Part u t → ¬ EmptyVector u := by
  have leaf : ∀ {t : Ty}, components t = [] → ¬ EmptyVector t → ∀ u, Part u t → ¬ EmptyVector u := by
    intro t ht hp u hu
    cases hu with
    | self => exact hp
    | within h _ => rw [ht] at h; cases h
  have node : ∀ {t : Ty}, ¬ EmptyVector t → (∀ s ∈ components t, ∀ u, Part u s → ¬ EmptyVector u) →
      ∀ u, Part u t → ¬ EmptyVector u := by
    intro t hp h u hu
    cases hu with
    | self => exact hp
    | within hs hu => exact h _ hs u hu
  induction h with
  | prim p => exact fun _ => ⟨.prim p, leaf rfl (by rintro ⟨e, h | h⟩ <;> cases h)⟩
  | integer h1 h2 => exact fun _ => ⟨.integer h1 h2, leaf rfl (by rintro ⟨e, h | h⟩ <;> cases h)⟩
  | opaquePointer a => exact fun _ => ⟨.opaquePointer a, leaf rfl (by rintro ⟨e, h | h⟩ <;> cases h)⟩
  | function hr h1 hps h2 ih1 ih2 =>
    intro h
    have hr' := ih1 fun u hu => h u (.within (by simp [components]) hu)
    have hp' := fun p hp => ih2 p hp fun u hu => h u (.within (by simp [components, hp]) hu)
    refine ⟨.function hr'.1 h1 (fun p hp => (hp' p hp).1) h2, node (by rintro ⟨e, h | h⟩ <;> cases h) ?_⟩
    intro s hs
    simp only [components, List.mem_cons] at hs
    rcases hs with rfl | hs
    · exact hr'.2
    · exact (hp' s hs).2
  | pointer hp h1 ih =>
    intro h
    have h' := ih fun u hu => h u (.within (by simp [components]) hu)
    refine ⟨.pointer h'.1 h1, node (by rintro ⟨e, h | h⟩ <;> cases h) ?_⟩
    intro s hs; simp only [components, List.mem_singleton] at hs; subst hs; exact h'.2
  | struct hf h1 ih =>
    intro h
    have h' := fun p hp => ih p hp fun u hu => h u (.within (by simp [components, hp]) hu)
    exact ⟨.struct (fun p hp => (h' p hp).1) h1, node (by rintro ⟨e, h | h⟩ <;> cases h) fun s hs => (h' s hs).2⟩
  | array he h1 ih =>
    intro h
    have h' := ih fun u hu => h u (.within (by simp [components]) hu)
    refine ⟨.array h'.1 h1, node (by rintro ⟨e, h | h⟩ <;> cases h) ?_⟩
    intro s hs; simp only [components, List.mem_singleton] at hs; subst hs; exact h'.2
  | @fixedVector n e he h1 hn ih =>
    intro h
    have h' := ih fun u hu => h u (.within (by simp [components]) hu)
    refine ⟨.fixedVector h'.1 ?_, node ?_ ?_⟩
    · rcases h1 with h1 | h1 | h1 | ⟨a, rfl⟩
      · exact .inl h1
      · exact .inr (.inl h1)
      · exact .inr (.inr h1)
      · exact absurd ⟨n, a, .inl rfl⟩ (h _ .self)
    · rintro ⟨e, h | h⟩ <;> cases h; exact hn rfl
    · intro s hs; simp only [components, List.mem_singleton] at hs; subst hs; exact h'.2
  | @scalableVector n e he h1 hn ih =>
    intro h
    have h' := ih fun u hu => h u (.within (by simp [components]) hu)
    refine ⟨.scalableVector h'.1 ?_, node ?_ ?_⟩
    · rcases h1 with h1 | h1 | h1 | ⟨a, rfl⟩
      · exact .inl h1
      · exact .inr (.inl h1)
      · exact .inr (.inr h1)
      · exact absurd ⟨n, a, .inr rfl⟩ (h _ .self)
    · rintro ⟨e, h | h⟩ <;> cases h; exact hn rfl
    · intro s hs; simp only [components, List.mem_singleton] at hs; subst hs; exact h'.2

/-- C90. The types a program can obtain are those that LLVM allows, but for vectors: not those of opaque pointers, but also those without
elements. -/
theorem C90_rules_partial (t : Ty) : (Obtainable t ∧ ∀ u, Part u t → ¬ EmptyVector u) ↔
    (LlvmValid t ∧ ∀ u, Part u t → ¬ PointerVector u) := by
  rw [C39_obtainable]
  exact ⟨fun ⟨h1, h2⟩ => valid_llvm h1 h2, fun ⟨h1, h2⟩ => llvm_valid h1 h2⟩

theorem denotes_part {ds : List TyDecl} {u t : Ty} (hu : Part u t) : ∀ {i : Nat}, Denotes ds i t → ∃ j, Denotes ds j u := by
  induction hu with
  | self => exact fun h => ⟨_, h⟩
  | @within s t hs _ ih =>
    intro i h
    have all : ∀ {ps : List Nat} {tps : List Ty}, tps.length = ps.length →
        (∀ (k j : Nat) (t : Ty), ps[k]? = some j → tps[k]? = some t → Denotes ds j t) → s ∈ tps → ∃ j, Denotes ds j s := by
      intro ps tps hl hk hs
      obtain ⟨k, hk'⟩ := List.mem_iff_getElem?.1 hs
      have hlt : k < ps.length := by rw [← hl]; exact (List.getElem?_eq_some_iff.1 hk').1
      exact ⟨_, hk k _ s (List.getElem?_eq_getElem hlt) hk'⟩
    obtain ⟨j, hj⟩ : ∃ j, Denotes ds j s := by
      cases h with
      | prim h => cases hs
      | integer h => cases hs
      | opaquePointer h => cases hs
      | function h hr hl hk =>
        simp only [components, List.mem_cons] at hs
        rcases hs with rfl | hs
        · exact ⟨_, hr⟩
        · exact all hl hk hs
      | pointer h hp => simp only [components, List.mem_singleton] at hs; subst hs; exact ⟨_, hp⟩
      | struct h hl hk => exact all hl hk hs
      | array h he => simp only [components, List.mem_singleton] at hs; subst hs; exact ⟨_, he⟩
      | fixedVector h he => simp only [components, List.mem_singleton] at hs; subst hs; exact ⟨_, he⟩
      | scalableVector h he => simp only [components, List.mem_singleton] at hs; subst hs; exact ⟨_, he⟩
    exact ih hj

theorem denotes_lt {ds : List TyDecl} {i : Nat} {t : Ty} (h : Denotes ds i t) : i < ds.length := by
  cases h <;> exact (List.getElem?_eq_some_iff.1 (by assumption)).1

/-- If every entry stands for a type LLVM allows, the only thing that can be wrong is an element of a vector. -/
theorem rejected_pointer {ds : List TyDecl} (H : ∀ i < ds.length, ∃ t, Denotes ds i t ∧ LlvmValid t) {i : Nat} {e : TypeTableError}
    (h : Rejected ds i e) (hi : i < ds.length) : ∃ a, e = .invalidType (.vectorBadElement (.opaquePointer a)) := by
  induction h with
  | index h => omega
  | within h1 h2 h3 h4 ih =>
    obtain ⟨t, ht, -⟩ := H _ hi
    obtain ⟨u, hu, -⟩ := ht.sub h1 (by rw [h2]; exact List.mem_append_right _ (.head _))
    exact ih (denotes_lt hu)
  | @entry i d e h1 h2 h3 =>
    obtain ⟨t, ht, hv⟩ := H _ hi
    have all : ∀ {pre post : List Nat} {j : Nat} {ts : List Ty} {u : Ty}, DenoteAll ds (pre ++ j :: post) ts → Denotes ds j u → u ∈ ts := by
      intro pre post j ts u ⟨hl, hk⟩ hu
      have hlt : pre.length < ts.length := by rw [hl]; simp
      have := hk pre.length j _ (by simp) (List.getElem?_eq_getElem hlt)
      rw [hu.unique this]
      exact List.getElem_mem hlt
    have hinv := ht.inv h1
    cases h3 with
    | width hw =>
      obtain ⟨w, rfl, rfl⟩ := hinv
      cases hv with
      | integer h5 h6 => omega
    | returns h5 h6 =>
      obtain ⟨tr, tps, rfl, h7, -⟩ := hinv
      cases hv with
      | function _ h8 _ _ => rw [h5.unique h7] at h6; exact absurd h8 h6
    | parameter _ _ _ h5 h6 =>
      obtain ⟨tr, tps, rfl, -, h7⟩ := hinv
      cases hv with
      | function _ _ _ h8 => exact absurd (h8 _ (all h7 h5)) h6
    | pointee h5 h6 =>
      obtain ⟨tp, rfl, h7⟩ := hinv
      cases hv with
      | pointer _ h8 => rw [h5.unique h7] at h6; exact absurd h8 h6
    | member _ h5 h6 =>
      obtain ⟨tfs, rfl, h7⟩ := hinv
      cases hv with
      | struct _ h8 => exact absurd (h8 _ (all h7 h5)) h6
    | element h5 h6 =>
      obtain ⟨te, rfl, h7⟩ := hinv
      cases hv with
      | array _ h8 => rw [h5.unique h7] at h6; exact absurd h8 h6
    | @lane s _ _ u h5 h6 =>
      obtain ⟨te, rfl, h7⟩ := hinv
      rw [h5.unique h7] at h6 ⊢
      have key : LlvmVectorElement te := by
        cases s with
        | true => cases hv with | scalableVector _ h8 _ => exact h8
        | false => cases hv with | fixedVector _ h8 _ => exact h8
      rcases key with h8 | h8 | h8 | ⟨a, rfl⟩
      · exact absurd (.inl h8) h6
      · exact absurd (.inr (.inl h8)) h6
      · exact absurd (.inr (.inr h8)) h6
      · exact ⟨a, rfl⟩

/-- C90, for listings as in C40 whose count is right: if every entry stands for a type that LLVM allows, the table maps unless there is a
vector of opaque pointers, and then that is the error. -/
theorem C90_tables_partial (pf : Profile) (b : UBlock) (n : U64) (ds : List TyDecl) (hc : DeclaresCount b n) (hn : n.toNat < 2 ^ 57)
    (h : Lists [] b.records ds) (hr : Regular ds) (hl : ds.length = n.toNat)
    (H : ∀ i < ds.length, ∃ t, Denotes ds i t ∧ LlvmValid t) :
    ((∀ i t, Denotes ds i t → ¬ PointerVector t) →
      ∃ ts, TypeTable.tryFrom pf b = .ok ts ∧ ts.length = ds.length ∧ ∀ i t, ts[i]? = some t → Denotes ds i t) ∧
    ((∃ i t, Denotes ds i t ∧ PointerVector t) →
      ∃ a, TypeTable.tryFrom pf b = .err (.invalidType (.vectorBadElement (.opaquePointer a)))) := by
  let ts := List.ofFn fun i : Fin ds.length => Classical.choose (H i.1 i.2)
  have hts : ts.length = ds.length := List.length_ofFn
  have hden : ∀ i t, ts[i]? = some t → Denotes ds i t ∧ LlvmValid t := by
    intro i t hi
    obtain ⟨hlt, rfl⟩ := List.getElem?_eq_some_iff.1 hi
    simp only [ts, List.getElem_ofFn]
    exact Classical.choose_spec (H i (by omega))
  constructor
  · intro hp
    refine ⟨ts, ?_, hts, fun i t hi => (hden i t hi).1⟩
    rw [C40_faithful_partial pf b n ds hc hn h hr]
    refine ⟨hl, hts, fun i t hi => ⟨(hden i t hi).1, (llvm_valid (hden i t hi).2 fun u hu => ?_).1⟩⟩
    obtain ⟨j, hj⟩ := denotes_part hu (hden i t hi).1
    exact hp j u hj
  · rintro ⟨i, t, hi, hp⟩
    have ha := acyclic_of_denotes hts fun i t hi => (hden i t hi).1
    have hret := C41_acyclic_partial pf b n ds hc hn h hr ha
    cases hx : TypeTable.tryFrom pf b with
    | ok us =>
      obtain ⟨-, h2, h3⟩ := (C40_faithful_partial pf b n ds hc hn h hr us).1 hx
      have hlt : i < us.length := by rw [h2]; exact denotes_lt hi
      obtain ⟨h4, h5⟩ := h3 i _ (List.getElem?_eq_getElem hlt)
      rw [← hi.unique h4] at h5
      obtain ⟨m, a, rfl | rfl⟩ := hp
      · cases h5 with
        | fixedVector _ h6 => rcases h6 with ⟨_, _, h6⟩ | ⟨_, h6⟩ | ⟨_, _, h6⟩ <;> cases h6
      · cases h5 with
        | scalableVector _ h6 => rcases h6 with ⟨_, _, h6⟩ | ⟨_, h6⟩ | ⟨_, _, h6⟩ <;> cases h6
    | err e =>
      obtain ⟨table, h1, rfl⟩ := tryFrom_lists pf b hc hn h hr
      rw [hx] at h1
      rw [List.length_map] at hl
      rcases reifyTypes_err.1 h1.symm with ⟨h2, -⟩ | ⟨-, k, hk, -, h2⟩
      · exact absurd hl h2
      · obtain ⟨a, rfl⟩ := rejected_pointer H h2 (by simpa using hk)
        exact ⟨a, rfl⟩
    | panic p => rw [hx] at hret; exact hret.elim
    | diverge => rw [hx] at hret; exact hret.elim

/-- C90 fails: a table of `ptr` and `<2 x ptr>`, which LLVM allows, does not map. And a table with `<0 x i8>`, which LLVM does not, maps. -/
theorem C90_refuted (pf : Profile) :
    LlvmValid (.fixedVector 2 (.opaquePointer ⟨0⟩)) ∧
    TypeTable.tryFrom pf (UBlock.mk (.ir .type) [⟨none, 1, [2]⟩, ⟨none, 25, [0]⟩, ⟨none, 12, [2, 0]⟩] []) =
      .err (.invalidType (.vectorBadElement (.opaquePointer ⟨0⟩))) ∧
    ¬ LlvmValid (.fixedVector 0 (.integer 8)) ∧
    TypeTable.tryFrom pf (UBlock.mk (.ir .type) [⟨none, 1, [2]⟩, ⟨none, 7, [8]⟩, ⟨none, 12, [0, 0]⟩] []) =
      .ok [.integer 8, .fixedVector 0 (.integer 8)] := by
  refine ⟨.fixedVector (.opaquePointer _) (.inr (.inr (.inr ⟨_, rfl⟩))) (by decide), by cases pf <;> decide +kernel, ?_,
    by cases pf <;> decide +kernel⟩
  intro h
  cases h with
  | fixedVector _ _ h => exact h rfl

/-- The table of `C90_refuted` meets the hypotheses of the second part of `C90_tables_partial`. -/
example :
    let b := UBlock.mk (.ir .type) [⟨none, 1, [2]⟩, ⟨none, 25, [0]⟩, ⟨none, 12, [2, 0]⟩] []
    let ds := [.opaquePointer ⟨0⟩, .vector false 2 0]
    DeclaresCount b 2 ∧ Lists [] b.records ds ∧ Regular ds ∧ ds.length = (2 : U64).toNat ∧
      (∀ i < ds.length, ∃ t, Denotes ds i t ∧ LlvmValid t) ∧ ∃ i t, Denotes ds i t ∧ PointerVector t := by
  intro b ds
  have h0 : Denotes ds 0 (.opaquePointer ⟨0⟩) := .opaquePointer rfl
  have h1 : Denotes ds 1 (.fixedVector 2 (.opaquePointer ⟨0⟩)) := .fixedVector rfl h0
  refine ⟨⟨⟨none, 1, [2]⟩, [], ⟨[], _, rfl, rfl, by simp⟩, rfl⟩, ?_, ?_, rfl, ?_, 1, _, h1, 2, _, .inl rfl⟩
  · refine .numEntry rfl (.single (.opaquePointer (a := 0) rfl rfl (by decide)) ?_)
    exact .single (.fixedVector (n := 2) (e := 0) rfl rfl rfl) .nil
  · intro pre a b post h _ ⟨n, fs, p, hb⟩
    subst hb
    have hm : TyDecl.struct (some n) fs p ∈ ds.tail := by rw [h]; cases pre <;> simp
    simp [ds] at hm
  · intro i hi
    match i, hi with
    | 0, _ => exact ⟨_, h0, .opaquePointer _⟩
    | 1, _ => exact ⟨_, h1, .fixedVector (.opaquePointer _) (.inr (.inr (.inr ⟨_, rfl⟩))) (by decide)⟩

/-- And a table of `ptr` and `<4 x ptr*>` those of the first. -/
example :
    let b := UBlock.mk (.ir .type) [⟨none, 1, [3]⟩, ⟨none, 25, [0]⟩, ⟨none, 12, [4, 2]⟩, ⟨none, 8, [0, 0]⟩] []
    let ds := [.opaquePointer ⟨0⟩, .vector false 4 2, .pointer 0 ⟨0⟩]
    DeclaresCount b 3 ∧ Lists [] b.records ds ∧ Regular ds ∧ ds.length = (3 : U64).toNat ∧
      (∀ i < ds.length, ∃ t, Denotes ds i t ∧ LlvmValid t) ∧ ∀ i t, Denotes ds i t → ¬ PointerVector t := by
  intro b ds
  have h0 : Denotes ds 0 (.opaquePointer ⟨0⟩) := .opaquePointer rfl
  have h2 : Denotes ds 2 (.pointer (.opaquePointer ⟨0⟩) ⟨0⟩) := .pointer rfl h0
  have h1 : Denotes ds 1 (.fixedVector 4 (.pointer (.opaquePointer ⟨0⟩) ⟨0⟩)) := .fixedVector rfl h2
  have hv : LlvmValid (.pointer (.opaquePointer ⟨0⟩) ⟨0⟩) := .pointer (.opaquePointer _) (by simp [OkPointee])
  refine ⟨⟨⟨none, 1, [3]⟩, [], ⟨[], _, rfl, rfl, by simp⟩, rfl⟩, ?_, ?_, rfl, ?_, ?_⟩
  · refine .numEntry rfl (.single (.opaquePointer (a := 0) rfl rfl (by decide)) ?_)
    refine .single (.fixedVector (n := 4) (e := 2) rfl rfl rfl) ?_
    exact .single (.pointer (p := 0) (a := 0) rfl rfl (by decide)) .nil
  · intro pre a b post h _ ⟨n, fs, p, hb⟩
    subst hb
    have hm : TyDecl.struct (some n) fs p ∈ ds.tail := by rw [h]; cases pre <;> simp
    simp [ds] at hm
  · intro i hi
    match i, hi with
    | 0, _ => exact ⟨_, h0, .opaquePointer _⟩
    | 1, _ => exact ⟨_, h1, .fixedVector hv (.inr (.inr (.inl ⟨_, _, rfl⟩))) (by decide)⟩
    | 2, _ => exact ⟨_, h2, hv⟩
  · intro i t ht
    match i, denotes_lt ht with
    | 0, _ => rw [ht.unique h0]; rintro ⟨n, a, h | h⟩ <;> cases h
    | 1, _ => rw [ht.unique h1]; rintro ⟨n, a, h | h⟩ <;> cases h
    | 2, _ => rw [ht.unique h2]; rintro ⟨n, a, h | h⟩ <;> cases h

end Verif
