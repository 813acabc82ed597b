import Verif.Mapper.SizeSpec
import Verif.Props.TypeTables
import Verif.Props.Types

/-! C65: how large the types of a table get. -/

namespace Verif

open Spec

/-! ### Trees -/

theorem nodesAll_eq (ts : List Ty) : nodesAll ts = (ts.map nodes).sum := by
  induction ts with
  | nil => rfl
  | cons t ts ih => rw [nodesAll, ih]; rfl

theorem nodes_eq (t : Ty) : nodes t = 1 + ((components t).map nodes).sum := by
  cases t <;> simp only [nodes, components, nodesAll_eq, List.map_cons, List.map_nil, List.sum_cons, List.sum_nil] <;> omega

theorem height_le_all {t : Ty} {ts : List Ty} (h : t ∈ ts) : height t ≤ heightAll ts := by
  induction ts with
  | nil => cases h
  | cons u ts ih =>
    rw [heightAll]
    rcases List.mem_cons.1 h with rfl | h
    · omega
    · have := ih h; omega

theorem heightAll_mem {ts : List Ty} (h : heightAll ts ≠ 0) : ∃ t ∈ ts, height t = heightAll ts := by
  induction ts with
  | nil => exact absurd rfl h
  | cons u ts ih =>
    rw [heightAll] at h ⊢
    by_cases hc : heightAll ts ≤ height u
    · exact ⟨u, by simp, by omega⟩
    · obtain ⟨t, ht, he⟩ := ih (by omega)
      exact ⟨t, by simp [ht], by omega⟩

theorem height_eq (t : Ty) : height t = 1 + heightAll (components t) := by
  cases t <;> simp only [height, components, heightAll] <;> omega

theorem height_pos (t : Ty) : 1 ≤ height t := by rw [height_eq]; omega

theorem full_mono (r : Nat) {n m : Nat} (h : n ≤ m) : full r n ≤ full r m := by
  induction n generalizing m with
  | zero => exact Nat.zero_le _
  | succ n ih =>
    cases m with
    | zero => omega
    | succ m =>
      have := Nat.mul_le_mul_left r (ih (m := m) (by omega))
      simp only [full]; omega

theorem sum_le_mul {α : Type} (f : α → Nat) (l : List α) (b : Nat) (h : ∀ x ∈ l, f x ≤ b) : (l.map f).sum ≤ l.length * b := by
  induction l with
  | nil => simp
  | cons a l ih =>
    have := ih fun x hx => h x (by simp [hx])
    have := h a (by simp)
    simp only [List.map_cons, List.sum_cons, List.length_cons, Nat.add_mul]; omega

/-! ### Tables -/

theorem Spec.Denotes.entry {ds : List TyDecl} {i : Nat} {t : Ty} (h : Denotes ds i t) : ∃ d, ds[i]? = some d := by
  cases h <;> exact ⟨_, by assumption⟩

/-- The parts of the type an entry stands for are the types its references stand for. -/
theorem Spec.Denotes.partsOf {ds : List TyDecl} {i : Nat} {t : Ty} {d : TyDecl} (h : Denotes ds i t) (hd : ds[i]? = some d) :
    DenoteAll ds d.refs (components t) := by
  have one : ∀ {j u}, Denotes ds j u → DenoteAll ds [j] [u] := by
    intro j u hu
    refine ⟨rfl, fun k j' u' hj hu' => ?_⟩
    cases k with
    | zero => simp at hj hu'; subst hj hu'; exact hu
    | succ k => simp at hj
  have hi := h.inv hd
  cases d with
  | prim p => subst hi; exact ⟨rfl, by simp [TyDecl.refs]⟩
  | integer p => obtain ⟨w, rfl, -⟩ := hi; exact ⟨rfl, by simp [TyDecl.refs]⟩
  | opaquePointer p => subst hi; exact ⟨rfl, by simp [TyDecl.refs]⟩
  | function r ps v =>
    obtain ⟨tr, tps, rfl, h1, h2, h3⟩ := hi
    refine ⟨by simp [TyDecl.refs, components, h2], fun k j u hj hu => ?_⟩
    cases k with
    | zero => simp [TyDecl.refs, components] at hj hu; subst hj hu; exact h1
    | succ k => simp [TyDecl.refs, components] at hj hu; exact h3 k j u hj hu
  | struct n fs p => obtain ⟨tfs, rfl, h2⟩ := hi; exact h2
  | pointer p a => obtain ⟨te, rfl, h1⟩ := hi; exact one h1
  | array n e => obtain ⟨te, rfl, h1⟩ := hi; exact one h1
  | vector s n e => obtain ⟨te, rfl, h1⟩ := hi; cases s <;> exact one h1

theorem DenoteAll.mem {ds : List TyDecl} {l : List Nat} {ts : List Ty} (h : DenoteAll ds l ts) {u : Ty} (hu : u ∈ ts) :
    ∃ j ∈ l, Denotes ds j u := by
  obtain ⟨k, hk⟩ := List.mem_iff_getElem?.1 hu
  have hk' : k < l.length := by rw [← h.1]; exact (List.getElem?_eq_some_iff.1 hk).1
  exact ⟨l[k], List.getElem_mem hk', h.2 k _ u (List.getElem?_eq_getElem hk') hk⟩

/-- Below a type of height `n` there is one of each smaller height. -/
theorem Spec.Denotes.heights {ds : List TyDecl} {i : Nat} {t : Ty} (h : Denotes ds i t) (n : Nat) (h1 : 1 ≤ n) (hn : n ≤ height t) :
    ∃ j u, Denotes ds j u ∧ height u = n := by
  obtain ⟨k, hk⟩ : ∃ k, height t = n + k := ⟨height t - n, by omega⟩
  induction k generalizing i t with
  | zero => exact ⟨i, t, h, hk⟩
  | succ k ih =>
    rw [height_eq] at hk
    obtain ⟨u, hu, hh⟩ := heightAll_mem (ts := components t) (by omega)
    obtain ⟨d, hd⟩ := h.entry
    obtain ⟨j, -, hj⟩ := (h.partsOf hd).mem hu
    exact ih hj (by omega) (by omega)

/-- No type is higher than the table is long. -/
theorem Spec.Denotes.height_le {ds : List TyDecl} {i : Nat} {t : Ty} (h : Denotes ds i t) : height t ≤ ds.length := by
  classical
  -- the number of entries of height at most `n`
  let cnt (n : Nat) : Nat := (List.range ds.length).countP fun j => decide (∃ u, Denotes ds j u ∧ height u ≤ n)
  have hle : ∀ n, cnt n ≤ ds.length := fun n => by
    have := List.countP_le_length (p := fun j => decide (∃ u, Denotes ds j u ∧ height u ≤ n)) (l := List.range ds.length)
    rwa [List.length_range] at this
  have hgrow : ∀ n, n ≤ height t → n ≤ cnt n := by
    intro n
    induction n with
    | zero => intro _; exact Nat.zero_le _
    | succ n ih =>
      intro hn
      have := ih (by omega)
      obtain ⟨j, u, hj, hu⟩ := h.heights (n + 1) (by omega) hn
      obtain ⟨d, hd⟩ := hj.entry
      have hlt : cnt n < cnt (n + 1) := by
        refine countP_lt_of (x := j) (fun a _ ha => ?_) (List.mem_range.2 (List.getElem?_eq_some_iff.1 hd).1) ?_ ?_
        · simp only [decide_eq_true_eq] at ha ⊢
          obtain ⟨v, hv, hh⟩ := ha
          exact ⟨v, hv, by omega⟩
        · simp only [decide_eq_false_iff_not]
          rintro ⟨v, hv, hh⟩
          rw [hv.unique hj] at hh; omega
        · simp only [decide_eq_true_eq]
          exact ⟨u, hj, by omega⟩
      omega
  exact Nat.le_trans (hgrow _ (Nat.le_refl _)) (hle _)

/-- A type is at most as large as the full tree of its height. -/
theorem Spec.Denotes.nodes_le {ds : List TyDecl} {r : Nat} (hr : ∀ d ∈ ds, d.refs.length ≤ r) {i : Nat} {t : Ty}
    (h : Denotes ds i t) : nodes t ≤ full r (height t) := by
  obtain ⟨n, hn⟩ : ∃ n, height t ≤ n := ⟨_, Nat.le_refl _⟩
  induction n generalizing i t with
  | zero => have := height_pos t; omega
  | succ n ih =>
    obtain ⟨d, hd⟩ := h.entry
    have hp := h.partsOf hd
    have hall : ∀ u ∈ components t, nodes u ≤ full r (heightAll (components t)) := by
      intro u hu
      obtain ⟨j, -, hj⟩ := hp.mem hu
      have hh := height_le_all hu
      rw [height_eq t] at hn
      exact Nat.le_trans (ih hj (by omega)) (full_mono r hh)
    have h1 := sum_le_mul nodes _ _ hall
    have h2 := Nat.mul_le_mul_right (full r (heightAll (components t)))
      (show (components t).length ≤ r by rw [hp.1]; exact hr d (List.mem_of_getElem? hd))
    rw [nodes_eq, height_eq, Nat.add_comm 1 (heightAll _)]
    simp only [full]; omega

/-! ### Records -/

/-- The records that can refer to more than one type have at most `r` references each: anonymous and named structures and
functions, whose first field is a flag. -/
def Spec.RefersTo (r : Nat) (rs : List BRecord) : Prop :=
  ∀ x ∈ rs, x.code.toNat ∈ [18, 20, 21] → x.fields.length ≤ r + 1

theorem refs_of_says {x : BRecord} {d : TyDecl} {r : Nat} (h1 : 1 ≤ r) (h : Says x d)
    (hx : x.code.toNat ∈ [18, 20, 21] → x.fields.length ≤ r + 1) : d.refs.length ≤ r := by
  cases h <;> try (simp only [TyDecl.refs, List.length_cons, List.length_nil]; omega)
  case structAnon p fs hc hf =>
    have := hx (by rw [hc]; decide)
    rw [hf, List.length_cons] at this
    simp only [TyDecl.refs, List.length_map]; omega
  case function v ret ps hc hf =>
    have := hx (by rw [hc]; decide)
    rw [hf, List.length_cons, List.length_cons] at this
    simp only [TyDecl.refs, List.length_cons, List.length_map]; omega

theorem refs_of_builds {pf : Profile} {r : Nat} (h1 : 1 ≤ r) {ds out : List TyDecl} {nm nm' : Str} {rs : List BRecord}
    (h : Builds pf ds nm rs out nm') (hx : RefersTo r rs) (hd : ∀ d ∈ ds, d.refs.length ≤ r) :
    ∀ d ∈ out, d.refs.length ≤ r := by
  have snoc : ∀ {ds : List TyDecl} {d : TyDecl}, (∀ d ∈ ds, d.refs.length ≤ r) → d.refs.length ≤ r →
      ∀ x ∈ ds ++ [d], x.refs.length ≤ r := by
    intro ds d h h' x hx
    rcases List.mem_append.1 hx with hx | hx
    · exact h x hx
    · rw [List.mem_singleton.1 hx]; exact h'
  have named : ∀ {x : BRecord} {rs : List BRecord} {p : U64} {fs : List U64} {n : Option Str} {q : Bool},
      RefersTo r (x :: rs) → x.code = 20 → x.fields = p :: fs →
      (TyDecl.struct n (fs.map (·.toNat)) q).refs.length ≤ r := by
    intro x rs p fs n q hx hc hf
    have := hx x (by simp) (by rw [hc]; decide)
    rw [hf, List.length_cons] at this
    simp only [TyDecl.refs, List.length_map]; omega
  have tl : ∀ {x : BRecord} {rs : List BRecord}, RefersTo r (x :: rs) → RefersTo r rs :=
    fun h y hy => h y (by simp [hy])
  induction h with
  | nil => exact hd
  | count _ _ ih => exact ih (tl hx) hd
  | single ha _ ih =>
    refine ih (tl hx) (snoc hd ?_)
    cases ha with
    | says h => exact refs_of_says h1 h (hx _ (by simp))
    | wide _ _ => exact Nat.zero_le _
  | name _ _ _ ih => exact ih (tl hx) hd
  | named hc hf _ _ ih => exact ih (tl hx) (snoc hd (named hx hc hf))
  | namedOver hc hf _ ih => exact ih (tl hx) (snoc (fun d h => hd d (by simp [h])) (named hx hc hf))
  | opaqueStruct _ _ _ _ ih => exact ih (tl hx) (snoc hd (Nat.zero_le _))
  | opaqueOver _ _ _ ih =>
    have h0 := hd _ (List.mem_append_right _ (List.mem_singleton_self _))
    exact ih (tl hx) (snoc (fun d h => hd d (by simp [h])) h0)

/-! ## C65 -/

/-- C65. Nothing is shared: a type of the table is as large as itself and all the types it refers to together, each counted as often
as it is referred to. -/
theorem C65_copies (pf : Profile) (b : UBlock) (ts : TypeTable) (h : TypeTable.tryFrom pf b = .ok ts) :
    ∃ ds, Declares pf b.records ds ∧ ∀ (i : Nat) (d : TyDecl) (t : Ty), ds[i]? = some d → ts[i]? = some t →
      nodes t = 1 + (d.refs.map fun j => (ts[j]?).elim 0 nodes).sum := by
  obtain ⟨ds, h1, h2, h3⟩ := (C40_exact pf b ts).1 h
  refine ⟨ds, h1, fun i d t hd ht => ?_⟩
  obtain ⟨hl, hall⟩ := (h3 i t ht).1.partsOf hd
  have : (components t).map nodes = d.refs.map fun j => (ts[j]?).elim 0 nodes := by
    refine List.ext_getElem (by simp [hl]) fun k hk hk' => ?_
    simp only [List.length_map] at hk hk'
    have hu := hall k _ _ (List.getElem?_eq_getElem hk') (List.getElem?_eq_getElem hk)
    obtain ⟨d', hd'⟩ := hu.entry
    have hlt : d.refs[k] < ts.length := by rw [h2]; exact (List.getElem?_eq_some_iff.1 hd').1
    have := (h3 _ _ (List.getElem?_eq_getElem hlt)).1.unique hu
    simp only [List.getElem_map, List.getElem?_eq_getElem hlt, Option.elim_some, this]
  rw [nodes_eq, this]

/-- C65, in full, would bound the size of the types by the size of the records. What holds: no type is higher than the table is
long, and none is larger than the full tree of that height. -/
theorem C65_bound_partial (pf : Profile) (b : UBlock) (ts : TypeTable) (h : TypeTable.tryFrom pf b = .ok ts) :
    (∀ t ∈ ts, height t ≤ ts.length) ∧
    ∀ r, 1 ≤ r → RefersTo r b.records → ∀ t ∈ ts, nodes t ≤ full r ts.length := by
  obtain ⟨ds, ⟨n, nm, -, -, hb, -⟩, h2, h3⟩ := (C40_exact pf b ts).1 h
  have hh : ∀ t ∈ ts, height t ≤ ts.length := fun t ht => by
    obtain ⟨i, hi⟩ := List.mem_iff_getElem?.1 ht
    rw [h2]; exact (h3 i t hi).1.height_le
  refine ⟨hh, fun r hr hx t ht => ?_⟩
  obtain ⟨i, hi⟩ := List.mem_iff_getElem?.1 ht
  exact Nat.le_trans ((h3 i t hi).1.nodes_le (refs_of_builds hr hb hx (by simp))) (full_mono r (hh t ht))

theorem full_one (n : Nat) : full 1 n = n := by
  induction n with
  | zero => rfl
  | succ n ih => rw [full, ih]; omega

theorem full_two (n : Nat) : full 2 n + 1 = 2 ^ n := by
  induction n with
  | zero => rfl
  | succ n ih => rw [full, Nat.pow_succ]; omega

/-- C65 where no entry refers to more than one other: a type is no larger than the table is long. -/
theorem C65_linear_partial (pf : Profile) (b : UBlock) (ts : TypeTable) (h : TypeTable.tryFrom pf b = .ok ts)
    (hx : RefersTo 1 b.records) : ∀ t ∈ ts, nodes t ≤ ts.length := fun t ht => by
  have := (C65_bound_partial pf b ts h).2 1 (Nat.le_refl _) hx t ht
  rwa [full_one] at this

/-- Structures of `r` fields each: an integer, `r` integers, `r` times that, and so on. -/
def tower (r : Nat) : Nat → Ty
  | 0 => .integer 32
  | n + 1 => .struct none (List.replicate r (tower r n)) false

/-- The records of a table of `n + 1` entries: an integer, and structures that name the entry before them `r` times. -/
def towerRecords (r n : Nat) : List BRecord :=
  ⟨none, 1, [BitVec.ofNat 64 (n + 1)]⟩ :: ⟨none, 7, [32]⟩ ::
    (List.range n).map fun k => ⟨none, 18, 0 :: List.replicate r (BitVec.ofNat 64 k)⟩

def towerDecls (r n : Nat) : List TyDecl :=
  .integer 32 :: (List.range n).map fun k => .struct none (List.replicate r k) false

theorem tower_nodes (r n : Nat) : nodes (tower r n) = full r (n + 1) := by
  induction n with
  | zero => simp [tower, nodes, full]
  | succ n ih => rw [tower, nodes_eq, full, ← ih]; simp [components]

theorem tower_height (r n : Nat) (hr : 1 ≤ r) : height (tower r n) = n + 1 := by
  induction n with
  | zero => simp [tower, height]
  | succ n ih =>
    have : heightAll (List.replicate r (tower r n)) = n + 1 := by
      obtain ⟨t, ht, he⟩ := heightAll_mem (ts := List.replicate r (tower r n)) (by
        have := height_le_all (List.mem_replicate.2 ⟨by omega, rfl⟩ : tower r n ∈ List.replicate r (tower r n)); omega)
      rw [← he, (List.mem_replicate.1 ht).2, ih]
    rw [tower, height, this]; omega

theorem tower_struct (r n : Nat) : OkStructElement (tower r n) := by
  cases n with
  | zero => exact ⟨by simp [tower], by rintro ⟨_, _, _, h⟩; cases h⟩
  | succ n => exact ⟨by simp [tower], by rintro ⟨_, _, _, h⟩; cases h⟩

theorem tower_valid (r n : Nat) : Valid (tower r n) := by
  induction n with
  | zero => exact .integer (by decide) (by decide)
  | succ n ih =>
    exact .struct (fun f hf => by rw [(List.mem_replicate.1 hf).2]; exact ih)
      (fun f hf => by rw [(List.mem_replicate.1 hf).2]; exact tower_struct r n)

theorem tower_denotes (r n k : Nat) (hk : k ≤ n) : Denotes (towerDecls r n) k (tower r k) := by
  induction k with
  | zero => exact .integer rfl
  | succ k ih =>
    have hd : (towerDecls r n)[k + 1]? = some (.struct none (List.replicate r k) false) := by
      rw [towerDecls, List.getElem?_cons_succ, List.getElem?_map, List.getElem?_range (by omega)]; rfl
    refine .struct hd (by simp) fun i j t hj ht => ?_
    rw [(List.mem_replicate.1 (List.mem_of_getElem? hj)).2, (List.mem_replicate.1 (List.mem_of_getElem? ht)).2]
    exact ih (by omega)

theorem tower_lists (r n : Nat) (hn : n + 1 < 2 ^ 57) : Lists [] (towerRecords r n) (towerDecls r n) := by
  refine .numEntry rfl (.single (Says.integer (w := 32) rfl rfl (by decide)) ?_)
  have : ∀ l : List Nat, (∀ k ∈ l, k < 2 ^ 64) →
      Lists [] (l.map fun k => ⟨none, 18, 0 :: List.replicate r (BitVec.ofNat 64 k)⟩)
        (l.map fun k => .struct none (List.replicate r k) false) := by
    intro l
    induction l with
    | nil => intro _; exact .nil
    | cons k l ih =>
      intro hl
      have h := Says.structAnon (r := ⟨none, 18, 0 :: List.replicate r (BitVec.ofNat 64 k)⟩) rfl rfl
      have hk : (BitVec.ofNat 64 k).toNat = k := by
        rw [BitVec.toNat_ofNat, Nat.mod_eq_of_lt (b := 2 ^ 64) (hl k (by simp))]
      rw [List.map_replicate, hk] at h
      exact .single h (ih fun k hk => hl k (by simp [hk]))
  exact this _ fun k hk => by have := List.mem_range.1 hk; omega

theorem tower_maps (pf : Profile) (r n : Nat) (hn : n + 1 < 2 ^ 57) :
    TypeTable.tryFrom pf (UBlock.mk (.ir .type) (towerRecords r n) []) = .ok ((List.range (n + 1)).map (tower r)) := by
  have hreg : Regular (towerDecls r n) := by
    rintro pre a b post h - ⟨nm, fs, p, rfl⟩
    have : TyDecl.struct (some nm) fs p ∈ towerDecls r n := by rw [h]; simp
    simp [towerDecls] at this
  refine (C40_faithful_partial pf (UBlock.mk (.ir .type) (towerRecords r n) []) (BitVec.ofNat 64 (n + 1)) (towerDecls r n) ⟨_, [], ⟨[], _, rfl, rfl, by simp⟩, rfl⟩
    ?_ (tower_lists r n hn) hreg _).2 ⟨?_, by simp [towerDecls], fun i t ht => ?_⟩
  · rw [BitVec.toNat_ofNat, Nat.mod_eq_of_lt (b := 2 ^ 64) (by omega)]; exact hn
  · rw [BitVec.toNat_ofNat, Nat.mod_eq_of_lt (b := 2 ^ 64) (by omega)]; simp [towerDecls]
  · rw [List.getElem?_map, Option.map_eq_some_iff] at ht
    obtain ⟨k, hk, rfl⟩ := ht
    obtain ⟨hlt, rfl⟩ := List.getElem?_eq_some_iff.1 hk
    rw [List.getElem_range]
    rw [List.length_range] at hlt
    exact ⟨tower_denotes r n i (by omega), tower_valid r i⟩

/-- C65 fails: whatever the number of entries and of references in each, the bound is reached. -/
theorem C65_reached (pf : Profile) (r n : Nat) (hn : n + 1 < 2 ^ 57) :
    ∃ ts, TypeTable.tryFrom pf (UBlock.mk (.ir .type) (towerRecords r n) []) = .ok ts ∧ RefersTo r (towerRecords r n) ∧
      ts.length = n + 1 ∧ ∃ t ∈ ts, nodes t = full r (n + 1) := by
  refine ⟨(List.range (n + 1)).map (tower r), tower_maps pf r n hn, ?_, by simp, tower r n, ?_, tower_nodes r n⟩
  · intro x hx hc
    simp only [towerRecords, List.mem_cons, List.mem_map] at hx
    rcases hx with rfl | rfl | ⟨k, -, rfl⟩
    · exact absurd hc (by simp)
    · exact absurd hc (by decide)
    · simp
  · exact List.mem_map.2 ⟨n, List.mem_range.2 (by omega), rfl⟩

/-- C65 fails: with two references in each entry the types double from entry to entry, so `n + 1` entries of three fields at most
give a type of `2 ^ (n + 1) - 1` parts. -/
theorem C65_doubles (pf : Profile) (n : Nat) (hn : n + 1 < 2 ^ 57) :
    ∃ b ts, TypeTable.tryFrom pf b = .ok ts ∧ b.records.length = n + 2 ∧ (∀ x ∈ b.records, x.fields.length ≤ 3) ∧
      ∃ t ∈ ts, nodes t + 1 = 2 ^ (n + 1) := by
  obtain ⟨ts, h1, -, -, t, ht, h2⟩ := C65_reached pf 2 n hn
  refine ⟨_, ts, h1, by simp [UBlock.records, towerRecords], fun x hx => ?_, t, ht, by rw [h2, full_two]⟩
  simp only [UBlock.records, towerRecords, List.mem_cons, List.mem_map] at hx
  rcases hx with rfl | rfl | ⟨k, -, rfl⟩ <;> simp

end Verif
