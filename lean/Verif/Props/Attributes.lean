import Verif.Mapper.AttributeLemmas

/-! C43–C46: attribute groups and attribute lists. -/

namespace Verif
open Spec

/-! ## One group record -/

theorem attributeCode_eq {v : U64} {c : AttributeCode} (h : v = c.code) :
    (tryFromPrimitive v : Option AttributeCode) = some c := tryFromPrimitive_iff.2 h.symm

theorem place_eq (p : U64) : AttributeGroupDisposition.ofU32 (p.setWidth 32) = place (p.toNat % 2 ^ 32) := by
  have h : (p.setWidth 32).toNat = p.toNat % 2 ^ 32 := by simp
  unfold AttributeGroupDisposition.ofU32 place
  by_cases h1 : p.setWidth 32 = 0xffffffff
  · have := congrArg BitVec.toNat h1
    rw [h] at this
    rw [if_pos h1, if_neg (by rw [this]; decide), if_pos (by rw [this]; decide)]
  · have h1' : p.toNat % 2 ^ 32 ≠ 2 ^ 32 - 1 := fun h' => h1 (BitVec.eq_of_toNat_eq (by rw [h, h']; rfl))
    rw [if_neg h1]
    by_cases h2 : p.setWidth 32 = 0
    · have := congrArg BitVec.toNat h2
      rw [h] at this
      rw [if_pos h2, if_pos (by rw [this]; rfl)]
    · rw [if_neg h2, if_neg (fun h' => h2 (BitVec.eq_of_toNat_eq (by rw [h, h']; rfl))), if_neg h1', ← h]
      congr 1
      exact BitVec.eq_of_toNat_eq (by simp)

theorem groupStep_group {r : BRecord} {id param : U64} {attrs : List Attribute} (h : IsAttrGroup r id param attrs)
    (g : AttributeGroups) :
    groupStep g r = .ok (g.insert (id.setWidth 32) { disposition := place (param.toNat % 2 ^ 32), attributes := attrs }) := by
  obtain ⟨hc, l, hl, rfl, hne, hf⟩ := h
  unfold groupStep
  rw [attributeCode_eq (c := .groupCodeEntry) hc, Out.ofOption_some, Out.ok_bind, if_neg (by simp), hf]
  have hlen : 0 < (l.flatMap (·.2)).length := by
    cases l with
    | nil => simp at hne
    | cons x l =>
      have := (hl x (by simp)).length_pos
      simp only [List.flatMap_cons, List.length_append]; omega
  rw [if_neg (by simp only [List.length_cons]; omega)]
  simp only [attrField, List.getElem?_cons_zero, List.getElem?_cons_succ, Out.ok_bind]
  rw [loop_complete (l := l) hl (by simp) (by simp) (by omega), Out.ok_bind]
  dsimp only
  rw [if_neg (by simp), place_eq, List.nil_append]

theorem groupStep_cut {r : BRecord} (h : CutInKey r) (g : AttributeGroups) : groupStep g r = .panic .attrSlice := by
  obtain ⟨hc, id, param, l, k, hl, hk, hf⟩ := h
  unfold groupStep
  rw [attributeCode_eq (c := .groupCodeEntry) hc, Out.ofOption_some, Out.ok_bind, if_neg (by simp), hf]
  rw [if_neg (by simp; omega)]
  simp only [attrField, List.getElem?_cons_zero, List.getElem?_cons_succ, Out.ok_bind]
  rw [loop_cut hl (by simp) hk (by simp) (by omega)]
  rfl

theorem groupStep_cases (r : BRecord) :
    (∃ id param attrs, IsAttrGroup r id param attrs) ∨ CutInKey r ∨ ∀ g, ∃ e, groupStep g r = .err e := by
  unfold groupStep
  cases hc : (tryFromPrimitive r.code : Option AttributeCode) with
  | none => exact .inr (.inr fun g => ⟨_, rfl⟩)
  | some c =>
    simp only [Out.ofOption_some, Out.ok_bind]
    by_cases h1 : c = .groupCodeEntry
    · subst h1
      have hcode : r.code = 3 := (tryFromPrimitive_iff.1 hc).symm
      simp only [ne_eq, not_true_eq_false, if_false]
      by_cases h2 : r.fields.length < 3
      · exact .inr (.inr fun g => ⟨_, by rw [if_pos h2]⟩)
      · simp only [if_neg h2]
        obtain ⟨id, param, rest, hf⟩ : ∃ id param rest, r.fields = id :: param :: rest := by
          match h : r.fields with
          | [] => rw [h] at h2; simp at h2
          | [_] => rw [h] at h2; simp at h2
          | a :: b :: c => exact ⟨a, b, c, rfl⟩
        rw [hf]
        simp only [attrField, List.getElem?_cons_zero, List.getElem?_cons_succ, Out.ok_bind]
        rw [hf] at h2
        simp only [List.length_cons] at h2
        rcases loop_sound (fields := id :: param :: rest) (fuel := (id :: param :: rest).length) (idx := 2) (acc := [])
          (by simp) (by omega) with ⟨l, hl, hd⟩ | ⟨l, k, hl, hk, hd⟩ | ⟨e, he⟩ | ⟨out, ho⟩
        · simp only [List.drop_succ_cons, List.drop_zero] at hd
          refine .inl ⟨id, param, l.map (·.1), hcode, l, hl, rfl, ?_, by rw [hf, hd]⟩
          intro hnil
          have : l = [] := by simpa using hnil
          subst this
          simp only [List.flatMap_nil] at hd
          subst hd
          simp at h2
        · simp only [List.drop_succ_cons, List.drop_zero] at hd
          exact .inr (.inl ⟨hcode, id, param, l, k, hl, hk, by rw [hf, hd]⟩)
        · exact .inr (.inr fun g => ⟨e, by rw [he]; rfl⟩)
        · exact .inr (.inr fun g => ⟨_, by rw [ho, Out.ok_bind]; dsimp only; rw [if_pos (by omega)]⟩)
    · exact .inr (.inr fun g => ⟨_, by rw [if_pos h1]⟩)

theorem groupStep_ok {r : BRecord} {g g' : AttributeGroups} (h : groupStep g r = .ok g') :
    ∃ id param attrs, IsAttrGroup r id param attrs := by
  rcases groupStep_cases r with h' | h' | h'
  · exact h'
  · rw [groupStep_cut h'] at h; cases h
  · obtain ⟨e, he⟩ := h' g
    rw [he] at h; cases h

/-! ## C43 -/

/-- The entries of a map: by key, no two with the same key. -/
def Sorted (g : AttributeGroups) : Prop := g.Pairwise fun a b => a.1.toNat < b.1.toNat

theorem sorted_insert {g : AttributeGroups} (h : Sorted g) (k : U32) (x : AttributeGroup) : Sorted (g.insert k x) := by
  unfold AttributeGroups.insert Sorted
  rw [List.pairwise_append, List.pairwise_cons]
  refine ⟨h.filter _, ⟨fun b hb => ?_, h.filter _⟩, fun a ha b hb => ?_⟩
  · rw [List.mem_filter] at hb
    exact BitVec.lt_def.1 (of_decide_eq_true hb.2)
  · rw [List.mem_filter] at ha
    have h1 := BitVec.lt_def.1 (of_decide_eq_true ha.2)
    rcases List.mem_cons.1 hb with rfl | hb
    · exact h1
    · rw [List.mem_filter] at hb
      have h2 := BitVec.lt_def.1 (of_decide_eq_true hb.2)
      exact Nat.lt_trans h1 h2

theorem mem_insert {g : AttributeGroups} {k id : U32} {x y : AttributeGroup} :
    (id, y) ∈ g.insert k x ↔ (id = k ∧ y = x) ∨ (id ≠ k ∧ (id, y) ∈ g) := by
  unfold AttributeGroups.insert
  simp only [List.mem_append, List.mem_cons, List.mem_filter, Prod.mk.injEq, decide_eq_true_eq]
  have : id < k ∨ id = k ∨ k < id := by
    simp only [BitVec.lt_def, ← BitVec.toNat_inj]; omega
  have h1 : id < k → id ≠ k := by rintro h rfl; exact absurd h (BitVec.lt_irrefl _)
  have h2 : k < id → id ≠ k := by rintro h rfl; exact absurd h (BitVec.lt_irrefl _)
  constructor
  · rintro (⟨h, hk⟩ | h | ⟨h, hk⟩)
    · exact .inr ⟨h1 hk, h⟩
    · exact .inl h
    · exact .inr ⟨h2 hk, h⟩
  · rintro (h | ⟨hk, h⟩)
    · exact .inr (.inl h)
    · rcases this with h' | h' | h'
      · exact .inl ⟨h, h'⟩
      · exact absurd h' hk
      · exact .inr (.inr ⟨h, h'⟩)

theorem get_iff {g : AttributeGroups} (h : Sorted g) (id : U32) (x : AttributeGroup) : g.get id = some x ↔ (id, x) ∈ g := by
  unfold AttributeGroups.get
  induction g with
  | nil => simp
  | cons e g ih =>
    obtain ⟨k, y⟩ := e
    obtain ⟨h1, h2⟩ := List.pairwise_cons.1 h
    rw [List.lookup_cons, List.mem_cons, Prod.mk.injEq]
    by_cases hk : id = k
    · subst hk
      simp only [beq_self_eq_true, Option.some.injEq, true_and]
      constructor
      · exact fun h => .inl h.symm
      · rintro (h | h)
        · exact h.symm
        · exact absurd (h1 _ h) (by simp)
    · rw [show (id == k) = false by simpa using hk]
      simp only [hk, false_and, false_or]
      exact ih h2

theorem get_insert {g : AttributeGroups} (h : Sorted g) (k id : U32) (x : AttributeGroup) :
    (g.insert k x).get id = if id = k then some x else g.get id := by
  refine Option.ext fun y => ?_
  rw [get_iff (sorted_insert h k x), mem_insert]
  split
  · next hk => simp [hk, eq_comm]
  · next hk => rw [get_iff h]; simp [hk]

theorem Spec.AttrGroups.nil_inv {gs : List (U64 × U64 × List Attribute)} (h : AttrGroups [] gs) : gs = [] := by
  have := h.1
  simpa using this.symm

theorem Spec.AttrGroups.cons_inv {r : BRecord} {rs : List BRecord} {gs : List (U64 × U64 × List Attribute)}
    (h : AttrGroups (r :: rs) gs) : ∃ x xs, gs = x :: xs ∧ IsAttrGroup r x.1 x.2.1 x.2.2 ∧ AttrGroups rs xs := by
  cases gs with
  | nil => simp [AttrGroups] at h
  | cons x xs =>
    refine ⟨x, xs, rfl, h.2 0 r x rfl rfl, by simpa using h.1, fun i r' g hr hg => ?_⟩
    exact h.2 (i + 1) r' g (by simpa using hr) (by simpa using hg)

theorem foldl_groups {rs : List BRecord} : ∀ {gs : List (U64 × U64 × List Attribute)} {g0 : AttributeGroups} (_ : Sorted g0),
    AttrGroups rs gs → ∃ g, rs.foldlM groupStep g0 = .ok g ∧ Sorted g ∧
      ∀ id, g.get id = (lastGroup gs id).or (g0.get id) := by
  induction rs with
  | nil =>
    intro gs g0 h0 h
    rw [h.nil_inv]
    exact ⟨g0, rfl, h0, fun id => rfl⟩
  | cons r rs ih =>
    intro gs g0 h0 h
    obtain ⟨x, xs, rfl, hx, hxs⟩ := h.cons_inv
    rw [List.foldlM_cons, groupStep_group hx, Out.ok_bind]
    obtain ⟨g, h1, hs, h2⟩ := ih (sorted_insert h0 _ _) hxs
    refine ⟨g, h1, hs, fun id => ?_⟩
    rw [h2, get_insert h0]
    unfold lastGroup
    rw [List.reverse_cons, List.find?_append]
    cases xs.reverse.find? fun g => decide (g.1.toNat % 2 ^ 32 = id.toNat) with
    | some y => rfl
    | none =>
      simp only [Option.map_none, Option.none_or]
      have hiff : id = x.1.setWidth 32 ↔ x.1.toNat % 2 ^ 32 = id.toNat := by
        rw [← BitVec.toNat_inj]; simp [eq_comm]
      by_cases hid : x.1.toNat % 2 ^ 32 = id.toNat
      · rw [if_pos (hiff.2 hid), List.find?_cons_of_pos (by simpa using hid)]; rfl
      · rw [if_neg (fun h => hid (hiff.1 h)), List.find?_cons_of_neg (by simpa using hid)]; rfl

/-- C43. A block of group records maps, and gives for each id the attributes, in order and with their values, and the
disposition of the last group with that id; ids and parameter indices count modulo `2^32`. -/
theorem C43_roundtrip (b : UBlock) (gs : List (U64 × U64 × List Attribute)) (h : AttrGroups b.records gs) :
    ∃ g, AttributeGroups.tryFrom b = .ok g ∧ ∀ id, g.get id = lastGroup gs id := by
  obtain ⟨g, h1, -, h2⟩ := foldl_groups (g0 := []) .nil h
  exact ⟨g, h1, fun id => by rw [h2]; simp [AttributeGroups.get]⟩

/-- C43. In particular, with 32-bit ids that are all different each group is found under its id. -/
theorem C43_each_found (b : UBlock) (gs : List (U64 × U64 × List Attribute)) (h : AttrGroups b.records gs)
    (h32 : ∀ x ∈ gs, x.1.toNat < 2 ^ 32 ∧ x.2.1.toNat < 2 ^ 32) (hd : (gs.map (·.1)).Nodup) :
    ∃ g, AttributeGroups.tryFrom b = .ok g ∧ ∀ x ∈ gs,
      g.get (BitVec.ofNat 32 x.1.toNat) = some { disposition := place x.2.1.toNat, attributes := x.2.2 } := by
  obtain ⟨g, h1, h2⟩ := C43_roundtrip b gs h
  refine ⟨g, h1, fun x hx => ?_⟩
  rw [h2, lastGroup]
  have hxs := h32 x hx
  have : gs.reverse.find? (fun g => decide (g.1.toNat % 2 ^ 32 = (BitVec.ofNat 32 x.1.toNat).toNat)) = some x := by
    clear h h1 h2
    have hd' : (gs.reverse.map (·.1)).Nodup := by
      rw [List.map_reverse]; exact (List.reverse_perm _).nodup_iff.2 hd
    have h32' : ∀ x ∈ gs.reverse, x.1.toNat < 2 ^ 32 := fun x hx => (h32 x (List.mem_reverse.1 hx)).1
    have hx' := List.mem_reverse.2 hx
    revert hd' h32' hx'
    generalize gs.reverse = l
    intro hd' h32' hx'
    induction l with
    | nil => simp at hx'
    | cons y l ih =>
      by_cases hxy : y.1.toNat % 2 ^ 32 = (BitVec.ofNat 32 x.1.toNat).toNat
      · rw [List.find?_cons_of_pos (by simpa using hxy)]
        have hy := h32' y (by simp)
        have : y.1 = x.1 := BitVec.eq_of_toNat_eq (by
          rw [Nat.mod_eq_of_lt hy, BitVec.toNat_ofNat, Nat.mod_eq_of_lt hxs.1] at hxy; exact hxy)
        rcases List.mem_cons.1 hx' with rfl | hx''
        · rfl
        · rw [List.map_cons, List.nodup_cons] at hd'
          exact absurd (List.mem_map.2 ⟨x, hx'', this.symm⟩) hd'.1
      · rw [List.find?_cons_of_neg (by simpa using hxy)]
        rcases List.mem_cons.1 hx' with rfl | hx''
        · exact absurd (by rw [BitVec.toNat_ofNat]) hxy
        · exact ih (List.nodup_cons.1 (by simpa using hd')).2 (fun z hz => h32' z (by simp [hz])) hx''
  rw [this, Option.map_some, Nat.mod_eq_of_lt hxs.2]

/-- C43. Nothing else maps: if a block is accepted, all its records are records of groups. -/
theorem C43_only (b : UBlock) (g : AttributeGroups) (h : AttributeGroups.tryFrom b = .ok g) :
    ∃ gs, AttrGroups b.records gs := by
  unfold AttributeGroups.tryFrom at h
  generalize ([] : AttributeGroups) = g0 at h
  generalize b.records = rs at h
  induction rs generalizing g0 with
  | nil => exact ⟨[], rfl, fun i r g hr => by simp at hr⟩
  | cons r rs ih =>
    rw [List.foldlM_cons, Out.bind_eq_ok] at h
    obtain ⟨g1, h1, h2⟩ := h
    obtain ⟨gs, hgs⟩ := ih g1 h2
    obtain ⟨id, param, attrs, hr⟩ := groupStep_ok h1
    refine ⟨(id, param, attrs) :: gs, by simp [hgs.1], fun i r' x hr' hx => ?_⟩
    cases i with
    | zero =>
      simp only [List.getElem?_cons_zero, Option.some.injEq] at hr' hx
      subst hr'; subst hx; exact hr
    | succ i => exact hgs.2 i r' x (by simpa using hr') (by simpa using hx)

theorem sorted_ext {g g' : AttributeGroups} (h : Sorted g) (h' : Sorted g') (hm : ∀ id x, (id, x) ∈ g ↔ (id, x) ∈ g') :
    g = g' := by
  induction g generalizing g' with
  | nil =>
    cases g' with
    | nil => rfl
    | cons e g' => exact absurd ((hm e.1 e.2).2 (by simp)) (by simp)
  | cons e g ih =>
    obtain ⟨h1, h2⟩ := List.pairwise_cons.1 h
    cases g' with
    | nil => exact absurd ((hm e.1 e.2).1 (by simp)) (by simp)
    | cons e' g' =>
      obtain ⟨h1', h2'⟩ := List.pairwise_cons.1 h'
      have hee : e = e' := by
        have ha := (hm e.1 e.2).1 (by simp)
        have hb := (hm e'.1 e'.2).2 (by simp)
        rcases List.mem_cons.1 ha with ha | ha
        · exact ha
        · rcases List.mem_cons.1 hb with hb | hb
          · exact hb.symm
          · have := h1 _ hb; have := h1' _ ha; simp only at *; omega
      subst hee
      rw [ih h2 h2' fun id x => ?_]
      have := hm id x
      simp only [List.mem_cons] at this
      constructor
      · intro hx
        rcases this.1 (.inr hx) with h | h
        · subst h; exact absurd (h1 _ hx) (by simp)
        · exact h
      · intro hx
        rcases this.2 (.inr hx) with h | h
        · subst h; exact absurd (h1' _ hx) (by simp)
        · exact h

/-- C43. A block of groups maps to exactly what its records say, and only blocks of group records map. -/
theorem C43_exact (b : UBlock) (g : AttributeGroups) : AttributeGroups.tryFrom b = .ok g ↔ GroupsSay b.records g := by
  constructor
  · intro h
    obtain ⟨gs, hgs⟩ := C43_only b g h
    obtain ⟨g', h1, hs, h2⟩ := foldl_groups (g0 := []) .nil hgs
    unfold AttributeGroups.tryFrom at h
    rw [h1] at h
    cases h
    refine ⟨gs, hgs, hs, fun id x => ?_⟩
    rw [← get_iff hs, h2]; simp [AttributeGroups.get]
  · rintro ⟨gs, hgs, hs, hm⟩
    obtain ⟨g', h1, hs', h2⟩ := foldl_groups (g0 := []) .nil hgs
    have : g' = g := sorted_ext hs' hs fun id x => by
      rw [hm, ← get_iff hs', h2]; simp [AttributeGroups.get]
    rw [← this]; exact h1

/-- Two groups with the same id: the second one counts. -/
example : GroupsSay [⟨none, 3, [7, 1, 0, 18]⟩, ⟨none, 3, [2, 0, 0, 18]⟩, ⟨none, 3, [7, 0xffffffff, 0, 5]⟩]
    [(2, ⟨.return, [.enum .noUnwind]⟩), (7, ⟨.function, [.enum .inReg]⟩)] :=
  (C43_exact (UBlock.mk (.ir .paramAttrGroup) _ []) _).1 (by decide +kernel)

/-- C43. The fields of a record determine its group: no two different lists of attributes are written in the same way. -/
theorem C43_unique (r : BRecord) (id param id' param' : U64) (attrs attrs' : List Attribute)
    (h : IsAttrGroup r id param attrs) (h' : IsAttrGroup r id' param' attrs') :
    id = id' ∧ param = param' ∧ attrs = attrs' := by
  have h1 := groupStep_group h []
  have h2 := groupStep_group h' []
  rw [h1] at h2
  obtain ⟨-, l, -, -, -, hf⟩ := h
  obtain ⟨-, l', -, -, -, hf'⟩ := h'
  rw [hf] at hf'
  have hi := (List.cons.inj hf').1
  have hp := (List.cons.inj (List.cons.inj hf').2).1
  refine ⟨hi, hp, ?_⟩
  simp only [AttributeGroups.insert, List.filter_nil, List.nil_append, Out.ok.injEq, List.cons.injEq, Prod.mk.injEq, AttributeGroup.mk.injEq,
    and_true] at h2
  exact h2.2.2

/-- The attributes without a value have LLVM's numbers. -/
theorem C43_enum_attribute (v : U64) (a : EnumAttribute) :
    (tryFromPrimitive v : Option EnumAttribute) = some a ↔ (v.toNat, a) ∈ enumAttributeTable :=
  decode_table (t := enumAttributeTable) rfl v a

/-- C43. A group with an attribute of a kind that is not supported, such as an attribute with a type (5 or 6), is not
accepted, whatever comes before and after it. -/
theorem C43_unknown_kind_rejected (b : UBlock) (r : BRecord) (hr : r ∈ b.records) (id param k : U64)
    (l : List (Attribute × List U64)) (rest : List U64) (hl : AllAttrs l)
    (hf : r.fields = id :: param :: (l.flatMap (·.2) ++ k :: rest)) (hk : k.toNat ∉ [0, 1, 3, 4]) (g : AttributeGroups) :
    AttributeGroups.tryFrom b ≠ .ok g := by
  intro h
  obtain ⟨gs, hlen, hgs⟩ := C43_only b g h
  obtain ⟨i, hi⟩ := List.getElem?_of_mem hr
  have hlt : i < gs.length := by rw [← hlen]; exact (List.getElem?_eq_some_iff.1 hi).1
  obtain ⟨-, l', hl', -, -, hf'⟩ := hgs i r _ hi (List.getElem?_eq_getElem hlt)
  rw [hf] at hf'
  have hd := (List.cons.inj (List.cons.inj hf').2).2
  clear hf hf' hgs hi hlt
  have : ∀ (l l' : List (Attribute × List U64)), AllAttrs l → AllAttrs l' →
      l.flatMap (·.2) ++ k :: rest = l'.flatMap (·.2) → False := by
    intro l
    induction l with
    | nil =>
      intro l' _ hl' hd
      cases l' with
      | nil => simp at hd
      | cons x l' =>
        have hx := hl' x (by simp)
        rw [List.flatMap_nil, List.nil_append, List.flatMap_cons] at hd
        generalize x.1 = at', x.2 = enc at hx hd
        cases hx <;> simp only [List.cons_append, List.cons.injEq] at hd <;> rw [hd.1] at hk <;> exact hk (by decide)
    | cons x l ih =>
      intro l' hl hl' hd
      have hx := hl x (by simp)
      cases l' with
      | nil =>
        have := hx.length_pos
        have := congrArg List.length hd
        simp at this
      | cons y l' =>
        have hy := hl' y (by simp)
        rw [List.flatMap_cons, List.flatMap_cons, List.append_assoc] at hd
        have h1 := fromRecord_complete hx (l.flatMap (·.2) ++ k :: rest)
        rw [hd, fromRecord_complete hy] at h1
        have hlen : y.2.length = x.2.length := by
          simp only [Out.ok.injEq, Prod.mk.injEq] at h1; exact h1.1
        obtain ⟨-, hd'⟩ := List.append_inj hd hlen.symm
        exact ih l' (fun z hz => hl z (by simp [hz])) (fun z hz => hl' z (by simp [hz])) hd'
  exact this l l' hl hl' hd

/-- A group of four attributes for parameter 1: `nounwind`, `dereferenceable(24)`, `"ab"` and `"k"="v"`. -/
def Spec.sampleGroup : BRecord :=
  ⟨none, 3, [7, 1, 0, 18, 1, 41, 24, 3, 0x61, 0x62, 0, 4, 0x6b, 0, 0x76, 0]⟩

example : IsAttrGroup sampleGroup 7 1
    [.enum .noUnwind, .int (.dereferenceable 24), .str ['a', 'b'], .strKeyValue ['k'] ['v']] := by
  refine ⟨rfl, [(.enum .noUnwind, [0, 18]), (.int (.dereferenceable 24), [1, 41, 24]),
    (.str ['a', 'b'], 3 :: (strFields ['a', 'b'] ++ [0])),
    (.strKeyValue ['k'] ['v'], 4 :: (strFields ['k'] ++ 0 :: (strFields ['v'] ++ [0])))], ?_, rfl, by simp, by decide +kernel⟩
  intro x hx
  simp only [List.mem_cons, List.not_mem_nil, or_false] at hx
  rcases hx with rfl | rfl | rfl | rfl
  · exact .enum (by decide +kernel)
  · exact .int (.dereferenceable 24)
  · exact .str ⟨by simp, by decide +kernel⟩
  · exact .strKeyValue ⟨by simp, by decide +kernel⟩ ⟨by simp, by decide +kernel⟩

example : AttributeGroups.tryFrom (UBlock.mk (.ir .paramAttrGroup) [sampleGroup] []) =
    .ok [(7, { disposition := .parameter 1, attributes :=
      [.enum .noUnwind, .int (.dereferenceable 24), .str ['a', 'b'], .strKeyValue ['k'] ['v']] })] := by decide +kernel

/-! ## C44 -/

/-- C44 is false. Mapping attribute groups panics exactly if the first record that is not one of a group is cut off in the key
of an attribute with a key and a value. -/
theorem C44_groups_panic_iff (b : UBlock) (p : PanicSite) :
    AttributeGroups.tryFrom b = .panic p ↔ p = .attrSlice ∧
      ∃ pre r post, b.records = pre ++ r :: post ∧ (∀ x ∈ pre, ∃ id param attrs, IsAttrGroup x id param attrs) ∧
        CutInKey r := by
  unfold AttributeGroups.tryFrom
  generalize ([] : AttributeGroups) = g0
  generalize b.records = rs
  induction rs generalizing g0 with
  | nil => simp
  | cons r rs ih =>
    rw [List.foldlM_cons]
    rcases groupStep_cases r with ⟨id, param, attrs, h⟩ | h | h
    · rw [groupStep_group h, Out.ok_bind, ih]
      refine and_congr_right fun _ => ?_
      constructor
      · rintro ⟨pre, x, post, rfl, h1, h2⟩
        refine ⟨r :: pre, x, post, rfl, fun y hy => ?_, h2⟩
        rcases List.mem_cons.1 hy with rfl | hy
        · exact ⟨_, _, _, h⟩
        · exact h1 y hy
      · rintro ⟨pre, x, post, h0, h1, h2⟩
        cases pre with
        | nil =>
          obtain ⟨rfl, rfl⟩ := List.cons.inj h0
          have h3 := groupStep_cut h2 []
          rw [groupStep_group h] at h3
          cases h3
        | cons y pre =>
          obtain ⟨rfl, rfl⟩ := List.cons.inj h0
          exact ⟨pre, x, post, rfl, fun z hz => h1 z (by simp [hz]), h2⟩
    · rw [groupStep_cut h, Out.panic_bind]
      simp only [Out.panic.injEq]
      constructor
      · rintro rfl
        exact ⟨rfl, [], r, rs, rfl, by simp, h⟩
      · rintro ⟨rfl, -⟩; rfl
    · obtain ⟨e, he⟩ := h g0
      rw [he, Out.err_bind]
      simp only [reduceCtorEq, false_iff]
      rintro ⟨-, pre, x, post, h0, h1, h2⟩
      cases pre with
      | nil =>
        obtain ⟨rfl, rfl⟩ := List.cons.inj h0
        rw [groupStep_cut h2] at he
        cases he
      | cons y pre =>
        obtain ⟨rfl, rfl⟩ := List.cons.inj h0
        obtain ⟨_, _, _, h3⟩ := h1 _ (List.mem_cons_self ..)
        rw [groupStep_group h3] at he
        cases he

/-- C44. Mapping attribute groups always comes to an end. -/
theorem C44_groups_terminates (b : UBlock) : AttributeGroups.tryFrom b ≠ .diverge := by
  unfold AttributeGroups.tryFrom
  generalize ([] : AttributeGroups) = g0
  generalize b.records = rs
  induction rs generalizing g0 with
  | nil => intro h; cases h
  | cons r rs ih =>
    rw [List.foldlM_cons]
    rcases groupStep_cases r with ⟨id, param, attrs, h⟩ | h | h
    · rw [groupStep_group h, Out.ok_bind]; exact ih _
    · rw [groupStep_cut h]; simp
    · obtain ⟨e, he⟩ := h g0
      rw [he]; simp

/-- C44, for blocks without such a record: mapping attribute groups returns. -/
theorem C44_groups_return_partial (b : UBlock) (h : ∀ r ∈ b.records, ¬ CutInKey r) : (AttributeGroups.tryFrom b).Returns := by
  cases hx : AttributeGroups.tryFrom b with
  | ok _ => trivial
  | err _ => trivial
  | panic p =>
    obtain ⟨-, pre, r, post, h1, -, h2⟩ := (C44_groups_panic_iff b p).1 hx
    exact absurd h2 (h r (by rw [h1]; simp))
  | diverge => exact absurd hx (C44_groups_terminates b)

/-- `"k"="` with nothing after it: the fields end in the key. -/
theorem C44_groups_panic : AttributeGroups.tryFrom (UBlock.mk (.ir .paramAttrGroup) [⟨none, 3, [1, 0, 4, 0x6b]⟩] []) =
    .panic .attrSlice := by decide +kernel

/-- The sample group is not cut off. -/
example : ∀ r ∈ (UBlock.mk (.ir .paramAttrGroup) [sampleGroup] []).records, ¬ CutInKey r := by
  intro r hr h
  simp only [UBlock.records, List.mem_cons, List.not_mem_nil, or_false] at hr
  subst hr
  have := groupStep_cut h []
  exact absurd this (by decide +kernel)

theorem attrsStep_returns (g : AttributeGroups) (r : BRecord) (h : r.code ≠ 1) : (attrsStep g r).Returns := by
  unfold attrsStep
  cases hc : (tryFromPrimitive r.code : Option AttributeCode) with
  | none => trivial
  | some c =>
    rw [Out.ofOption_some, Out.ok_bind]
    rw [tryFromPrimitive_iff] at hc
    cases c with
    | entryOld => exact absurd hc.symm h
    | entry =>
      refine mapOut_returns fun f _ => ?_
      unfold groupRef
      cases g.get (f.setWidth 32) <;> trivial
    | groupCodeEntry => trivial

theorem attrsStep_old (g : AttributeGroups) (r : BRecord) (h : r.code = 1) : attrsStep g r = .panic .unimplemented := by
  unfold attrsStep
  rw [attributeCode_eq (c := .entryOld) h]; rfl

/-- C44 is false. Mapping attribute lists panics exactly if there is a record of the old format (code 1) and all records before
it are fine. -/
theorem C44_lists_panic_iff (b : UBlock) (g : AttributeGroups) (p : PanicSite) :
    Attributes.tryFrom b g = .panic p ↔ p = .unimplemented ∧
      ∃ pre r post, b.records = pre ++ r :: post ∧ r.code = 1 ∧
        ∃ as, Attributes.tryFrom (UBlock.mk b.id pre []) g = .ok as := by
  unfold Attributes.tryFrom
  rw [mapOut_eq_panic]
  constructor
  · rintro ⟨pre, r, post, h1, h2, h3⟩
    by_cases hc : r.code = 1
    · rw [attrsStep_old g r hc] at h3
      cases h3
      exact ⟨rfl, pre, r, post, h1, hc, h2⟩
    · have := attrsStep_returns g r hc
      rw [h3] at this
      cases this
  · rintro ⟨rfl, pre, r, post, h1, h2, h3⟩
    exact ⟨pre, r, post, h1, h3, attrsStep_old g r h2⟩

/-- C44, for blocks without records of the old format: mapping attribute lists returns. -/
theorem C44_lists_return_partial (b : UBlock) (g : AttributeGroups) (h : ∀ r ∈ b.records, r.code ≠ 1) :
    (Attributes.tryFrom b g).Returns := mapOut_returns fun r hr => attrsStep_returns g r (h r hr)

theorem C44_lists_panic (g : AttributeGroups) :
    Attributes.tryFrom (UBlock.mk (.ir .paramAttr) [⟨none, 1, [0, 0]⟩] []) g = .panic .unimplemented := by
  unfold Attributes.tryFrom
  rw [show (UBlock.mk (.ir .paramAttr) [⟨none, 1, [0, 0]⟩] []).records = [⟨none, 1, [0, 0]⟩] from rfl, mapOut,
    attrsStep_old g _ rfl]
  rfl

/-! ## C45 -/

/-- The attribute with number `id` and value `v`, as mapped. -/
def Spec.IntMaps (id v : Nat) (a : IntAttribute) : Prop :=
  ∃ key, (id, key) ∈ attributeIdTable ∧ v < 2 ^ 64 ∧ IntAttribute.tryFrom key (BitVec.ofNat 64 v) = .ok a

theorem intMaps_iff (id v : Nat) (a : IntAttribute) : IntMaps id v a ↔ AsInt a id v ∧ id < 2 ^ 64 ∧ v < 2 ^ 64 := by
  unfold IntMaps
  have key : ∀ k, (id, k) ∈ attributeIdTable ↔ id < 2 ^ 64 ∧ (tryFromPrimitive (BitVec.ofNat 64 id) : Option AttributeId) = some k := by
    intro k
    constructor
    · intro h
      have : id < 2 ^ 64 := by
        have : ∀ x ∈ attributeIdTable, x.1 < 2 ^ 64 := by decide +kernel
        exact this _ h
      refine ⟨this, ?_⟩
      rw [C50_attributeId, BitVec.toNat_ofNat, Nat.mod_eq_of_lt this]
      exact h
    · rintro ⟨h, h'⟩
      rw [C50_attributeId, BitVec.toNat_ofNat, Nat.mod_eq_of_lt h] at h'
      exact h'
  constructor
  · rintro ⟨k, h1, h2, h3⟩
    obtain ⟨h1, h1'⟩ := (key k).1 h1
    have := (asInt_iff _ _ a).1 ⟨k, h1', h3⟩
    rw [BitVec.toNat_ofNat, BitVec.toNat_ofNat, Nat.mod_eq_of_lt h1, Nat.mod_eq_of_lt h2] at this
    exact ⟨this, h1, h2⟩
  · rintro ⟨h, h1, h2⟩
    have := (asInt_iff (BitVec.ofNat 64 id) (BitVec.ofNat 64 v) a).2 (by
      rw [BitVec.toNat_ofNat, BitVec.toNat_ofNat, Nat.mod_eq_of_lt h1, Nat.mod_eq_of_lt h2]; exact h)
    obtain ⟨k, hk, h3⟩ := this
    exact ⟨k, (key k).2 ⟨h1, hk⟩, h2, h3⟩

/-- The attributes whose value is read as LLVM packs it. -/
def Spec.Meaning.Faithful : Meaning → Prop
  | .dereferenceable _ | .dereferenceableOrNull _ | .allocSize _ _ => True
  | .align _ | .alignStack _ | .vScaleRange _ _ => False

/-- C45, for `dereferenceable`, `dereferenceable_or_null` and `allocsize`: the parameters that were packed are reported, and
only they. -/
theorem C45_unpacks_partial (m : Meaning) (id v : Nat) (hm : m.Faithful) (h : Packs m id v) :
    ∃ a, IntMaps id v a ∧ Reports a m ∧ ∀ a', IntMaps id v a' → a' = a := by
  have huniq : ∀ a, IntMaps id v a → ∀ a', IntMaps id v a' → a' = a := by
    rintro a ⟨k, h1, h2, h3⟩ a' ⟨k', h1', -, h3'⟩
    have : k' = k := by
      have inj : ∀ x ∈ attributeIdTable, ∀ y ∈ attributeIdTable, x.1 = y.1 → x.2 = y.2 := by decide +kernel
      exact inj _ h1' _ h1 rfl
    subst this
    rw [h3] at h3'
    cases h3'; rfl
  have mk : ∀ a, AsInt a id v → id < 2 ^ 64 → v < 2 ^ 64 → Reports a m →
      ∃ a, IntMaps id v a ∧ Reports a m ∧ ∀ a', IntMaps id v a' → a' = a := by
    intro a h1 h2 h3 h4
    have := (intMaps_iff id v a).2 ⟨h1, h2, h3⟩
    exact ⟨a, this, h4, huniq a this⟩
  have toNat64 : ∀ {n : Nat}, n < 2 ^ 64 → (BitVec.ofNat 64 n).toNat = n := fun h => by
    rw [BitVec.toNat_ofNat, Nat.mod_eq_of_lt h]
  have toNat32 : ∀ {n : Nat}, n < 2 ^ 32 → (BitVec.ofNat 32 n).toNat = n := fun h => by
    rw [BitVec.toNat_ofNat, Nat.mod_eq_of_lt h]
  cases h with
  | align _ => cases hm
  | alignStack _ => cases hm
  | vScaleRange _ _ _ => cases hm
  | vScaleRangeMin _ => cases hm
  | @dereferenceable v hn =>
    have h1 := AsInt.dereferenceable (BitVec.ofNat 64 v)
    have h2 := Reports.dereferenceable (n := BitVec.ofNat 64 v)
    rw [toNat64 hn] at h1 h2
    exact mk _ h1 (by decide) hn h2
  | @dereferenceableOrNull v hn =>
    have h1 := AsInt.dereferenceableOrNull (BitVec.ofNat 64 v)
    have h2 := Reports.dereferenceableOrNull (n := BitVec.ofNat 64 v)
    rw [toNat64 hn] at h1 h2
    exact mk _ h1 (by decide) hn h2
  | @allocSizeOne e he =>
    have h1 := AsInt.allocSizeOne (BitVec.ofNat 32 e)
    have h2 := Reports.allocSizeOne (e := BitVec.ofNat 32 e)
    rw [toNat32 he] at h1 h2
    exact mk _ h1 (by decide) (by omega) h2
  | @allocSize e n he hn hne =>
    have hn' : n < 2 ^ 32 := by omega
    have h1 := AsInt.allocSize (BitVec.ofNat 32 e) (BitVec.ofNat 32 n)
    have h2 := Reports.allocSize (e := BitVec.ofNat 32 e) (n := BitVec.ofNat 32 n)
    rw [toNat32 he, toNat32 hn'] at h1 h2
    exact mk _ (h1 (by omega) (by simpa using hne)) (by decide) (by omega) h2

example : Packs (.allocSize 0 (some 1)) 51 1 := .allocSize (by decide) (by decide) (by decide)

/-- C45. Conversely, `allocsize` and the rest are reported only for values that LLVM packs so. -/
theorem C45_only_packed (m : Meaning) (id v : Nat) (a : IntAttribute) (hm : m.Faithful) (h : IntMaps id v a)
    (hr : Reports a m) : Packs m id v := by
  obtain ⟨h, h1, h2⟩ := (intMaps_iff id v a).1 h
  cases hr with
  | align => cases hm
  | alignStack => cases hm
  | vScaleRange => cases hm
  | dereferenceable => cases h; exact .dereferenceable h2
  | dereferenceableOrNull => cases h; exact .dereferenceableOrNull h2
  | @allocSizeOne e => cases h; exact .allocSizeOne e.isLt
  | @allocSize e n =>
    cases h with
    | allocSize _ _ h3 h4 =>
      have := n.isLt
      exact .allocSize e.isLt (by omega) (by simpa using h4)

/-- C45 is false for `vscale_range`: the two parameters come out in the wrong order. -/
theorem C45_vscale_swapped (min max : Nat) (h : Packs (.vScaleRange min (some max)) 74 (min * 2 ^ 32 + max)) :
    (∀ a, IntMaps 74 (min * 2 ^ 32 + max) a → Reports a (.vScaleRange max (some min))) ∧
    (∃ a, IntMaps 74 (min * 2 ^ 32 + max) a) ∧
    (min ≠ max → ∀ a, IntMaps 74 (min * 2 ^ 32 + max) a → ¬ Reports a (.vScaleRange min (some max))) := by
  generalize hv : min * 2 ^ 32 + max = v at h
  have hb : min < 2 ^ 32 ∧ max < 2 ^ 32 ∧ max ≠ 0 := by
    generalize hid : 74 = id at h
    cases h with
    | vScaleRange h1 h2 h3 => exact ⟨h1, h2, h3⟩
  obtain ⟨hmin, hmax, h0⟩ := hb
  have toNat32 : ∀ {n : Nat}, n < 2 ^ 32 → (BitVec.ofNat 32 n).toNat = n := fun h => by
    rw [BitVec.toNat_ofNat, Nat.mod_eq_of_lt h]
  have key : ∀ a, IntMaps 74 v a → ∃ x y : U32, a = .vScaleRange y x ∧ x.toNat = min ∧ y.toNat = max := by
    intro a ha
    obtain ⟨ha, -, -⟩ := (intMaps_iff _ _ a).1 ha
    generalize hid : 74 = id at ha
    cases ha with
    | vScaleRange x y h1 =>
      have := x.isLt
      have := y.isLt
      exact ⟨x, y, rfl, by omega, by omega⟩
    | vScaleRangeOne x =>
      have := x.isLt
      exact absurd hv (by omega)
    | _ => first | cases hid | (simp at hid)
  refine ⟨fun a ha => ?_, ?_, fun hne a ha hr => ?_⟩
  · obtain ⟨x, y, rfl, rfl, rfl⟩ := key a ha
    exact .vScaleRange
  · have h1 := AsInt.vScaleRange (BitVec.ofNat 32 min) (BitVec.ofNat 32 max)
    rw [toNat32 hmin, toNat32 hmax] at h1
    exact ⟨_, (intMaps_iff _ _ _).2 ⟨hv ▸ h1 h0, by decide, by omega⟩⟩
  · obtain ⟨x, y, rfl, hx, hy⟩ := key a ha
    generalize hm : Meaning.vScaleRange min (some max) = m at hr
    cases hr with
    | vScaleRange =>
      simp only [Meaning.vScaleRange.injEq, Option.some.injEq] at hm
      omega

/-- C45 is false for `vscale_range` without an upper bound: the lower bound is reported as the upper one. -/
theorem C45_vscale_unbounded (min : Nat) (h : Packs (.vScaleRange min none) 74 (min * 2 ^ 32)) :
    (∃ a, IntMaps 74 (min * 2 ^ 32) a ∧ Reports a (.vScaleRange min (some min))) ∧
    ∀ a, IntMaps 74 (min * 2 ^ 32) a → ¬ Reports a (.vScaleRange min none) := by
  have hmin : min < 2 ^ 32 := by
    generalize hv : min * 2 ^ 32 = v at h
    generalize hid : 74 = id at h
    cases h with
    | vScaleRangeMin h1 => exact h1
  have toNat32 : (BitVec.ofNat 32 min).toNat = min := by rw [BitVec.toNat_ofNat, Nat.mod_eq_of_lt hmin]
  constructor
  · have h1 := AsInt.vScaleRangeOne (BitVec.ofNat 32 min)
    have h2 := Reports.vScaleRange (min := BitVec.ofNat 32 min) (max := BitVec.ofNat 32 min)
    rw [toNat32] at h1 h2
    exact ⟨_, (intMaps_iff _ _ _).2 ⟨h1, by decide, by omega⟩, h2⟩
  · intro a ha hr
    generalize hm : Meaning.vScaleRange min none = m at hr
    cases hr <;> cases hm

/-- C45 is false for `align` and `alignstack`, of 4 bytes and more: what is reported is never the alignment (and from 128 bytes
on nothing maps). -/
theorem C45_align_wrong (k : Nat) (hk : 2 ≤ k) (h32 : k ≤ 32) :
    (∀ a, IntMaps 1 (2 ^ k) a → ¬ Reports a (.align (2 ^ k))) ∧
    (∀ a, IntMaps 25 (2 ^ k) a → ¬ Reports a (.alignStack (2 ^ k))) ∧
    (7 ≤ k → ∀ a, ¬ IntMaps 1 (2 ^ k) a ∧ ¬ IntMaps 25 (2 ^ k) a) := by
  have hpow : ∀ n : Nat, n + 2 < 2 ^ (n + 2) - 1 := by
    intro n
    induction n with
    | zero => decide
    | succ n ih =>
      have : (2 : Nat) ^ (n + 1 + 2) = 2 * 2 ^ (n + 2) := by rw [Nat.pow_succ]; omega
      omega
  have hbyte : ∀ a : Align, a.shift.toNat ≤ 63 → a.byteAlign.toNat = 2 ^ a.shift.toNat := by
    intro a ha
    unfold Align.byteAlign
    rw [BitVec.toNat_shiftLeft, Nat.shiftLeft_eq]
    have : (2 : Nat) ^ a.shift.toNat < 2 ^ 64 := Nat.pow_lt_pow_right (by decide) (by omega)
    simp only [BitVec.ofNat_eq_ofNat, BitVec.toNat_ofNat]
    omega
  have key : ∀ a : Align, a.shift.toNat ≤ 63 → 2 ^ k = a.shift.toNat + 1 → a.byteAlign.toNat ≠ 2 ^ k := by
    intro a ha h1 h2
    rw [hbyte a ha] at h2
    have := (Nat.pow_right_inj (by decide : 1 < 2)).1 h2
    obtain ⟨n, rfl⟩ : ∃ n, k = n + 2 := ⟨k - 2, by omega⟩
    have := hpow n
    omega
  refine ⟨fun a ha hr => ?_, fun a ha hr => ?_, fun h7 a => ?_⟩
  · obtain ⟨ha, -, -⟩ := (intMaps_iff _ _ a).1 ha
    generalize hm : Meaning.align (2 ^ k) = m at hr
    generalize hv : 2 ^ k = v at ha
    cases hr with
    | align =>
      cases ha with
      | align hs => exact key _ hs hv (Meaning.align.inj hm).symm
    | _ => cases hm
  · obtain ⟨ha, -, -⟩ := (intMaps_iff _ _ a).1 ha
    generalize hm : Meaning.alignStack (2 ^ k) = m at hr
    generalize hv : 2 ^ k = v at ha
    cases hr with
    | alignStack =>
      cases ha with
      | stackAlign hs => exact key _ hs hv (Meaning.alignStack.inj hm).symm
    | _ => cases hm
  · have h128 : 2 ^ 7 ≤ 2 ^ k := Nat.pow_le_pow_right (by decide) h7
    constructor <;> intro ha <;> obtain ⟨ha, -, -⟩ := (intMaps_iff _ _ a).1 ha
    · generalize hid : 1 = id at ha
      generalize hv : 2 ^ k = v at ha
      cases ha <;> first | omega | (simp at hid)
    · generalize hid : 25 = id at ha
      generalize hv : 2 ^ k = v at ha
      cases ha <;> first | omega | (simp at hid)

/-- C45: `align 8` comes out as an alignment of 128 bytes. -/
theorem C45_align_8 : IntMaps 1 8 (.alignment ⟨some ⟨7⟩⟩) ∧ (Align.mk 7).byteAlign = 128 :=
  ⟨(intMaps_iff _ _ _).2 ⟨.align (a := ⟨7⟩) (by decide), by decide, by decide⟩, by decide⟩

/-- C45, for alignments of 1 and 2 bytes: these are right. -/
theorem C45_align_small : (∃ a, IntMaps 1 1 a ∧ Reports a (.align 1)) ∧ (∃ a, IntMaps 1 2 a ∧ Reports a (.align 2)) :=
  ⟨⟨_, (intMaps_iff _ _ _).2 ⟨.align (a := ⟨0⟩) (by decide), by decide, by decide⟩, .align (a := ⟨0⟩)⟩,
   ⟨_, (intMaps_iff _ _ _).2 ⟨.align (a := ⟨1⟩) (by decide), by decide, by decide⟩, .align (a := ⟨1⟩)⟩⟩

/-! ## C46 -/

theorem attrsStep_ok (g : AttributeGroups) (r : BRecord) (e : AttributeEntry) :
    attrsStep g r = .ok e ↔ r.code = 2 ∧ e.length = r.fields.length ∧
      ∀ (j : Nat) (f : U64) (x : AttributeGroup), r.fields[j]? = some f → e[j]? = some x →
        g.get (BitVec.ofNat 32 f.toNat) = some x := by
  have hget : ∀ (f : U64) x, groupRef g f = .ok x ↔ g.get (BitVec.ofNat 32 f.toNat) = some x := by
    intro f x
    rw [show BitVec.ofNat 32 f.toNat = f.setWidth 32 from BitVec.eq_of_toNat_eq (by simp)]
    unfold groupRef
    cases g.get (f.setWidth 32) <;> simp
  unfold attrsStep
  rw [bindOfOption]
  constructor
  · rintro ⟨c, hc, h⟩
    cases c with
    | entryOld => cases h
    | groupCodeEntry => cases h
    | entry =>
      obtain ⟨h1, h2⟩ := (mapOut_eq_ok _ _ _).1 h
      exact ⟨(tryFromPrimitive_iff.1 hc).symm, h1, fun j f x hf hx => (hget f x).1 (h2 j f x hf hx)⟩
  · rintro ⟨hc, h1, h2⟩
    exact ⟨.entry, attributeCode_eq hc, (mapOut_eq_ok _ _ _).2 ⟨h1, fun j f x hf hx => (hget f x).2 (h2 j f x hf hx)⟩⟩

/-- C46. A block of attribute lists maps to `as` exactly if all its records are lists, and the `j`th group of the `i`th entry
is the group with the id in the `j`th field of the `i`th record, taken modulo `2^32`. -/
theorem C46_lists (b : UBlock) (g : AttributeGroups) (as : Attributes) :
    Attributes.tryFrom b g = .ok as ↔ as.length = b.records.length ∧
      ∀ (i : Nat) (r : BRecord) (e : AttributeEntry), b.records[i]? = some r → as[i]? = some e →
        r.code = 2 ∧ e.length = r.fields.length ∧
        ∀ (j : Nat) (f : U64) (x : AttributeGroup), r.fields[j]? = some f → e[j]? = some x →
          g.get (BitVec.ofNat 32 f.toNat) = some x := by
  unfold Attributes.tryFrom
  rw [mapOut_eq_ok]
  simp only [attrsStep_ok]

theorem Spec.GroupsSay.sorted {rs : List BRecord} {g : AttributeGroups} (h : GroupsSay rs g) : Sorted g := by
  obtain ⟨-, -, h, -⟩ := h; exact h

/-- C46. The same by the entries of the map of groups. -/
theorem C46_exact (b : UBlock) (g : AttributeGroups) (hg : Sorted g) (as : Attributes) :
    Attributes.tryFrom b g = .ok as ↔ ListsSay g b.records as := by
  rw [C46_lists]
  unfold ListsSay
  have key : ∀ (f : U64) (x : AttributeGroup), g.get (BitVec.ofNat 32 f.toNat) = some x ↔
      ∃ id : U32, id.toNat = f.toNat % 2 ^ 32 ∧ (id, x) ∈ g := by
    intro f x
    rw [get_iff hg]
    constructor
    · exact fun h => ⟨_, by rw [BitVec.toNat_ofNat], h⟩
    · rintro ⟨id, h1, h2⟩
      rw [show BitVec.ofNat 32 f.toNat = id from BitVec.eq_of_toNat_eq (by rw [BitVec.toNat_ofNat, h1])]
      exact h2
  simp only [key]

/-- C46. A reference to a group that is not defined, after references and lists that are fine, is reported as such. -/
theorem C46_undefined (b : UBlock) (g : AttributeGroups) (pre post : List BRecord) (r : BRecord) (fs gs : List U64) (f : U64)
    (hb : b.records = pre ++ r :: post) (hr : r.code = 2) (hf : r.fields = fs ++ f :: gs)
    (hpre : ∀ x ∈ pre, x.code = 2 ∧ ∀ y ∈ x.fields, (g.get (BitVec.ofNat 32 y.toNat)).isSome)
    (hfs : ∀ y ∈ fs, (g.get (BitVec.ofNat 32 y.toNat)).isSome) (hbad : g.get (BitVec.ofNat 32 f.toNat) = none) :
    Attributes.tryFrom b g = .err (.badAttributeGroup (BitVec.ofNat 32 f.toNat)) := by
  have hw : ∀ y : U64, BitVec.ofNat 32 y.toNat = y.setWidth 32 := fun y => BitVec.eq_of_toNat_eq (by simp)
  have hok : ∀ ys : List U64, (∀ y ∈ ys, (g.get (BitVec.ofNat 32 y.toNat)).isSome) → ∃ m, mapOut (groupRef g) ys = .ok m := by
    intro ys
    induction ys with
    | nil => intro _; exact ⟨[], rfl⟩
    | cons y ys ih =>
      intro h
      obtain ⟨m, hm⟩ := ih fun z hz => h z (by simp [hz])
      obtain ⟨x, hx⟩ := Option.isSome_iff_exists.1 (h y (by simp))
      rw [hw] at hx
      exact ⟨x :: m, by rw [mapOut, groupRef, hx, Out.ofOption_some, Out.ok_bind, hm]; rfl⟩
  unfold Attributes.tryFrom
  rw [mapOut_eq_err]
  refine ⟨pre, r, post, hb, ?_, ?_⟩
  · clear hb
    induction pre with
    | nil => exact ⟨[], rfl⟩
    | cons x pre ih =>
      obtain ⟨m, hm⟩ := ih fun z hz => hpre z (by simp [hz])
      obtain ⟨hc, hx⟩ := hpre x (by simp)
      obtain ⟨e, he⟩ := hok _ hx
      refine ⟨e :: m, ?_⟩
      rw [mapOut, attrsStep, attributeCode_eq (c := .entry) hc, Out.ofOption_some, Out.ok_bind]
      dsimp only
      rw [he, Out.ok_bind, hm]; rfl
  · rw [attrsStep, attributeCode_eq (c := .entry) hr, Out.ofOption_some, Out.ok_bind]
    dsimp only
    rw [mapOut_eq_err]
    refine ⟨fs, f, gs, hf, hok fs hfs, ?_⟩
    unfold groupRef
    rw [← hw, hbad]; rfl

/-- C46. No undefined group is ever accepted. -/
theorem C46_undefined_never (b : UBlock) (g : AttributeGroups) (r : BRecord) (hr : r ∈ b.records) (f : U64)
    (hf : f ∈ r.fields) (hbad : g.get (BitVec.ofNat 32 f.toNat) = none) (as : Attributes) : Attributes.tryFrom b g ≠ .ok as := by
  intro h
  obtain ⟨h1, h2⟩ := (C46_lists b g as).1 h
  obtain ⟨i, hi⟩ := List.getElem?_of_mem hr
  have hlt : i < as.length := by rw [h1]; exact (List.getElem?_eq_some_iff.1 hi).1
  obtain ⟨-, h3, h4⟩ := h2 i r _ hi (List.getElem?_eq_getElem hlt)
  obtain ⟨j, hj⟩ := List.getElem?_of_mem hf
  have hlt' : j < as[i].length := by rw [h3]; exact (List.getElem?_eq_some_iff.1 hj).1
  have := h4 j f _ hj (List.getElem?_eq_getElem hlt')
  rw [hbad] at this
  cases this

/-- C46 is false for ids of `2^32` and more: a reference to group `2^32 + 1` is taken for one to group 1. -/
theorem C46_large_id (x : AttributeGroup) :
    Attributes.tryFrom (UBlock.mk (.ir .paramAttr) [⟨none, 2, [0x100000001]⟩] []) [(1, x)] = .ok [[x]] := by rfl

example : Attributes.tryFrom (UBlock.mk (.ir .paramAttr) [⟨none, 2, [1, 2]⟩, ⟨none, 2, [3]⟩] [])
    [(1, ⟨.return, []⟩), (2, ⟨.function, []⟩)] = .err (.badAttributeGroup 3) := by decide +kernel

end Verif
