import Verif.Mapper.ErrorSpec
import Verif.Props.Types
import Verif.Props.TypeTables

/-! C53: what the errors about type tables mean. -/

namespace Verif
open Spec

/-! ## Texts and bytes -/

theorem areBytes_of {fs : List U64} (h : ∀ f ∈ fs, f.toNat < 256) : ∃ bs, AreBytes fs bs := by
  refine ⟨fs.map (·.setWidth 8), ?_⟩
  rw [AreBytes, List.map_map]
  conv => lhs; rw [← List.map_id fs]
  refine List.map_congr_left fun f hf => BitVec.eq_of_toNat_eq ?_
  simp only [id_eq, Function.comp_apply, BitVec.toNat_setWidth]
  have := h f hf
  omega

/-- C53. The error that is reported for a text is its fault. -/
theorem string_err (pf : Profile) {r : BRecord} {e : RecordStringError} : r.tryString pf 0 = .err e ↔ TextFault r e := by
  by_cases hne : r.fields = []
  · have hno : ¬ TextFault r e := by
      intro h
      cases e with
      | badIndex i n => obtain ⟨-, -, h⟩ := h; rw [hne] at h; cases h
      | badCharacter => obtain ⟨-, f, hf, -⟩ := h; rw [hne] at hf; cases hf
      | badEncoding =>
        obtain ⟨-, bs, hb, hs⟩ := h
        rw [AreBytes, hne] at hb
        exact hs [] (by rw [List.map_eq_nil_iff.1 hb.symm]; rfl)
    simp only [hno, iff_false]
    cases pf with
    | debug => rw [(C31_empty_record r hne 0).1]; intro h; cases h
    | release => rw [((C31_empty_record r hne 0).2.2.1 rfl).1]; intro h; cases h
  · obtain ⟨h1, h2, h3⟩ := C31_errors pf r 0 hne
    have hl : r.fields.length ≠ 0 := by simpa using hne
    have h0 : (0 : U64).toNat = 0 := rfl
    rw [h0] at h1 h2 h3
    simp only [List.drop_zero] at h2 h3
    constructor
    · intro h
      by_cases hl1 : r.fields.length < 2
      · rw [(h1 hl1).1] at h
        cases h
        exact ⟨rfl, by omega, by omega⟩
      · by_cases hb : ∃ f ∈ r.fields, 256 ≤ f.toNat
        · rw [(h2 (by omega) hb).1] at h
          cases h
          exact ⟨by omega, hb⟩
        · obtain ⟨bs, hbs⟩ := areBytes_of (fs := r.fields) fun f hf => Nat.lt_of_not_le fun hc => hb ⟨f, hf, hc⟩
          by_cases hs : ∃ s, utf8 s = bs
          · obtain ⟨s, hs⟩ := hs
            rw [(string_zero_iff pf r s).2 ⟨by rw [hs]; exact hbs, by omega, fun hc => absurd hc hne⟩] at h
            cases h
          · have hs : ∀ s, utf8 s ≠ bs := fun s hc => hs ⟨s, hc⟩
            rw [h3 bs (by omega) hbs hs] at h
            cases h
            exact ⟨by omega, bs, hbs, hs⟩
    · intro h
      cases e with
      | badIndex i n =>
        obtain ⟨rfl, rfl, h⟩ := h
        rw [(h1 (by omega)).1, h]
      | badCharacter => exact (h2 (by have := h.1; omega) h.2).1
      | badEncoding =>
        obtain ⟨h, bs, hb, hs⟩ := h
        exact h3 bs (by omega) hb hs

theorem blob_err (pf : Profile) {r : BRecord} {e : RecordBlobError} : r.tryBlob pf 0 = .err e ↔ BlobFault r e := by
  by_cases hne : r.fields = []
  · have hno : ¬ BlobFault r e := by
      intro h
      cases e with
      | badIndex i n => obtain ⟨-, -, h⟩ := h; rw [hne] at h; cases h
      | badByte => obtain ⟨-, f, hf, -⟩ := h; rw [hne] at hf; cases hf
    simp only [hno, iff_false]
    cases pf with
    | debug => rw [(C31_empty_record r hne 0).2.1]; intro h; cases h
    | release => rw [((C31_empty_record r hne 0).2.2.1 rfl).2]; intro h; cases h
  · obtain ⟨h1, h2, h3⟩ := C31_errors pf r 0 hne
    have hl : r.fields.length ≠ 0 := by simpa using hne
    have h0 : (0 : U64).toNat = 0 := rfl
    rw [h0] at h1 h2
    simp only [List.drop_zero] at h2
    constructor
    · intro h
      by_cases hl1 : r.fields.length < 2
      · rw [(h1 hl1).2] at h
        cases h
        exact ⟨rfl, by omega, by omega⟩
      · by_cases hb : ∃ f ∈ r.fields, 256 ≤ f.toNat
        · rw [(h2 (by omega) hb).2] at h
          cases h
          exact ⟨by omega, hb⟩
        · obtain ⟨bs, hbs⟩ := areBytes_of (fs := r.fields) fun f hf => Nat.lt_of_not_le fun hc => hb ⟨f, hf, hc⟩
          rw [(blob_zero_iff pf r bs).2 ⟨hbs, by omega, fun hc => absurd hc hne⟩] at h
          cases h
    · intro h
      cases e with
      | badIndex i n =>
        obtain ⟨rfl, rfl, h⟩ := h
        rw [(h1 (by omega)).2, h]
      | badByte => exact (h2 (by have := h.1; omega) h.2).2

/-! ## Resolution -/

/-- A type from the types of its parts, in order. -/
def PType.build : PType → List Ty → Out Ty.Error Ty
  | prim p, _ => .ok (.prim p)
  | integer w, _ => Ty.newInteger w
  | function _ _ v, r :: ps => Ty.newFunction r ps v
  | pointer _ a, t :: _ => Ty.newPointer t a
  | opaquePointer a, _ => .ok (.opaquePointer a)
  | struct n _ q, fs => Ty.newStruct n fs q
  | array n _, t :: _ => Ty.newArray n t
  | fixedVector n _, t :: _ => Ty.newVector n t
  | scalableVector n _, t :: _ => Ty.newScalableVector n t
  | _, [] => .err .integerBadWidth

/-- First the references are followed, in order. Then the type is built. -/
theorem resolve_eq (f : TypeRef → Out TypeTableError Ty) (p : PType) :
    p.resolve f = (mapOut f p.refs >>= fun ts => (p.build ts).mapErr .invalidType) := by
  have single : ∀ (r : TypeRef) (g : List Ty → Out TypeTableError Ty), (mapOut f [r] >>= g) = (f r >>= fun t => g [t]) := by
    intro r g
    simp only [mapOut, Out.ok_bind, bind_assoc]
  cases p with
  | function r ps v => simp only [PType.resolve, PType.refs, mapOut, bind_assoc, Out.ok_bind, PType.build]
  | struct n fs q => rfl
  | prim p => rfl
  | integer w => rfl
  | opaquePointer a => rfl
  | _ => rw [PType.refs, single]; rfl

theorem build_returns (p : PType) (ts : List Ty) : (p.build ts).Returns := by
  cases p <;> cases ts <;>
    first
    | trivial
    | apply newInteger_returns
    | apply newFunction_returns
    | apply newPointer_returns
    | apply newStruct_returns
    | apply newArray_returns
    | apply newVector_returns
    | apply newScalableVector_returns

theorem DenoteAll.nil_iff {ds : List TyDecl} {ts : List Ty} : DenoteAll ds [] ts ↔ ts = [] := by
  refine ⟨fun h => List.length_eq_zero_iff.1 (by simpa using h.1), ?_⟩
  rintro rfl
  exact ⟨rfl, by simp⟩

theorem DenoteAll.cons_iff {ds : List TyDecl} {j : Nat} {l : List Nat} {ts : List Ty} :
    DenoteAll ds (j :: l) ts ↔ ∃ t us, ts = t :: us ∧ Denotes ds j t ∧ DenoteAll ds l us := by
  constructor
  · rintro ⟨hl, h⟩
    cases ts with
    | nil => simp at hl
    | cons t us =>
      exact ⟨t, us, rfl, h 0 j t rfl rfl, by simpa using hl, fun k i u hi hu => h (k + 1) i u (by simpa using hi) (by simpa using hu)⟩
  · rintro ⟨t, us, rfl, h, hl, h'⟩
    refine ⟨by simpa using hl, fun k i u hi hu => ?_⟩
    cases k with
    | zero => cases hi; cases hu; exact h
    | succ k => exact h' k i u (by simpa using hi) (by simpa using hu)

theorem DenoteAll.append_iff {ds : List TyDecl} {l l' : List Nat} {ts : List Ty} :
    DenoteAll ds (l ++ l') ts ↔ ∃ us us', ts = us ++ us' ∧ DenoteAll ds l us ∧ DenoteAll ds l' us' := by
  induction l generalizing ts with
  | nil =>
    constructor
    · intro h; exact ⟨[], ts, rfl, DenoteAll.nil_iff.2 rfl, h⟩
    · rintro ⟨us, us', rfl, h, h'⟩
      rw [DenoteAll.nil_iff.1 h]; exact h'
  | cons j l ih =>
    simp only [List.cons_append, DenoteAll.cons_iff, ih]
    constructor
    · rintro ⟨t, _, rfl, h, us, us', rfl, h1, h2⟩
      exact ⟨t :: us, us', rfl, ⟨t, us, rfl, h, h1⟩, h2⟩
    · rintro ⟨_, us', rfl, ⟨t, us, rfl, h, h1⟩, h2⟩
      exact ⟨t, us ++ us', rfl, h, us, us', rfl, h1, h2⟩

/-- The other way round: a part of the types belongs to a part of the references. -/
theorem DenoteAll.split {ds : List TyDecl} {l : List Nat} {pre post : List Ty} {t : Ty} (h : DenoteAll ds l (pre ++ t :: post)) :
    ∃ lp j lq, l = lp ++ j :: lq ∧ DenoteAll ds lp pre ∧ Denotes ds j t := by
  induction pre generalizing l with
  | nil =>
    cases l with
    | nil => simp [DenoteAll.nil_iff] at h
    | cons j l =>
      obtain ⟨u, us, he, h1, -⟩ := DenoteAll.cons_iff.1 h
      obtain ⟨rfl, -⟩ := List.cons.inj he
      exact ⟨[], j, l, rfl, DenoteAll.nil_iff.2 rfl, h1⟩
  | cons x pre ih =>
    cases l with
    | nil => simp [DenoteAll.nil_iff] at h
    | cons i l =>
      obtain ⟨u, us, he, h1, h2⟩ := DenoteAll.cons_iff.1 h
      obtain ⟨rfl, rfl⟩ := List.cons.inj he
      obtain ⟨lp, j, lq, rfl, h3, h4⟩ := ih h2
      exact ⟨i :: lp, j, lq, rfl, DenoteAll.cons_iff.2 ⟨_, _, rfl, h1, h3⟩, h4⟩

/-- What a part of the references stands for keeps a rule if the parts of the types do. -/
theorem DenoteAll.forall_iff {ds : List TyDecl} {l : List Nat} {ts : List Ty} (h : DenoteAll ds l ts) {P : Ty → Prop} :
    (∀ t ∈ ts, P t) ↔ ∀ k ∈ l, ∃ u, Denotes ds k u ∧ P u := by
  induction l generalizing ts with
  | nil => rw [DenoteAll.nil_iff.1 h]; simp
  | cons j l ih =>
    obtain ⟨t, us, rfl, h1, h2⟩ := DenoteAll.cons_iff.1 h
    simp only [List.forall_mem_cons, ih h2]
    refine and_congr_left fun _ => ⟨fun h => ⟨t, h1, h⟩, ?_⟩
    rintro ⟨u, hu, hp⟩
    rw [h1.unique hu]; exact hp

/-- Finding the first part that breaks a rule. -/
theorem DenoteAll.find_iff {ds : List TyDecl} {l : List Nat} {ts : List Ty} (h : DenoteAll ds l ts) {p : Ty → Bool} {P : Ty → Prop}
    (hp : ∀ t, p t = true ↔ P t) {bad : Ty} : ts.find? (fun t => !p t) = some bad ↔
      ∃ pre j post, l = pre ++ j :: post ∧ (∀ k ∈ pre, ∃ u, Denotes ds k u ∧ P u) ∧ Denotes ds j bad ∧ ¬ P bad := by
  rw [List.find?_eq_some_iff_append]
  constructor
  · rintro ⟨hb, us, us', rfl, hu⟩
    obtain ⟨pre, j, post, rfl, h1, h2⟩ := h.split
    refine ⟨pre, j, post, rfl, h1.forall_iff.1 fun t ht => (hp t).1 ?_, h2, fun hc => ?_⟩
    · simpa using hu t ht
    · rw [(hp bad).2 hc] at hb; cases hb
  · rintro ⟨pre, j, post, rfl, h1, h2, h3⟩
    obtain ⟨us, us', rfl, h4, h5⟩ := DenoteAll.append_iff.1 h
    obtain ⟨t, us', rfl, h6, h7⟩ := DenoteAll.cons_iff.1 h5
    obtain rfl := h6.unique h2
    refine ⟨?_, us, us', rfl, fun x hx => ?_⟩
    · cases hc : p t with
      | true => exact absurd ((hp t).1 hc) h3
      | false => rfl
    · rw [(hp x).2 (h4.forall_iff.2 h1 x hx)]; rfl

theorem newInteger_err {w : U32} {e : Ty.Error} :
    Ty.newInteger w = .err e ↔ e = .integerBadWidth ∧ (w.toNat = 0 ∨ 2 ^ 24 ≤ w.toNat) := by
  have h1 : (Ty.minIntBits ≤ w) ↔ 1 ≤ w.toNat := by rw [BitVec.le_def]; rfl
  have h2 : (w ≤ Ty.maxIntBits) ↔ w.toNat ≤ 2 ^ 24 - 1 := by rw [BitVec.le_def]; rfl
  unfold Ty.newInteger
  simp only [h1, h2]
  split
  · simp only [reduceCtorEq, false_iff, not_and]; omega
  · simp only [Out.err.injEq, eq_comm (a := e)]
    exact ⟨fun h => ⟨h, by omega⟩, fun h => h.1⟩

theorem ite_err_iff {α ε : Type} {p : Bool} {P : Prop} {a : α} {x e : ε} (hp : p = true ↔ P) :
    (if p = true then Out.ok a else Out.err x) = Out.err e ↔ e = x ∧ ¬ P := by
  by_cases h : P
  · simp [hp.2 h, h]
  · rw [if_neg fun hc => h (hp.1 hc)]
    simp only [Out.err.injEq, h, not_false_iff, and_true]
    exact eq_comm

/-- Building a type fails exactly if the rules are broken, with the error that says how. -/
theorem build_err {ds : List TyDecl} {p : PType} {ts : List Ty} (h : DenoteAll ds p.toDecl.refs ts) {e : Ty.Error} :
    p.build ts = .err e ↔ EntryFault ds p.toDecl e := by
  have single : ∀ {j : Nat}, DenoteAll ds [j] ts → ∃ t, ts = [t] ∧ Denotes ds j t := by
    intro j h
    obtain ⟨t, us, rfl, h1, h2⟩ := DenoteAll.cons_iff.1 h
    rw [DenoteAll.nil_iff.1 h2]
    exact ⟨t, rfl, h1⟩
  cases p with
  | prim p => constructor <;> intro h <;> cases h
  | opaquePointer a => constructor <;> intro h <;> cases h
  | integer w =>
    simp only [PType.build, newInteger_err, PType.toDecl]
    constructor
    · rintro ⟨rfl, h⟩; exact .width h
    · intro h; cases h with
      | width h => exact ⟨rfl, h⟩
  | function r ps v =>
    obtain ⟨t, us, rfl, h1, h2⟩ := DenoteAll.cons_iff.1 h
    simp only [PType.build, Ty.newFunction, PType.toDecl]
    by_cases hr : OkReturn t
    · rw [(isReturn_iff t).2 hr]
      simp only [Bool.not_true, Bool.false_eq_true, if_false]
      constructor
      · intro h
        split at h
        · next bad hb =>
          cases h
          obtain ⟨pre, j, post, he, h3, h4, h5⟩ := (h2.find_iff isArgument_iff).1 hb
          rw [he]
          exact .parameter h1 hr h3 h4 h5
        · cases h
      · intro h
        generalize hl : List.map (fun x : TypeRef => x.toNat) ps = l at h h2
        cases h with
        | returns h h' => rw [h.unique h1] at h'; exact absurd hr h'
        | parameter h3 h4 h5 h6 h7 => rw [(h2.find_iff isArgument_iff).2 ⟨_, _, _, rfl, h5, h6, h7⟩]
    · rw [show t.isReturn = false by cases hc : t.isReturn; rfl; exact absurd ((isReturn_iff t).1 hc) hr]
      simp only [Bool.not_false, if_true, Out.err.injEq]
      constructor
      · rintro rfl; exact .returns h1 hr
      · intro h
        generalize List.map (fun x : TypeRef => x.toNat) ps = l at h
        cases h with
        | returns h h' => rw [h.unique h1]
        | parameter h3 h4 => rw [h3.unique h1] at h4; exact absurd h4 hr
  | pointer q a =>
    obtain ⟨t, rfl, h1⟩ := single h
    simp only [PType.build, Ty.newPointer, PType.toDecl, ite_err_iff (isPointee_iff t)]
    constructor
    · rintro ⟨rfl, h⟩; exact .pointee h1 h
    · intro h; cases h with
      | pointee h h' => rw [h.unique h1] at h' ⊢; exact ⟨rfl, h'⟩
  | struct nm fs q =>
    simp only [PType.build, Ty.newStruct, PType.toDecl]
    constructor
    · intro h'
      split at h'
      · next bad hb =>
        cases h'
        obtain ⟨pre, j, post, he, h3, h4, h5⟩ := (DenoteAll.find_iff (l := fs.map (·.toNat)) h isStructElement_iff).1 hb
        rw [he]
        exact .member h3 h4 h5
      · cases h'
    · intro h'
      have h : DenoteAll ds (fs.map (·.toNat)) ts := h
      generalize List.map (fun x : TypeRef => x.toNat) fs = l at h h'
      cases h' with
      | member h5 h6 h7 => rw [(h.find_iff isStructElement_iff).2 ⟨_, _, _, rfl, h5, h6, h7⟩]
  | array n q =>
    obtain ⟨t, rfl, h1⟩ := single h
    simp only [PType.build, Ty.newArray, PType.toDecl, ite_err_iff (isArrayElement_iff t)]
    constructor
    · rintro ⟨rfl, h⟩; exact .element h1 h
    · intro h; cases h with
      | element h h' => rw [h.unique h1] at h' ⊢; exact ⟨rfl, h'⟩
  | fixedVector n q =>
    obtain ⟨t, rfl, h1⟩ := single h
    simp only [PType.build, Ty.newVector, PType.toDecl, ite_err_iff (isVectorElement_iff t)]
    constructor
    · rintro ⟨rfl, h⟩; exact .lane h1 h
    · intro h; cases h with
      | lane h h' => rw [h.unique h1] at h' ⊢; exact ⟨rfl, h'⟩
  | scalableVector n q =>
    obtain ⟨t, rfl, h1⟩ := single h
    simp only [PType.build, Ty.newScalableVector, PType.toDecl, ite_err_iff (isVectorElement_iff t)]
    constructor
    · rintro ⟨rfl, h⟩; exact .lane h1 h
    · intro h; cases h with
      | lane h h' => rw [h.unique h1] at h' ⊢; exact ⟨rfl, h'⟩

variable {table : List PType}

/-- Following a reference as `reify` does. -/
abbrev follow (table : List PType) : TypeRef → Out TypeTableError Ty := resolveRef table (table.length + 1)

theorem follow_eq (r : TypeRef) : follow table r =
    match table[r.toNat]? with
    | some p => p.resolve (follow table)
    | none => .err (.badIndex r.toNat) := by
  show resolveRef table (table.length + 1) r = _
  rw [← resolveRef_stable table 1 r, resolveRef]
  rfl

theorem follow_ok {r : TypeRef} {t : Ty} :
    follow table r = .ok t ↔ Denotes (table.map PType.toDecl) r.toNat t ∧ Valid t := by
  constructor
  · exact resolveRef_sound _ r t
  · rintro ⟨h1, h2⟩
    show resolveRef table (table.length + 1) r = _
    rw [← resolveRef_stable table (sizeOf t) r, show table.length + 1 + sizeOf t = (table.length + sizeOf t) + 1 by omega]
    exact resolveRef_complete _ r t (by omega) h1 h2

theorem follow_sound {r : TypeRef} : (∃ t, follow table r = .ok t) ↔ Sound (table.map PType.toDecl) r.toNat :=
  exists_congr fun _ => follow_ok

theorem resolve_ok {i : Nat} {p : PType} (hp : table[i]? = some p) {t : Ty} :
    p.resolve (follow table) = .ok t ↔ Denotes (table.map PType.toDecl) i t ∧ Valid t := by
  constructor
  · intro h
    exact resolve_sound (fun r t h => follow_ok.1 h) h (by rw [List.getElem?_map, hp]; rfl)
  · rintro ⟨h1, h2⟩
    exact resolve_complete (n := sizeOf t) (fun r t' _ hd hv => follow_ok.2 ⟨hd, hv⟩) hp (Nat.le_refl _) h1 h2

theorem mapOut_exists {ε α β : Type} {f : α → Out ε β} {l : List α} : (∃ m, mapOut f l = .ok m) ↔ ∀ a ∈ l, ∃ b, f a = .ok b := by
  induction l with
  | nil => simp [mapOut]
  | cons a l ih =>
    simp only [mapOut, Out.bind_eq_ok, List.forall_mem_cons, ← ih, Out.ok.injEq]
    constructor
    · rintro ⟨m, b, hb, bs, hbs, rfl⟩; exact ⟨⟨b, hb⟩, bs, hbs⟩
    · rintro ⟨⟨b, hb⟩, bs, hbs⟩; exact ⟨_, b, hb, bs, hbs, rfl⟩

theorem denoteAll_of {f : TypeRef → Out TypeTableError Ty} {ds : List TyDecl} (hok : ∀ r t, f r = .ok t → Denotes ds r.toNat t)
    {p : PType} {ts : List Ty} (h : mapOut f p.refs = .ok ts) : DenoteAll ds p.toDecl.refs ts := by
  obtain ⟨hl, hk⟩ := (mapOut_eq_ok ..).1 h
  rw [PType.toDecl_refs]
  refine ⟨by simpa using hl, fun k j t hj ht => ?_⟩
  rw [List.getElem?_map, Option.map_eq_some_iff] at hj
  obtain ⟨r, hr, rfl⟩ := hj
  exact hok r t (hk k r t hr ht)

/-- Why following the references of an entry and building its type fails. -/
theorem resolve_err {f : TypeRef → Out TypeTableError Ty} {ds : List TyDecl} (hok : ∀ r t, f r = .ok t → Denotes ds r.toNat t)
    {p : PType} {e : TypeTableError} : p.resolve f = .err e ↔
      (∃ pre a post, p.refs = pre ++ a :: post ∧ (∀ x ∈ pre, ∃ t, f x = .ok t) ∧ f a = .err e) ∨
      ((∀ x ∈ p.refs, ∃ t, f x = .ok t) ∧ ∃ e', e = .invalidType e' ∧ EntryFault ds p.toDecl e') := by
  rw [resolve_eq, bind_eq_err, mapOut_eq_err]
  simp only [mapOut_exists]
  refine or_congr_right ?_
  rw [← mapOut_exists]
  constructor
  · rintro ⟨ts, hts, h⟩
    rw [mapErr_eq_err] at h
    obtain ⟨e', h, rfl⟩ := h
    exact ⟨⟨ts, hts⟩, e', rfl, (build_err (denoteAll_of hok hts)).1 h⟩
  · rintro ⟨⟨ts, hts⟩, e', rfl, h⟩
    exact ⟨ts, hts, (mapErr_eq_err ..).2 ⟨e', (build_err (denoteAll_of hok hts)).2 h, rfl⟩⟩

theorem rejected_of_resolve {f : TypeRef → Out TypeTableError Ty}
    (hok : ∀ r t, f r = .ok t → Denotes (table.map PType.toDecl) r.toNat t ∧ Valid t)
    (herr : ∀ r e, f r = .err e → Rejected (table.map PType.toDecl) r.toNat e) {i : Nat} {p : PType} (hp : table[i]? = some p)
    {e : TypeTableError} (h : p.resolve f = .err e) : Rejected (table.map PType.toDecl) i e := by
  have hd : (table.map PType.toDecl)[i]? = some p.toDecl := by rw [List.getElem?_map, hp]; rfl
  have hs : ∀ l : List TypeRef, (∀ x ∈ l, ∃ t, f x = .ok t) → ∀ k ∈ l.map (·.toNat), Sound (table.map PType.toDecl) k := by
    intro l hl k hk
    obtain ⟨x, hx, rfl⟩ := List.mem_map.1 hk
    obtain ⟨t, ht⟩ := hl x hx
    exact ⟨t, hok x t ht⟩
  rcases (resolve_err fun r t h => (hok r t h).1).1 h with ⟨pre, a, post, he, hpre, ha⟩ | ⟨hall, e', rfl, hf⟩
  · exact .within hd (by rw [PType.toDecl_refs, he, List.map_append, List.map_cons]) (hs pre hpre) (herr a e ha)
  · exact .entry hd (by rw [PType.toDecl_refs]; exact hs _ hall) hf

theorem resolveRef_err (n : Nat) (r : TypeRef) (e : TypeTableError) (h : resolveRef table n r = .err e) :
    Rejected (table.map PType.toDecl) r.toNat e := by
  induction n generalizing r e with
  | zero => cases h
  | succ n ih =>
    rw [resolveRef] at h
    split at h
    · next p hp => exact rejected_of_resolve (fun r t ht => resolveRef_sound n r t ht) ih hp h
    · next hp => cases h; exact .index (by simpa using hp)

theorem Spec.Rejected.follow {i : Nat} {e : TypeTableError} (h : Rejected (table.map PType.toDecl) i e) :
    (∀ r : TypeRef, r.toNat = i → follow table r = .err e) ∧ ∀ p, table[i]? = some p → p.resolve (follow table) = .err e := by
  have up : ∀ {i e}, (∃ d, (table.map PType.toDecl)[i]? = some d) → (∀ p, table[i]? = some p → p.resolve (Verif.follow table) = .err e) →
      (∀ r : TypeRef, r.toNat = i → Verif.follow table r = .err e) ∧ ∀ p, table[i]? = some p → p.resolve (Verif.follow table) = .err e := by
    rintro i e ⟨d, hd⟩ h
    refine ⟨?_, h⟩
    rintro r rfl
    rw [List.getElem?_map, Option.map_eq_some_iff] at hd
    obtain ⟨p, hp, -⟩ := hd
    rw [follow_eq, hp]
    exact h p hp
  have hs : ∀ l : List TypeRef, (∀ k ∈ l.map (·.toNat), Sound (table.map PType.toDecl) k) → ∀ x ∈ l, ∃ t, Verif.follow table x = .ok t :=
    fun l hl x hx => follow_sound.2 (hl _ (List.mem_map_of_mem hx))
  have hdecl : ∀ {i : Nat} {d : TyDecl} {p : PType}, (table.map PType.toDecl)[i]? = some d → table[i]? = some p → d = p.toDecl := by
    intro i d p hd hp
    rw [List.getElem?_map, hp] at hd
    exact (Option.some.inj hd).symm
  induction h with
  | @index i hi =>
    rw [List.length_map] at hi
    refine ⟨?_, fun p hp => ?_⟩
    · rintro r rfl
      rw [follow_eq, List.getElem?_eq_none hi]
    · rw [List.getElem?_eq_none hi] at hp; cases hp
  | @within i j d pre post e hd hr hpre _ ih =>
    refine up ⟨_, hd⟩ fun p hp => ?_
    obtain rfl := hdecl hd hp
    rw [PType.toDecl_refs] at hr
    obtain ⟨l1, l2, h1, rfl, h2⟩ := List.map_eq_append_iff.1 hr
    obtain ⟨a, l3, rfl, rfl, rfl⟩ := List.map_eq_cons_iff.1 h2
    exact (resolve_err fun r t h => (follow_ok.1 h).1).2 (.inl ⟨l1, a, l3, h1, hs l1 hpre, ih.1 a rfl⟩)
  | @entry i d e hd hall hf =>
    refine up ⟨_, hd⟩ fun p hp => ?_
    obtain rfl := hdecl hd hp
    rw [PType.toDecl_refs] at hall
    exact (resolve_err fun r t h => (follow_ok.1 h).1).2 (.inr ⟨hs _ hall, e, rfl, hf⟩)

theorem entry_err {i : Nat} {p : PType} (hp : table[i]? = some p) {e : TypeTableError} :
    p.resolve (follow table) = .err e ↔ Rejected (table.map PType.toDecl) i e :=
  ⟨fun h => rejected_of_resolve (fun _ _ h => follow_ok.1 h) (resolveRef_err _) hp h, fun h => h.follow.2 p hp⟩

theorem entry_sound {i : Nat} {p : PType} (hp : table[i]? = some p) :
    (∃ t, p.resolve (follow table) = .ok t) ↔ Sound (table.map PType.toDecl) i :=
  exists_congr fun _ => resolve_ok hp

theorem take_sound {i : Nat} (hi : i ≤ table.length) :
    (∀ p ∈ table.take i, ∃ t, p.resolve (follow table) = .ok t) ↔ ∀ k < i, Sound (table.map PType.toDecl) k := by
  constructor
  · intro h k hk
    have hk' : k < table.length := by omega
    exact (entry_sound (List.getElem?_eq_getElem hk')).1 (h _ (List.mem_take_iff_getElem.2 ⟨k, by omega, rfl⟩))
  · intro h p hp
    obtain ⟨k, hk, rfl⟩ := List.mem_take_iff_getElem.1 hp
    exact (entry_sound (List.getElem?_eq_getElem (by omega))).2 (h k (by omega))

/-- Splitting a list at an element, by its position. -/
theorem split_iff {α : Type} {l : List α} {P : List α → α → Prop} :
    (∃ pre a post, l = pre ++ a :: post ∧ P pre a) ↔ ∃ (i : Nat) (a : α), l[i]? = some a ∧ P (l.take i) a := by
  constructor
  · rintro ⟨pre, a, post, rfl, h⟩
    exact ⟨pre.length, a, by simp, by simpa using h⟩
  · rintro ⟨i, a, hi, h⟩
    obtain ⟨hlt, rfl⟩ := List.getElem?_eq_some_iff.1 hi
    exact ⟨l.take i, l[i], l.drop (i + 1), by simp, h⟩

theorem reifyTypes_err {n : Nat} {e : TypeTableError} : reifyTypes n table = .err e ↔
    (table.length ≠ n ∧ e = .badSize n table.length) ∨
    (table.length = n ∧ ∃ i < table.length, (∀ k < i, Sound (table.map PType.toDecl) k) ∧ Rejected (table.map PType.toDecl) i e) := by
  unfold reifyTypes
  by_cases hn : table.length = n
  · subst hn
    rw [if_neg (by simp), mapOut_eq_err]
    simp only [mapOut_exists, ne_eq, not_true_eq_false, false_and, true_and, false_or]
    rw [split_iff (P := fun (pre : List PType) a => (∀ p ∈ pre, ∃ t, p.resolve (follow table) = .ok t) ∧
      a.resolve (follow table) = .err e)]
    constructor
    · rintro ⟨i, p, hp, h1, h2⟩
      have hi := (List.getElem?_eq_some_iff.1 hp).1
      exact ⟨i, hi, (take_sound (by omega)).1 h1, (entry_err hp).1 h2⟩
    · rintro ⟨i, hi, h1, h2⟩
      have hp := List.getElem?_eq_getElem hi
      exact ⟨i, _, hp, (take_sound (by omega)).2 h1, (entry_err hp).2 h2⟩
  · rw [if_pos hn]
    simp only [hn, ne_eq, not_false_eq_true, true_and, false_and, or_false, Out.err.injEq]
    exact eq_comm

/-! ## Records -/

theorem typeField_err {r : BRecord} {n : Nat} {e : TypeTableError} (h : typeField r n = .err e) :
    e = .badTable ∧ r.fields.length ≤ n := by
  unfold typeField at h
  rw [ofOption_eq_err] at h
  exact ⟨h.2.symm, List.getElem?_eq_none_iff.1 h.1⟩

theorem typeField_short {r : BRecord} {n : Nat} (h : r.fields.length ≤ n) : typeField r n = .err .badTable := by
  unfold typeField
  rw [List.getElem?_eq_none h]; rfl

theorem addressSpace_err {a : U64} {e : AddressSpaceError} (h : AddressSpace.tryFromU64 a = .err e) :
    e = .tooBig a ∧ 2 ^ 23 ≤ a.toNat := by
  unfold AddressSpace.tryFromU64 at h
  split at h
  · cases h
  · cases h; exact ⟨rfl, by omega⟩

theorem typeCode_none {c : U64} (h : (tryFromPrimitive c : Option TypeCode) = none) : c.toNat = 0 ∨ 25 < c.toNat := by
  by_cases hc : c.toNat = 0 ∨ 25 < c.toNat
  · exact hc
  · have : ∃ x, (c.toNat, x) ∈ typeCodeTable := by
      have h1 : 1 ≤ c.toNat := by omega
      have h2 : c.toNat ≤ 25 := by omega
      generalize c.toNat = n at h1 h2
      have : ∀ n : Fin 26, 1 ≤ n.val → ∃ x, (n.val, x) ∈ typeCodeTable := by
        intro n hn
        have hx : (typeCodeTable.find? fun x => x.1 == n.val).isSome := by
          revert n; decide +kernel
        obtain ⟨⟨m, x⟩, hx⟩ := Option.isSome_iff_exists.1 hx
        have := List.find?_some hx
        obtain rfl : m = n.val := by simpa using this
        exact ⟨x, List.mem_of_find?_eq_some hx⟩
      exact this ⟨n, by omega⟩ h1
    obtain ⟨x, hx⟩ := this
    rw [(C50_typeCode c x).2 hx] at h
    cases h

theorem fault_of_step (pf : Profile) {s : TypeTableState} {r : BRecord} {e : TypeTableError} (h : typeStep pf s r = .err e) :
    RecordFault (s.inner.map PType.toDecl) s.lastName r e := by
  unfold typeStep at h
  rw [bind_eq_err, ofOption_eq_err] at h
  rcases h with ⟨h, rfl⟩ | ⟨c, hc, h⟩
  · exact .code (typeCode_none h)
  have hcode : r.code = c.code := (tryFromPrimitive_iff.1 ((ofOption_eq_ok).1 hc)).symm
  have hshort : ∀ n, n < neededFields c.code.toNat → ∀ e, typeField r n = .err e → RecordFault (s.inner.map PType.toDecl) s.lastName r e := by
    intro n hn e he
    obtain ⟨rfl, hl⟩ := typeField_err he
    exact .short (by rw [hcode]; omega)
  cases c <;> dsimp only at h
  case numEntry => cases h
  case structName =>
    simp only [bind_eq_err, mapErr_eq_err] at h
    rcases h with ⟨e', h, rfl⟩ | ⟨_, -, h⟩
    · exact .name hcode ((string_err pf).1 h)
    · cases h
  case structNamed =>
    unfold stepStructNamed at h
    rw [bind_eq_err] at h
    rcases h with h | ⟨p, hp, h⟩
    · exact hshort 0 (by decide) _ h
    · dsimp only at h
      split at h
      · next hl =>
        split at h
        · next hno =>
          cases h
          refine .namedAfter hcode ?_ (by rw [List.getLast?_map, hl]; rfl) ?_
          · obtain ⟨l, hf⟩ := fields_zero hp
            rw [hf]; simp
          · rcases hno with hno | hno
            · exact .inl (Option.isSome_iff_ne_none.1 hno)
            · exact .inr (by simpa using hno)
        · cases h
      · cases h
  case «opaque» =>
    unfold stepOpaque at h
    split at h
    · next hn => cases h; exact .unnamed hcode hn
    · next hn =>
      split at h
      · next hl => cases h; exact .opaqueAfter hcode hn (by rw [List.getLast?_map, hl]; rfl)
      · cases h
      · cases h
  case integer =>
    simp only [bind_eq_err] at h
    rcases h with h | ⟨_, -, h⟩
    · exact hshort 0 (by decide) _ h
    · cases h
  case pointer =>
    simp only [bind_eq_err, mapErr_eq_err] at h
    rcases h with h | ⟨_, -, h | ⟨a, ha, ⟨e', h, rfl⟩ | ⟨_, -, h⟩⟩⟩
    · exact hshort 0 (by decide) _ h
    · exact hshort 1 (by decide) _ h
    · obtain ⟨rfl, hb⟩ := addressSpace_err h
      exact .pointerSpace hcode (typeField_eq_ok.1 ha) hb
    · cases h
  case functionOld => cases h; exact .oldFunction hcode
  case array =>
    simp only [bind_eq_err] at h
    rcases h with h | ⟨_, -, h | ⟨_, -, h⟩⟩
    · exact hshort 0 (by decide) _ h
    · exact hshort 1 (by decide) _ h
    · cases h
  case vector =>
    simp only [bind_eq_err] at h
    rcases h with h | ⟨_, -, h | ⟨_, -, h⟩⟩
    · exact hshort 0 (by decide) _ h
    · exact hshort 1 (by decide) _ h
    · cases h
  case structAnon =>
    simp only [bind_eq_err] at h
    rcases h with h | ⟨_, -, h⟩
    · exact hshort 0 (by decide) _ h
    · cases h
  case function =>
    simp only [bind_eq_err] at h
    rcases h with h | ⟨_, -, h | ⟨_, -, h⟩⟩
    · exact hshort 0 (by decide) _ h
    · exact hshort 1 (by decide) _ h
    · cases h
  case opaquePointer =>
    simp only [bind_eq_err, mapErr_eq_err] at h
    rcases h with h | ⟨a, ha, ⟨e', h, rfl⟩ | ⟨_, -, h⟩⟩
    · exact hshort 0 (by decide) _ h
    · obtain ⟨rfl, hb⟩ := addressSpace_err h
      exact .typeSpace hcode (typeField_eq_ok.1 ha) hb
    · cases h
  all_goals cases h


theorem last_decl {l : List PType} {n : Option Str} {fs : List Nat} {q : Bool}
    (h : (l.map PType.toDecl).getLast? = some (.struct n fs q)) :
    ∃ gs, l.getLast? = some (.struct n gs q) ∧ gs.map (·.toNat) = fs := by
  rw [List.getLast?_map, Option.map_eq_some_iff] at h
  obtain ⟨p, hp, h⟩ := h
  cases p <;> simp only [PType.toDecl, TyDecl.struct.injEq, reduceCtorEq] at h
  obtain ⟨rfl, h, rfl⟩ := h
  exact ⟨_, hp, h⟩

theorem Spec.RecordFault.step (pf : Profile) {s : TypeTableState} {r : BRecord} {e : TypeTableError}
    (h : RecordFault (s.inner.map PType.toDecl) s.lastName r e) : typeStep pf s r = .err e := by
  cases h with
  | code h =>
    have : (tryFromPrimitive r.code : Option TypeCode) = none := by
      cases hc : (tryFromPrimitive r.code : Option TypeCode) with
      | none => rfl
      | some c =>
        have := (tryFromPrimitive_iff.1 hc).symm
        rw [this] at h
        exfalso
        revert h
        cases c <;> decide
    unfold typeStep
    rw [this]; rfl
  | short h =>
    unfold neededFields at h
    split at h
    · next hm =>
      have hf : r.fields = [] := List.length_eq_zero_iff.1 (by omega)
      simp only [List.mem_cons, List.not_mem_nil, or_false] at hm
      have hc : r.code = 7 ∨ r.code = 18 ∨ r.code = 20 ∨ r.code = 25 := by
        rcases hm with h | h | h | h
        · exact .inl (BitVec.eq_of_toNat_eq h)
        · exact .inr (.inl (BitVec.eq_of_toNat_eq h))
        · exact .inr (.inr (.inl (BitVec.eq_of_toNat_eq h)))
        · exact .inr (.inr (.inr (BitVec.eq_of_toNat_eq h)))
      have h0 := typeField_short (r := r) (n := 0) (by simp [hf])
      unfold typeStep
      rcases hc with hc | hc | hc | hc
      · rw [typeCode_eq hc (c := .integer) (by decide), Out.ofOption_some, Out.ok_bind]; dsimp only; rw [h0]; rfl
      · rw [typeCode_eq hc (c := .structAnon) (by decide), Out.ofOption_some, Out.ok_bind]; dsimp only; rw [h0]; rfl
      · rw [typeCode_eq hc (c := .structNamed) (by decide), Out.ofOption_some, Out.ok_bind]; dsimp only
        unfold stepStructNamed; rw [h0]; rfl
      · rw [typeCode_eq hc (c := .opaquePointer) (by decide), Out.ofOption_some, Out.ok_bind]; dsimp only; rw [h0]; rfl
    · split at h
      · next hm =>
        simp only [List.mem_cons, List.not_mem_nil, or_false] at hm
        have hc : r.code = 8 ∨ r.code = 11 ∨ r.code = 12 ∨ r.code = 21 := by
          rcases hm with h | h | h | h
          · exact .inl (BitVec.eq_of_toNat_eq h)
          · exact .inr (.inl (BitVec.eq_of_toNat_eq h))
          · exact .inr (.inr (.inl (BitVec.eq_of_toNat_eq h)))
          · exact .inr (.inr (.inr (BitVec.eq_of_toNat_eq h)))
        have h1 := typeField_short (r := r) (n := 1) (by omega)
        have two : ∀ g : U64 → U64 → Out TypeTableError TypeTableState,
            (typeField r 0 >>= fun a => typeField r 1 >>= fun b => g a b) = .err .badTable := by
          intro g
          rw [h1]
          by_cases hz : r.fields.length ≤ 0
          · rw [typeField_short hz]; rfl
          · cases hf : r.fields with
            | nil => simp [hf] at hz
            | cons a l => rw [typeField_zero hf]; rfl
        unfold typeStep
        rcases hc with hc | hc | hc | hc
        · rw [typeCode_eq hc (c := .pointer) (by decide), Out.ofOption_some, Out.ok_bind]; exact two _
        · rw [typeCode_eq hc (c := .array) (by decide), Out.ofOption_some, Out.ok_bind]; exact two _
        · rw [typeCode_eq hc (c := .vector) (by decide), Out.ofOption_some, Out.ok_bind]; exact two _
        · rw [typeCode_eq hc (c := .function) (by decide), Out.ofOption_some, Out.ok_bind]; exact two _
      · omega
  | oldFunction hc =>
    unfold typeStep
    rw [typeCode_eq hc (c := .functionOld) (by decide)]; rfl
  | @pointerSpace a hc hf ha =>
    have ha : AddressSpace.tryFromU64 a = .err (.tooBig a) := by
      unfold AddressSpace.tryFromU64
      rw [if_neg (by omega)]
    unfold typeStep
    rw [typeCode_eq hc (c := .pointer) (by decide), Out.ofOption_some, Out.ok_bind]
    dsimp only
    rw [typeField_eq_ok.2 hf]
    match hl : r.fields, hf with
    | x :: l, _ => rw [typeField_zero hl, Out.ok_bind, Out.ok_bind, ha]; rfl
  | @typeSpace a hc hf ha =>
    have ha : AddressSpace.tryFromU64 a = .err (.tooBig a) := by
      unfold AddressSpace.tryFromU64
      rw [if_neg (by omega)]
    unfold typeStep
    rw [typeCode_eq hc (c := .opaquePointer) (by decide), Out.ofOption_some, Out.ok_bind]
    dsimp only
    rw [typeField_eq_ok.2 hf, Out.ok_bind, ha]; rfl
  | unnamed hc hn =>
    unfold typeStep
    rw [typeCode_eq hc (c := .opaque) (by decide), Out.ofOption_some, Out.ok_bind]
    dsimp only
    unfold stepOpaque
    rw [if_pos hn]
  | namedAfter hc hf hl h =>
    obtain ⟨gs, hg, rfl⟩ := last_decl hl
    unfold typeStep
    rw [typeCode_eq hc (c := .structNamed) (by decide), Out.ofOption_some, Out.ok_bind]
    dsimp only
    unfold stepStructNamed
    match hf' : r.fields, hf with
    | x :: l, _ =>
      rw [typeField_zero hf', Out.ok_bind]
      simp only [hg]
      rw [if_pos]
      rcases h with h | h
      · exact .inl (Option.isSome_iff_ne_none.2 h)
      · exact .inr (by simpa using h)
  | opaqueAfter hc hn hl =>
    obtain ⟨gs, hg, rfl⟩ := last_decl hl
    unfold typeStep
    rw [typeCode_eq hc (c := .opaque) (by decide), Out.ofOption_some, Out.ok_bind]
    dsimp only
    unfold stepOpaque
    rw [if_neg hn]
    simp only [hg]
  | name hc h =>
    unfold typeStep
    rw [typeCode_eq hc (c := .structName) (by decide), Out.ofOption_some, Out.ok_bind]
    dsimp only
    rw [(string_err pf).2 h]; rfl

/-- C53. A record is refused exactly if it has the fault that the error reports. -/
theorem typeStep_err (pf : Profile) {s : TypeTableState} {r : BRecord} {e : TypeTableError} :
    typeStep pf s r = .err e ↔ RecordFault (s.inner.map PType.toDecl) s.lastName r e := ⟨fault_of_step pf, fun h => h.step pf⟩

theorem foldlM_eq_err {ε α β : Type} {f : β → α → Out ε β} {l : List α} {b : β} {e : ε} :
    l.foldlM f b = .err e ↔ ∃ pre a post c, l = pre ++ a :: post ∧ pre.foldlM f b = .ok c ∧ f c a = .err e := by
  induction l generalizing b with
  | nil =>
    simp only [List.foldlM_nil, List.nil_eq, List.append_eq_nil_iff, reduceCtorEq, and_false, false_and, exists_false]
  | cons x l ih =>
    rw [List.foldlM_cons, bind_eq_err]
    constructor
    · rintro (h | ⟨c, h, h'⟩)
      · exact ⟨[], x, l, b, rfl, rfl, h⟩
      · obtain ⟨pre, a, post, d, rfl, h1, h2⟩ := ih.1 h'
        exact ⟨x :: pre, a, post, d, rfl, by rw [List.foldlM_cons, h, Out.ok_bind, h1], h2⟩
    · rintro ⟨pre, a, post, d, he, h1, h2⟩
      cases pre with
      | nil =>
        obtain ⟨rfl, rfl⟩ := List.cons.inj he
        cases h1
        exact .inl h2
      | cons y pre =>
        obtain ⟨rfl, rfl⟩ := List.cons.inj he
        rw [List.foldlM_cons, Out.bind_eq_ok] at h1
        obtain ⟨c, hc, h1⟩ := h1
        exact .inr ⟨c, hc, ih.2 ⟨pre, a, post, d, rfl, h1, h2⟩⟩

theorem builds_iff (pf : Profile) {rs : List BRecord} {ds : List TyDecl} {nm : Str} :
    Builds pf [] [] rs ds nm ↔ ∃ s, rs.foldlM (typeStep pf) { inner := [], lastName := [] } = .ok s ∧
      s.inner.map PType.toDecl = ds ∧ s.lastName = nm := by
  constructor
  · exact fun h => foldl_builds pf h [] rfl
  · rintro ⟨s, h, rfl, rfl⟩
    exact builds_of_foldl pf rs _ s h

/-- What mapping does once the count is known. -/
theorem tryFrom_counted (pf : Profile) (b : UBlock) {n : U64} (h : Counts b.records n) (hn : n.toNat * 56 < 2 ^ 63) :
    TypeTable.tryFrom pf b = (b.records.foldlM (typeStep pf) { inner := [], lastName := [] } >>= fun s =>
      reifyTypes n.toNat s.inner) := by
  rw [tryFrom_eq pf b h]
  unfold typeCapacity partialTypeSize
  rw [if_pos hn]; rfl

/-- Mapping stops before looking at the records, or goes through them. -/
theorem types_cases (pf : Profile) (b : UBlock) :
    ((∀ n, ¬ Counts b.records n) ∧ TypeTable.tryFrom pf b = .err .badTable) ∨
    (∃ n, Counts b.records n ∧ 2 ^ 63 ≤ n.toNat * 56 ∧ TypeTable.tryFrom pf b = .panic .capacity) ∨
    ∃ n, Counts b.records n ∧ n.toNat * 56 < 2 ^ 63 := by
  by_cases hc : ∃ n, Counts b.records n
  · obtain ⟨n, hn⟩ := hc
    by_cases h : n.toNat * 56 < 2 ^ 63
    · exact .inr (.inr ⟨n, hn, h⟩)
    · refine .inr (.inl ⟨n, hn, by omega, ?_⟩)
      rw [tryFrom_eq pf b hn]
      unfold typeCapacity partialTypeSize
      rw [if_neg h]; rfl
  · refine .inl ⟨fun n hn => hc ⟨n, hn⟩, ?_⟩
    unfold TypeTable.tryFrom
    cases hr : Records.one b.records TypeCode.numEntry.code with
    | none => rfl
    | some r =>
      rw [Out.ofOption_some, Out.ok_bind]
      cases hf : r.fields.head? with
      | none => rfl
      | some n => exact absurd ⟨n, counts_iff.2 ⟨r, hr, hf⟩⟩ hc

/-- C53. Mapping a type block fails with an error exactly if the block has the fault that the error reports, and it is the
first one. -/
theorem C53_types (pf : Profile) (b : UBlock) (e : TypeTableError) :
    TypeTable.tryFrom pf b = .err e ↔ TypesFault pf b.records e := by
  rcases types_cases pf b with ⟨h, he⟩ | ⟨n, hn, hcap, he⟩ | ⟨n, hn, hcap⟩
  · rw [he]
    constructor
    · intro h'; cases h'; exact .noCount h
    · intro h'
      cases h' with
      | noCount _ => rfl
      | record h1 => exact absurd h1 (h _)
      | count h1 => exact absurd h1 (h _)
      | entry h1 => obtain ⟨n, _, h1, -⟩ := h1; exact absurd h1 (h _)
  · rw [he]
    constructor
    · intro h'; cases h'
    · intro h'
      cases h' with
      | noCount h => exact absurd hn (h _)
      | record h1 h2 => rw [h1.unique hn] at h2; omega
      | count h1 h2 => rw [h1.unique hn] at h2; omega
      | entry h1 => obtain ⟨n, _, h1, h2, -⟩ := h1; rw [h1.unique hn] at h2; omega
  · rw [tryFrom_counted pf b hn hcap, bind_eq_err, foldlM_eq_err]
    constructor
    · rintro (⟨pre, r, post, s, he, h1, h2⟩ | ⟨s, h1, h2⟩)
      · exact .record hn hcap he (builds_of_foldl pf _ _ _ h1) ((typeStep_err pf).1 h2)
      · have hb := builds_of_foldl pf _ _ _ h1
        rcases reifyTypes_err.1 h2 with ⟨h3, rfl⟩ | ⟨h3, i, hi, h4, h5⟩
        · have := TypesFault.count hn hcap hb (by simpa using h3)
          simpa using this
        · exact .entry ⟨n, _, hn, hcap, hb, by simpa using h3⟩ (by simpa using hi) h4 h5
    · intro h
      cases h with
      | noCount h => exact absurd hn (h _)
      | record _ _ he hb hf =>
        obtain ⟨s, h1, rfl, rfl⟩ := (builds_iff pf).1 hb
        exact .inl ⟨_, _, _, s, he, h1, (typeStep_err pf).2 hf⟩
      | count h1 _ hb hl =>
        obtain ⟨s, h2, rfl, rfl⟩ := (builds_iff pf).1 hb
        rw [h1.unique hn, List.length_map] at hl
        refine .inr ⟨s, h2, reifyTypes_err.2 (.inl ⟨hl, ?_⟩)⟩
        rw [h1.unique hn, List.length_map]
      | entry hd hi h4 h5 =>
        obtain ⟨m, nm, h1, -, hb, hl⟩ := hd
        obtain ⟨s, h2, rfl, rfl⟩ := (builds_iff pf).1 hb
        rw [h1.unique hn, List.length_map] at hl
        exact .inr ⟨s, h2, reifyTypes_err.2 (.inr ⟨hl, _, by simpa using hi, h4, h5⟩)⟩

end Verif
