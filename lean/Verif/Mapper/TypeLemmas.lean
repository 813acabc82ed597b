import Verif.Mapper.TypeTable
import Verif.Mapper.TypeSpec
import Verif.Support.Lemmas

/-! Lemmas about types and the resolution of references. -/

namespace Verif

open Spec

namespace Out
variable {ε α β : Type}

theorem bind_ne_diverge {x : Out ε α} {f : α → Out ε β} (h : (x >>= f) ≠ .diverge) : x ≠ .diverge := by
  rintro rfl; exact h rfl

end Out

/-! ### The predicates on types -/

theorem isFloating_iff (t : Ty) : t.isFloating = true ↔ IsFloat t := by
  cases t with
  | prim p => cases p <;> simp [Ty.isFloating, IsFloat]
  | _ => simp [Ty.isFloating, IsFloat]

theorem isInteger_iff (t : Ty) : t.isInteger = true ↔ IsInteger t := by
  cases t <;> simp [Ty.isInteger, IsInteger]

theorem isPointee_iff (t : Ty) : t.isPointee = true ↔ OkPointee t := by
  cases t with
  | prim p => cases p <;> simp [Ty.isPointee, OkPointee]
  | _ => simp [Ty.isPointee, OkPointee]

theorem isArrayElement_iff (t : Ty) : t.isArrayElement = true ↔ OkArrayElement t := by
  cases t with
  | prim p => cases p <;> simp [Ty.isArrayElement, OkArrayElement, IsFunction, IsScalable]
  | _ => simp [Ty.isArrayElement, OkArrayElement, IsFunction, IsScalable]

theorem isStructElement_iff (t : Ty) : t.isStructElement = true ↔ OkStructElement t := by
  cases t with
  | prim p => cases p <;> simp [Ty.isStructElement, OkStructElement, IsFunction]
  | _ => simp [Ty.isStructElement, OkStructElement, IsFunction]

theorem isVectorElement_iff (t : Ty) : t.isVectorElement = true ↔ OkVectorElement t := by
  cases t with
  | prim p => cases p <;> simp [Ty.isVectorElement, Ty.isFloating, OkVectorElement, IsFloat, IsInteger, IsTypedPointer]
  | _ => simp [Ty.isVectorElement, Ty.isFloating, OkVectorElement, IsFloat, IsInteger, IsTypedPointer]

theorem isArgument_iff (t : Ty) : t.isArgument = true ↔ OkArgument t := by
  cases t with
  | prim p => cases p <;> simp [Ty.isArgument, Ty.isFirstClass, OkArgument, IsFunction]
  | _ => simp [Ty.isArgument, Ty.isFirstClass, OkArgument, IsFunction]

theorem isReturn_iff (t : Ty) : t.isReturn = true ↔ OkReturn t := by
  cases t with
  | prim p => cases p <;> simp [Ty.isReturn, OkReturn, IsFunction]
  | _ => simp [Ty.isReturn, OkReturn, IsFunction]

/-! ### The constructors -/

theorem newInteger_eq_ok (w : U32) (t : Ty) :
    Ty.newInteger w = .ok t ↔ t = .integer w ∧ 1 ≤ w.toNat ∧ w.toNat ≤ 2 ^ 24 - 1 := by
  unfold Ty.newInteger
  have h1 : (Ty.minIntBits ≤ w) ↔ 1 ≤ w.toNat := by rw [BitVec.le_def]; rfl
  have h2 : (w ≤ Ty.maxIntBits) ↔ w.toNat ≤ 2 ^ 24 - 1 := by rw [BitVec.le_def]; rfl
  split
  · next h => rw [h1, h2] at h; simp [h, eq_comm]
  · next h => rw [h1, h2] at h; simp only [reduceCtorEq, false_iff]; exact fun hc => h hc.2

theorem newPointer_eq_ok (p : Ty) (a : AddressSpace) (t : Ty) :
    Ty.newPointer p a = .ok t ↔ t = .pointer p a ∧ OkPointee p := by
  unfold Ty.newPointer; rw [← isPointee_iff]
  split <;> rename_i h <;> simp [h, eq_comm]

theorem newArray_eq_ok (n : U64) (e t : Ty) : Ty.newArray n e = .ok t ↔ t = .array n e ∧ OkArrayElement e := by
  unfold Ty.newArray; rw [← isArrayElement_iff]
  split <;> rename_i h <;> simp [h, eq_comm]

theorem newVector_eq_ok (n : U64) (e t : Ty) : Ty.newVector n e = .ok t ↔ t = .fixedVector n e ∧ OkVectorElement e := by
  unfold Ty.newVector; rw [← isVectorElement_iff]
  split <;> rename_i h <;> simp [h, eq_comm]

theorem newScalableVector_eq_ok (n : U64) (e t : Ty) :
    Ty.newScalableVector n e = .ok t ↔ t = .scalableVector n e ∧ OkVectorElement e := by
  unfold Ty.newScalableVector; rw [← isVectorElement_iff]
  split <;> rename_i h <;> simp [h, eq_comm]

theorem newStruct_eq_ok (nm : Option Str) (fs : List Ty) (p : Bool) (t : Ty) :
    Ty.newStruct nm fs p = .ok t ↔ t = .struct nm fs p ∧ ∀ f ∈ fs, OkStructElement f := by
  unfold Ty.newStruct
  split
  · next bad h =>
    have hm := List.mem_of_find?_eq_some h
    have hb := List.find?_some h
    simp only [reduceCtorEq, false_iff]
    intro hc
    have := (isStructElement_iff _).2 (hc.2 _ hm)
    simp [this] at hb
  · next h =>
    have : ∀ f ∈ fs, OkStructElement f := fun f hf => (isStructElement_iff f).1 (by simpa using List.find?_eq_none.1 h f hf)
    exact ⟨fun hc => ⟨(Out.ok.inj hc).symm, this⟩, fun hc => by rw [hc.1]⟩

theorem newFunction_eq_ok (r : Ty) (ps : List Ty) (v : Bool) (t : Ty) :
    Ty.newFunction r ps v = .ok t ↔ t = .function r ps v ∧ OkReturn r ∧ ∀ p ∈ ps, OkArgument p := by
  unfold Ty.newFunction
  split
  · next h =>
    simp only [reduceCtorEq, false_iff]
    intro hc
    have := (isReturn_iff _).2 hc.2.1
    simp [this] at h
  · next hr =>
    have hr : OkReturn r := (isReturn_iff r).1 (by simpa using hr)
    split
    · next bad h =>
      have hm := List.mem_of_find?_eq_some h
      have hb := List.find?_some h
      simp only [reduceCtorEq, false_iff]
      intro hc
      have := (isArgument_iff _).2 (hc.2.2 _ hm)
      simp [this] at hb
    · next h =>
      have : ∀ f ∈ ps, OkArgument f := fun f hf => (isArgument_iff f).1 (by simpa using List.find?_eq_none.1 h f hf)
      exact ⟨fun hc => ⟨(Out.ok.inj hc).symm, hr, this⟩, fun hc => by rw [hc.1]⟩

theorem newInteger_returns (w : U32) : (Ty.newInteger w).Returns := by unfold Ty.newInteger; split <;> trivial
theorem newPointer_returns (p : Ty) (a : AddressSpace) : (Ty.newPointer p a).Returns := by
  unfold Ty.newPointer; split <;> trivial
theorem newArray_returns (n : U64) (e : Ty) : (Ty.newArray n e).Returns := by unfold Ty.newArray; split <;> trivial
theorem newVector_returns (n : U64) (e : Ty) : (Ty.newVector n e).Returns := by unfold Ty.newVector; split <;> trivial
theorem newScalableVector_returns (n : U64) (e : Ty) : (Ty.newScalableVector n e).Returns := by
  unfold Ty.newScalableVector; split <;> trivial
theorem newStruct_returns (nm : Option Str) (fs : List Ty) (p : Bool) : (Ty.newStruct nm fs p).Returns := by
  unfold Ty.newStruct; split <;> trivial
theorem newFunction_returns (r : Ty) (ps : List Ty) (v : Bool) : (Ty.newFunction r ps v).Returns := by
  unfold Ty.newFunction; split
  · trivial
  · split <;> trivial

/-! ### Lists -/

theorem mapOut_eq_ok {ε α β : Type} (f : α → Out ε β) (l : List α) (m : List β) :
    mapOut f l = .ok m ↔ m.length = l.length ∧ ∀ (k : Nat) (a : α) (b : β), l[k]? = some a → m[k]? = some b → f a = .ok b := by
  induction l generalizing m with
  | nil => cases m <;> simp [mapOut]
  | cons a l ih =>
    unfold mapOut
    simp only [Out.bind_eq_ok, ih, Out.ok.injEq]
    constructor
    · rintro ⟨b, hb, bs, ⟨hl, hbs⟩, rfl⟩
      refine ⟨by simp [hl], fun k x y hx hy => ?_⟩
      cases k with
      | zero => simp at hx hy; subst hx hy; exact hb
      | succ k => simp at hx hy; exact hbs k x y hx hy
    · rintro ⟨hl, h⟩
      cases m with
      | nil => simp at hl
      | cons b bs =>
        refine ⟨b, h 0 a b rfl rfl, bs, ⟨by simpa using hl, fun k x y hx hy => ?_⟩, rfl⟩
        exact h (k + 1) x y (by simpa using hx) (by simpa using hy)

theorem mapOut_congr_of {ε α β : Type} {f g : α → Out ε β} {l : List α} (hfg : ∀ a, f a ≠ .diverge → g a = f a)
    (h : mapOut f l ≠ .diverge) : mapOut g l = mapOut f l := by
  induction l with
  | nil => rfl
  | cons a l ih =>
    unfold mapOut at h ⊢
    have ha := hfg a (Out.bind_ne_diverge h)
    rw [ha]
    cases hfa : f a with
    | ok b =>
      rw [hfa] at h
      simp only [Out.ok_bind] at h ⊢
      rw [ih (Out.bind_ne_diverge h)]
    | _ => rfl

theorem mapOut_eq_err {ε α β : Type} (f : α → Out ε β) (l : List α) (e : ε) :
    mapOut f l = .err e ↔ ∃ pre a post, l = pre ++ a :: post ∧ (∃ m, mapOut f pre = .ok m) ∧ f a = .err e := by
  induction l with
  | nil => simp [mapOut]
  | cons a l ih =>
    rw [show mapOut f (a :: l) = (f a >>= fun b => mapOut f l >>= fun bs => Out.ok (b :: bs)) from rfl]
    cases ha : f a with
    | ok b =>
      rw [Out.ok_bind]
      have : (mapOut f l >>= fun bs => Out.ok (b :: bs)) = .err e ↔ mapOut f l = .err e := by
        cases mapOut f l <;> simp
      rw [this, ih]
      constructor
      · rintro ⟨pre, x, post, rfl, ⟨m, hm⟩, hx⟩
        exact ⟨a :: pre, x, post, rfl, ⟨b :: m, by rw [mapOut, ha, Out.ok_bind, hm]; rfl⟩, hx⟩
      · rintro ⟨pre, x, post, h0, ⟨m, hm⟩, hx⟩
        cases pre with
        | nil =>
          obtain ⟨rfl, rfl⟩ := List.cons.inj h0
          rw [ha] at hx; cases hx
        | cons y pre =>
          obtain ⟨rfl, rfl⟩ := List.cons.inj h0
          rw [mapOut, ha, Out.ok_bind, Out.bind_eq_ok] at hm
          obtain ⟨m', hm', -⟩ := hm
          exact ⟨pre, x, post, rfl, ⟨m', hm'⟩, hx⟩
    | err e' =>
      rw [Out.err_bind, Out.err.injEq]
      constructor
      · rintro rfl
        exact ⟨[], a, l, rfl, ⟨[], rfl⟩, ha⟩
      · rintro ⟨pre, x, post, h0, ⟨m, hm⟩, hx⟩
        cases pre with
        | nil =>
          obtain ⟨rfl, rfl⟩ := List.cons.inj h0
          rw [ha] at hx; cases hx; rfl
        | cons y pre =>
          obtain ⟨rfl, rfl⟩ := List.cons.inj h0
          rw [mapOut, ha] at hm; cases hm
    | panic q =>
      rw [Out.panic_bind]
      simp only [reduceCtorEq, false_iff]
      rintro ⟨pre, x, post, h0, ⟨m, hm⟩, hx⟩
      cases pre with
      | nil =>
        obtain ⟨rfl, rfl⟩ := List.cons.inj h0
        rw [ha] at hx; cases hx
      | cons y pre =>
        obtain ⟨rfl, rfl⟩ := List.cons.inj h0
        rw [mapOut, ha] at hm; cases hm
    | diverge =>
      rw [Out.diverge_bind]
      simp only [reduceCtorEq, false_iff]
      rintro ⟨pre, x, post, h0, ⟨m, hm⟩, hx⟩
      cases pre with
      | nil =>
        obtain ⟨rfl, rfl⟩ := List.cons.inj h0
        rw [ha] at hx; cases hx
      | cons y pre =>
        obtain ⟨rfl, rfl⟩ := List.cons.inj h0
        rw [mapOut, ha] at hm; cases hm

theorem mapOut_eq_panic {ε α β : Type} (f : α → Out ε β) (l : List α) (e : PanicSite) :
    mapOut f l = .panic e ↔ ∃ pre a post, l = pre ++ a :: post ∧ (∃ m, mapOut f pre = .ok m) ∧ f a = .panic e := by
  induction l with
  | nil => simp [mapOut]
  | cons a l ih =>
    rw [show mapOut f (a :: l) = (f a >>= fun b => mapOut f l >>= fun bs => Out.ok (b :: bs)) from rfl]
    cases ha : f a with
    | ok b =>
      rw [Out.ok_bind]
      have : (mapOut f l >>= fun bs => Out.ok (b :: bs)) = .panic e ↔ mapOut f l = .panic e := by
        cases mapOut f l <;> simp
      rw [this, ih]
      constructor
      · rintro ⟨pre, x, post, rfl, ⟨m, hm⟩, hx⟩
        exact ⟨a :: pre, x, post, rfl, ⟨b :: m, by rw [mapOut, ha, Out.ok_bind, hm]; rfl⟩, hx⟩
      · rintro ⟨pre, x, post, h0, ⟨m, hm⟩, hx⟩
        cases pre with
        | nil =>
          obtain ⟨rfl, rfl⟩ := List.cons.inj h0
          rw [ha] at hx; cases hx
        | cons y pre =>
          obtain ⟨rfl, rfl⟩ := List.cons.inj h0
          rw [mapOut, ha, Out.ok_bind, Out.bind_eq_ok] at hm
          obtain ⟨m', hm', -⟩ := hm
          exact ⟨pre, x, post, rfl, ⟨m', hm'⟩, hx⟩
    | panic e' =>
      rw [Out.panic_bind, Out.panic.injEq]
      constructor
      · rintro rfl
        exact ⟨[], a, l, rfl, ⟨[], rfl⟩, ha⟩
      · rintro ⟨pre, x, post, h0, ⟨m, hm⟩, hx⟩
        cases pre with
        | nil =>
          obtain ⟨rfl, rfl⟩ := List.cons.inj h0
          rw [ha] at hx; cases hx; rfl
        | cons y pre =>
          obtain ⟨rfl, rfl⟩ := List.cons.inj h0
          rw [mapOut, ha] at hm; cases hm
    | err q =>
      rw [Out.err_bind]
      simp only [reduceCtorEq, false_iff]
      rintro ⟨pre, x, post, h0, ⟨m, hm⟩, hx⟩
      cases pre with
      | nil =>
        obtain ⟨rfl, rfl⟩ := List.cons.inj h0
        rw [ha] at hx; cases hx
      | cons y pre =>
        obtain ⟨rfl, rfl⟩ := List.cons.inj h0
        rw [mapOut, ha] at hm; cases hm
    | diverge =>
      rw [Out.diverge_bind]
      simp only [reduceCtorEq, false_iff]
      rintro ⟨pre, x, post, h0, ⟨m, hm⟩, hx⟩
      cases pre with
      | nil =>
        obtain ⟨rfl, rfl⟩ := List.cons.inj h0
        rw [ha] at hx; cases hx
      | cons y pre =>
        obtain ⟨rfl, rfl⟩ := List.cons.inj h0
        rw [mapOut, ha] at hm; cases hm

theorem mapOut_returns {ε α β : Type} {f : α → Out ε β} {l : List α} (h : ∀ a ∈ l, (f a).Returns) :
    (mapOut f l).Returns := by
  induction l with
  | nil => trivial
  | cons a l ih =>
    unfold mapOut
    refine (h a (by simp)).bind fun b _ => ?_
    exact (ih fun x hx => h x (by simp [hx])).bind fun _ _ => trivial

/-! ### Resolution -/

/-- What a partial type declares. -/
def PType.toDecl : PType → TyDecl
  | prim p => .prim p
  | integer w => .integer w.toNat
  | function r ps v => .function r.toNat (ps.map (·.toNat)) v
  | pointer p a => .pointer p.toNat a
  | opaquePointer a => .opaquePointer a
  | struct n fs p => .struct n (fs.map (·.toNat)) p
  | array n e => .array n e.toNat
  | fixedVector n e => .vector false n e.toNat
  | scalableVector n e => .vector true n e.toNat

theorem resolve_congr_of {f g : TypeRef → Out TypeTableError Ty} (hfg : ∀ a, f a ≠ .diverge → g a = f a) (p : PType)
    (h : p.resolve f ≠ .diverge) : p.resolve g = p.resolve f := by
  cases p with
  | prim _ => rfl
  | integer _ => rfl
  | opaquePointer _ => rfl
  | function r ps v =>
    simp only [PType.resolve] at h ⊢
    rw [hfg r (Out.bind_ne_diverge h)]
    cases hr : f r with
    | ok t =>
      rw [hr] at h
      simp only [Out.ok_bind] at h ⊢
      rw [mapOut_congr_of hfg (Out.bind_ne_diverge h)]
    | _ => rfl
  | struct n fs q =>
    simp only [PType.resolve] at h ⊢
    rw [mapOut_congr_of hfg (Out.bind_ne_diverge h)]
  | pointer e a => simp only [PType.resolve] at h ⊢; rw [hfg e (Out.bind_ne_diverge h)]
  | array n e => simp only [PType.resolve] at h ⊢; rw [hfg e (Out.bind_ne_diverge h)]
  | fixedVector n e => simp only [PType.resolve] at h ⊢; rw [hfg e (Out.bind_ne_diverge h)]
  | scalableVector n e => simp only [PType.resolve] at h ⊢; rw [hfg e (Out.bind_ne_diverge h)]

/-- References of a partial type, as numbers. -/
def PType.refs : PType → List TypeRef
  | function r ps _ => r :: ps
  | pointer p _ => [p]
  | struct _ fs _ => fs
  | array _ e => [e]
  | fixedVector _ e => [e]
  | scalableVector _ e => [e]
  | _ => []

theorem PType.toDecl_refs (p : PType) : p.toDecl.refs = p.refs.map (·.toNat) := by
  cases p <;> simp [toDecl, TyDecl.refs, refs]

theorem resolve_returns {f : TypeRef → Out TypeTableError Ty} (p : PType) (h : ∀ r ∈ p.refs, (f r).Returns) :
    (p.resolve f).Returns := by
  cases p with
  | prim _ => trivial
  | opaquePointer _ => trivial
  | integer w => exact (newInteger_returns w).mapErr
  | function r ps v =>
    refine (h r (by simp [PType.refs])).bind fun t _ => ?_
    exact (mapOut_returns fun a ha => h a (by simp [PType.refs, ha])).bind fun _ _ => (newFunction_returns ..).mapErr
  | struct n fs q =>
    exact (mapOut_returns fun a ha => h a (by simp [PType.refs, ha])).bind fun _ _ => (newStruct_returns ..).mapErr
  | pointer e a => exact (h e (by simp [PType.refs])).bind fun _ _ => (newPointer_returns ..).mapErr
  | array n e => exact (h e (by simp [PType.refs])).bind fun _ _ => (newArray_returns ..).mapErr
  | fixedVector n e => exact (h e (by simp [PType.refs])).bind fun _ _ => (newVector_returns ..).mapErr
  | scalableVector n e => exact (h e (by simp [PType.refs])).bind fun _ _ => (newScalableVector_returns ..).mapErr

theorem resolveRef_mono (table : List PType) (n : Nat) (r : TypeRef) (h : resolveRef table n r ≠ .diverge) :
    resolveRef table (n + 1) r = resolveRef table n r := by
  induction n generalizing r with
  | zero => exact absurd rfl h
  | succ n ih =>
    rw [resolveRef] at h ⊢
    conv => rhs; rw [resolveRef]
    split <;> rename_i hp
    · rw [hp] at h; exact resolve_congr_of (fun a ha => ih a ha) _ h
    · rfl

theorem resolveRef_mono_add (table : List PType) (n k : Nat) (r : TypeRef) (h : resolveRef table n r ≠ .diverge) :
    resolveRef table (n + k) r = resolveRef table n r := by
  induction k with
  | zero => rfl
  | succ k ih => rw [← Nat.add_assoc, resolveRef_mono _ _ _ (by rw [ih]; exact h), ih]

theorem resolveRef_step (table : List PType) {m n : Nat} (h : ∀ r, resolveRef table m r = resolveRef table n r) (r : TypeRef) :
    resolveRef table (m + 1) r = resolveRef table (n + 1) r := by
  have : resolveRef table m = resolveRef table n := funext h
  rw [resolveRef, resolveRef, this]

theorem resolveRef_fixed (table : List PType) {n : Nat} (h : ∀ r, resolveRef table (n + 1) r = resolveRef table n r)
    (k : Nat) (r : TypeRef) : resolveRef table (n + k) r = resolveRef table n r := by
  induction k generalizing r with
  | zero => rfl
  | succ k ih => rw [← Nat.add_assoc, resolveRef_step table ih r, h]

/-- How many positions have a result with the given fuel. -/
def settled (table : List PType) (n : Nat) : Nat :=
  (List.range table.length).countP fun i => decide (resolveRef table n (BitVec.ofNat 64 i) ≠ .diverge)

theorem countP_lt_of {α : Type} {p q : α → Bool} {l : List α} (h : ∀ a ∈ l, p a = true → q a = true) {x : α} (hx : x ∈ l)
    (hp : p x = false) (hq : q x = true) : l.countP p < l.countP q := by
  induction l with
  | nil => simp at hx
  | cons a l ih =>
    rw [List.countP_cons, List.countP_cons]
    have hle : l.countP p ≤ l.countP q := List.countP_mono_left fun b hb => h b (by simp [hb])
    rcases List.mem_cons.1 hx with rfl | hx
    · simp [hp, hq]; omega
    · have := ih (fun b hb => h b (by simp [hb])) hx
      have h' := h a (by simp)
      cases ha : p a
      · simp; omega
      · simp [h' ha]; omega

theorem resolveRef_out (table : List PType) (n : Nat) (r : TypeRef) (h : table.length ≤ r.toNat) :
    resolveRef table (n + 1) r = .err (.badIndex r.toNat) := by
  rw [resolveRef, List.getElem?_eq_none h]

theorem settled_lt (table : List PType) (n : Nat) (h : ¬ ∀ r, resolveRef table (n + 2) r = resolveRef table (n + 1) r) :
    settled table (n + 1) < settled table (n + 2) := by
  have ⟨r, hr⟩ : ∃ r, resolveRef table (n + 2) r ≠ resolveRef table (n + 1) r := Classical.not_forall.1 h
  have hlt : r.toNat < table.length := by
    refine Nat.lt_of_not_le fun hge => ?_
    rw [resolveRef_out _ _ _ (by omega), resolveRef_out _ _ _ (by omega)] at hr
    exact hr rfl
  have hd : resolveRef table (n + 1) r = .diverge := by
    exact Classical.byContradiction fun hne => hr (resolveRef_mono table (n + 1) r hne)
  have heq : BitVec.ofNat 64 r.toNat = r := by simp
  refine countP_lt_of (fun a _ ha => ?_) (x := r.toNat) (List.mem_range.2 hlt) ?_ ?_
  · simp only [decide_eq_true_eq] at ha ⊢
    rw [resolveRef_mono table (n + 1) _ ha]; exact ha
  · rw [heq]; simp [hd]
  · rw [heq]; simp only [decide_eq_true_eq]; rw [hd] at hr; exact hr

theorem settled_le (table : List PType) (n : Nat) : settled table n ≤ table.length := by
  have := List.countP_le_length (p := fun i => decide (resolveRef table n (BitVec.ofNat 64 i) ≠ .diverge))
    (l := List.range table.length)
  rw [List.length_range] at this; exact this

/-- With one more fuel than there are entries, more fuel changes nothing: the only recursions left without a result are
those that never end. -/
theorem resolveRef_stable (table : List PType) (k : Nat) (r : TypeRef) :
    resolveRef table (table.length + 1 + k) r = resolveRef table (table.length + 1) r := by
  have key : ∃ m ≤ table.length, ∀ r, resolveRef table (m + 2) r = resolveRef table (m + 1) r := by
    refine Classical.byContradiction fun hc => ?_
    have grow : ∀ m ≤ table.length + 1, m ≤ settled table (m + 1) := by
      intro m hm
      induction m with
      | zero => omega
      | succ m ih =>
        have := settled_lt table m fun hall => hc ⟨m, by omega, hall⟩
        have := ih (by omega)
        show m + 1 ≤ settled table (m + 2)
        omega
    have h1 := grow (table.length + 1) (Nat.le_refl _)
    have h2 := settled_le table (table.length + 1 + 1)
    omega
  obtain ⟨m, hm, hfix⟩ := key
  have hf := resolveRef_fixed table hfix
  have e1 := hf (table.length - m + k) r
  have e2 := hf (table.length - m) r
  rw [show m + 1 + (table.length - m + k) = table.length + 1 + k by omega] at e1
  rw [show m + 1 + (table.length - m) = table.length + 1 by omega] at e2
  rw [e1, e2]

theorem resolveRef_stable_fun (table : List PType) (k : Nat) :
    resolveRef table (table.length + 1) = resolveRef table (table.length + 1 + k) :=
  funext fun r => (resolveRef_stable table k r).symm

/-! ### Soundness and completeness of resolution -/

variable {table : List PType}

theorem resolve_sound {f : TypeRef → Out TypeTableError Ty} {ds : List TyDecl}
    (hf : ∀ r t, f r = .ok t → Denotes ds r.toNat t ∧ Valid t) {p : PType} {t : Ty} (h : p.resolve f = .ok t) {i : Nat}
    (hi : ds[i]? = some p.toDecl) : Denotes ds i t ∧ Valid t := by
  have hlist : ∀ {l : List TypeRef} {ts : List Ty}, mapOut f l = .ok ts →
      ts.length = (l.map (·.toNat)).length ∧
      (∀ (k j : Nat) (t : Ty), (l.map (·.toNat))[k]? = some j → ts[k]? = some t → Denotes ds j t) ∧ ∀ t ∈ ts, Valid t := by
    intro l ts hm
    obtain ⟨hl, hk⟩ := (mapOut_eq_ok ..).1 hm
    refine ⟨by simpa using hl, fun k j t hj ht => ?_, fun t ht => ?_⟩
    · rw [List.getElem?_map, Option.map_eq_some_iff] at hj
      obtain ⟨r, hr, rfl⟩ := hj
      exact (hf r t (hk k r t hr ht)).1
    · obtain ⟨k, hk'⟩ := List.mem_iff_getElem?.1 ht
      have hkl : k < l.length := by rw [← hl]; exact (List.getElem?_eq_some_iff.1 hk').1
      exact (hf _ t (hk k _ t (List.getElem?_eq_getElem hkl) hk')).2
  cases p with
  | prim p => simp only [PType.resolve, Out.ok.injEq] at h; subst h; exact ⟨.prim hi, .prim p⟩
  | opaquePointer a => simp only [PType.resolve, Out.ok.injEq] at h; subst h; exact ⟨.opaquePointer hi, .opaquePointer a⟩
  | integer w =>
    simp only [PType.resolve, Out.mapErr_eq_ok, newInteger_eq_ok] at h
    obtain ⟨rfl, h1, h2⟩ := h
    exact ⟨.integer hi, .integer h1 h2⟩
  | function r ps v =>
    simp only [PType.resolve, Out.bind_eq_ok, Out.mapErr_eq_ok, newFunction_eq_ok] at h
    obtain ⟨tr, hr, ts, hm, rfl, h1, h2⟩ := h
    obtain ⟨hl, hd, hv⟩ := hlist hm
    exact ⟨.function hi (hf _ _ hr).1 hl hd, .function (hf _ _ hr).2 h1 hv h2⟩
  | struct n fs q =>
    simp only [PType.resolve, Out.bind_eq_ok, Out.mapErr_eq_ok, newStruct_eq_ok] at h
    obtain ⟨ts, hm, rfl, h1⟩ := h
    obtain ⟨hl, hd, hv⟩ := hlist hm
    exact ⟨.struct hi hl hd, .struct hv h1⟩
  | pointer e a =>
    simp only [PType.resolve, Out.bind_eq_ok, Out.mapErr_eq_ok, newPointer_eq_ok] at h
    obtain ⟨te, he, rfl, h1⟩ := h
    exact ⟨.pointer hi (hf _ _ he).1, .pointer (hf _ _ he).2 h1⟩
  | array n e =>
    simp only [PType.resolve, Out.bind_eq_ok, Out.mapErr_eq_ok, newArray_eq_ok] at h
    obtain ⟨te, he, rfl, h1⟩ := h
    exact ⟨.array hi (hf _ _ he).1, .array (hf _ _ he).2 h1⟩
  | fixedVector n e =>
    simp only [PType.resolve, Out.bind_eq_ok, Out.mapErr_eq_ok, newVector_eq_ok] at h
    obtain ⟨te, he, rfl, h1⟩ := h
    exact ⟨.fixedVector hi (hf _ _ he).1, .fixedVector (hf _ _ he).2 h1⟩
  | scalableVector n e =>
    simp only [PType.resolve, Out.bind_eq_ok, Out.mapErr_eq_ok, newScalableVector_eq_ok] at h
    obtain ⟨te, he, rfl, h1⟩ := h
    exact ⟨.scalableVector hi (hf _ _ he).1, .scalableVector (hf _ _ he).2 h1⟩

theorem resolveRef_sound (n : Nat) (r : TypeRef) (t : Ty) (h : resolveRef table n r = .ok t) :
    Denotes (table.map PType.toDecl) r.toNat t ∧ Valid t := by
  induction n generalizing r t with
  | zero => simp [resolveRef] at h
  | succ n ih =>
    rw [resolveRef] at h
    split at h
    · next p hp => exact resolve_sound (fun r t => ih r t) h (by rw [List.getElem?_map, hp]; rfl)
    · simp at h

theorem mem_of_zip {ps : List TypeRef} {ts : List Ty} (hl : ts.length = (ps.map (·.toNat)).length) {k : Nat} {a : TypeRef}
    (ha : ps[k]? = some a) : ∃ t, ts[k]? = some t ∧ t ∈ ts := by
  have hk : k < ts.length := by
    rw [hl, List.length_map]; exact (List.getElem?_eq_some_iff.1 ha).1
  exact ⟨ts[k], List.getElem?_eq_getElem hk, List.getElem_mem hk⟩

theorem resolve_complete {f : TypeRef → Out TypeTableError Ty} {n : Nat}
    (hf : ∀ r t, sizeOf t < n → Denotes (table.map PType.toDecl) r.toNat t → Valid t → f r = .ok t) {i : Nat} {p : PType}
    (hi : table[i]? = some p) {t : Ty} (hn : sizeOf t ≤ n) (hd : Denotes (table.map PType.toDecl) i t) (hv : Valid t) :
    p.resolve f = .ok t := by
  have hlist : ∀ {l : List TypeRef} {ts : List Ty}, ts.length = (l.map (·.toNat)).length → (∀ t ∈ ts, sizeOf t < n) →
      (∀ (k j : Nat) (t : Ty), (l.map (·.toNat))[k]? = some j → ts[k]? = some t → Denotes (table.map PType.toDecl) j t) →
      (∀ t ∈ ts, Valid t) → mapOut f l = .ok ts := by
    intro l ts hl hs hk hvs
    refine (mapOut_eq_ok ..).2 ⟨by simpa using hl, fun k a b ha hb => ?_⟩
    have hmem := List.mem_of_getElem? hb
    exact hf a b (hs b hmem) (hk k _ b (by rw [List.getElem?_map, ha]; rfl) hb) (hvs b hmem)
  have hdi : ∀ {d}, (table.map PType.toDecl)[i]? = some d → p.toDecl = d := by
    intro d h; rw [List.getElem?_map, hi] at h; simpa using h
  cases hd with
  | prim h =>
    have := hdi h
    cases p <;> simp [PType.toDecl] at this
    subst this; rfl
  | opaquePointer h =>
    have := hdi h
    cases p <;> simp [PType.toDecl] at this
    subst this; rfl
  | integer h =>
    have := hdi h
    cases p <;> simp [PType.toDecl] at this
    have := BitVec.eq_of_toNat_eq this; subst this
    cases hv
    simp only [PType.resolve, Out.mapErr_eq_ok, newInteger_eq_ok]
    exact ⟨trivial, by assumption, by assumption⟩
  | function h hr hl hk =>
    have := hdi h
    cases p <;> simp [PType.toDecl] at this
    obtain ⟨rfl, rfl, rfl⟩ := this
    simp only [Ty.function.sizeOf_spec] at hn
    cases hv with
    | function v1 v2 v3 v4 =>
      simp only [PType.resolve, Out.bind_eq_ok, Out.mapErr_eq_ok, newFunction_eq_ok]
      refine ⟨_, hf _ _ (by omega) hr v1, _, hlist hl (fun t ht => ?_) hk v3, rfl, v2, v4⟩
      have := List.sizeOf_lt_of_mem ht
      omega
  | struct h hl hk =>
    have := hdi h
    cases p <;> simp [PType.toDecl] at this
    obtain ⟨rfl, rfl, rfl⟩ := this
    simp only [Ty.struct.sizeOf_spec] at hn
    cases hv with
    | struct v1 v2 =>
      simp only [PType.resolve, Out.bind_eq_ok, Out.mapErr_eq_ok, newStruct_eq_ok]
      refine ⟨_, hlist hl (fun t ht => ?_) hk v1, rfl, v2⟩
      have := List.sizeOf_lt_of_mem ht
      omega
  | pointer h he =>
    have := hdi h
    cases p <;> simp [PType.toDecl] at this
    obtain ⟨rfl, rfl⟩ := this
    simp only [Ty.pointer.sizeOf_spec] at hn
    cases hv with
    | pointer v1 v2 =>
      simp only [PType.resolve, Out.bind_eq_ok, Out.mapErr_eq_ok, newPointer_eq_ok]
      exact ⟨_, hf _ _ (by omega) he v1, rfl, v2⟩
  | array h he =>
    have := hdi h
    cases p <;> simp [PType.toDecl] at this
    obtain ⟨rfl, rfl⟩ := this
    simp only [Ty.array.sizeOf_spec] at hn
    cases hv with
    | array v1 v2 =>
      simp only [PType.resolve, Out.bind_eq_ok, Out.mapErr_eq_ok, newArray_eq_ok]
      exact ⟨_, hf _ _ (by omega) he v1, rfl, v2⟩
  | fixedVector h he =>
    have := hdi h
    cases p <;> simp [PType.toDecl] at this
    obtain ⟨rfl, rfl⟩ := this
    simp only [Ty.fixedVector.sizeOf_spec] at hn
    cases hv with
    | fixedVector v1 v2 =>
      simp only [PType.resolve, Out.bind_eq_ok, Out.mapErr_eq_ok, newVector_eq_ok]
      exact ⟨_, hf _ _ (by omega) he v1, rfl, v2⟩
  | scalableVector h he =>
    have := hdi h
    cases p <;> simp [PType.toDecl] at this
    obtain ⟨rfl, rfl⟩ := this
    simp only [Ty.scalableVector.sizeOf_spec] at hn
    cases hv with
    | scalableVector v1 v2 =>
      simp only [PType.resolve, Out.bind_eq_ok, Out.mapErr_eq_ok, newScalableVector_eq_ok]
      exact ⟨_, hf _ _ (by omega) he v1, rfl, v2⟩

theorem resolveRef_complete (n : Nat) (r : TypeRef) (t : Ty) (hn : sizeOf t ≤ n)
    (hd : Denotes (table.map PType.toDecl) r.toNat t) (hv : Valid t) : resolveRef table (n + 1) r = .ok t := by
  induction n generalizing r t with
  | zero => cases t <;> simp at hn
  | succ n ih =>
    have ⟨p, hp⟩ : ∃ p, table[r.toNat]? = some p := by
      cases hp : table[r.toNat]? with
      | some p => exact ⟨p, rfl⟩
      | none =>
        have : (table.map PType.toDecl)[r.toNat]? = none := by rw [List.getElem?_map, hp]; rfl
        cases hd <;> simp_all
    rw [resolveRef, hp]
    exact resolve_complete (fun r t h1 h2 h3 => ih r t (by omega) h2 h3) hp hn hd hv

/-- `reify` succeeds exactly with the types the entries stand for. -/
theorem reifyTypes_eq_ok (n : Nat) (ts : List Ty) :
    reifyTypes n table = .ok ts ↔ table.length = n ∧ ts.length = n ∧
      ∀ i t, ts[i]? = some t → Denotes (table.map PType.toDecl) i t ∧ Valid t := by
  unfold reifyTypes
  by_cases hn : table.length = n
  · rw [if_neg (by simp [hn]), mapOut_eq_ok]
    subst hn
    simp only [true_and]
    refine and_congr_right fun hl => ⟨fun h i t ht => ?_, fun h i p t hp ht => ?_⟩
    · have hi : i < table.length := by rw [← hl]; exact (List.getElem?_eq_some_iff.1 ht).1
      have hp := List.getElem?_eq_getElem hi
      exact resolve_sound (fun r t => resolveRef_sound _ r t) (h i _ t hp ht) (by rw [List.getElem?_map, hp]; rfl)
    · rw [resolveRef_stable_fun table (sizeOf t)]
      refine resolve_complete (n := sizeOf t) (fun r t' hs hd hv => ?_) hp (Nat.le_refl _) (h i t ht).1 (h i t ht).2
      rw [show table.length + 1 + sizeOf t = (table.length + sizeOf t) + 1 by omega]
      exact resolveRef_complete _ r t' (by omega) hd hv
  · rw [if_pos hn]; simp [hn]

/-! ### Cycles -/

theorem resolveRef_returns (rank : Nat → Nat)
    (hr : ∀ i d, (table.map PType.toDecl)[i]? = some d → ∀ j ∈ d.refs, rank j < rank i) (n : Nat) (r : TypeRef)
    (h : rank r.toNat < n) : (resolveRef table n r).Returns := by
  induction n generalizing r with
  | zero => omega
  | succ n ih =>
    rw [resolveRef]
    split
    · next p hp =>
      refine resolve_returns p fun s hs => ih s ?_
      have := hr r.toNat p.toDecl (by rw [List.getElem?_map, hp]; rfl) s.toNat (by
        rw [PType.toDecl_refs]; exact List.mem_map.2 ⟨s, hs, rfl⟩)
      omega
    · trivial

theorem reifyTypes_returns (n : Nat) (h : Acyclic (table.map PType.toDecl)) : (reifyTypes n table).Returns := by
  obtain ⟨rank, hr⟩ := h
  unfold reifyTypes
  split
  · trivial
  · refine mapOut_returns fun p hp => resolve_returns p fun s hs => ?_
    rw [resolveRef_stable_fun table (rank s.toNat)]
    exact resolveRef_returns rank hr _ s (by omega)

theorem ext_of {l : List Nat} {ts us : List Ty} (ht : ts.length = l.length) (hu : us.length = l.length)
    (h : ∀ (k j : Nat) (t u : Ty), l[k]? = some j → ts[k]? = some t → us[k]? = some u → t = u) : ts = us := by
  refine List.ext_getElem (by omega) fun k h1 h2 => ?_
  exact h k l[k] ts[k] us[k] (List.getElem?_eq_getElem (by omega)) (List.getElem?_eq_getElem h1) (List.getElem?_eq_getElem h2)

/-- The types a list of references stands for. -/
def DenoteAll (ds : List TyDecl) (l : List Nat) (ts : List Ty) : Prop :=
  ts.length = l.length ∧ ∀ (k j : Nat) (t : Ty), l[k]? = some j → ts[k]? = some t → Denotes ds j t

theorem Spec.Denotes.inv {ds : List TyDecl} {i : Nat} {t : Ty} {d : TyDecl} (h : Denotes ds i t) (hd : ds[i]? = some d) :
    match d with
    | .prim p => t = .prim p
    | .integer n => ∃ w, t = .integer w ∧ w.toNat = n
    | .function r ps v => ∃ tr tps, t = .function tr tps v ∧ Denotes ds r tr ∧ DenoteAll ds ps tps
    | .pointer p a => ∃ tp, t = .pointer tp a ∧ Denotes ds p tp
    | .opaquePointer a => t = .opaquePointer a
    | .struct n fs p => ∃ tfs, t = .struct n tfs p ∧ DenoteAll ds fs tfs
    | .array n e => ∃ te, t = .array n te ∧ Denotes ds e te
    | .vector s n e => ∃ te, t = (if s then .scalableVector n te else .fixedVector n te) ∧ Denotes ds e te := by
  cases h with
  | prim h => rw [hd] at h; cases h; rfl
  | integer h => rw [hd] at h; cases h; exact ⟨_, rfl, rfl⟩
  | function h h1 h2 h3 => rw [hd] at h; cases h; exact ⟨_, _, rfl, h1, h2, h3⟩
  | pointer h h1 => rw [hd] at h; cases h; exact ⟨_, rfl, h1⟩
  | opaquePointer h => rw [hd] at h; cases h; rfl
  | struct h h2 h3 => rw [hd] at h; cases h; exact ⟨_, rfl, h2, h3⟩
  | array h h1 => rw [hd] at h; cases h; exact ⟨_, rfl, h1⟩
  | fixedVector h h1 => rw [hd] at h; cases h; exact ⟨_, rfl, h1⟩
  | scalableVector h h1 => rw [hd] at h; cases h; exact ⟨_, rfl, h1⟩

/-- An entry stands for at most one type. -/
theorem Spec.Denotes.unique {ds : List TyDecl} {i : Nat} {t u : Ty} (ht : Denotes ds i t) (hu : Denotes ds i u) : t = u := by
  induction ht generalizing u with
  | prim h => exact (hu.inv h).symm
  | opaquePointer h => exact (hu.inv h).symm
  | integer h => obtain ⟨w, rfl, hw⟩ := hu.inv h; rw [BitVec.eq_of_toNat_eq hw]
  | function h _ hl _ ih1 ih2 =>
    obtain ⟨tr, tps, rfl, h1, hl', h2⟩ := hu.inv h
    rw [ih1 h1, ext_of hl hl' fun k j t u hj ht hu => ih2 k j t hj ht (h2 k j u hj hu)]
  | struct h hl _ ih2 =>
    obtain ⟨tps, rfl, hl', h2⟩ := hu.inv h
    rw [ext_of hl hl' fun k j t u hj ht hu => ih2 k j t hj ht (h2 k j u hj hu)]
  | pointer h _ ih => obtain ⟨te, rfl, h1⟩ := hu.inv h; rw [ih h1]
  | array h _ ih => obtain ⟨te, rfl, h1⟩ := hu.inv h; rw [ih h1]
  | fixedVector h _ ih => obtain ⟨te, rfl, h1⟩ := hu.inv h; rw [ih h1]; rfl
  | scalableVector h _ ih => obtain ⟨te, rfl, h1⟩ := hu.inv h; rw [ih h1]; rfl

theorem DenoteAll.sub {ds : List TyDecl} {l : List Nat} {ts : List Ty} (h : DenoteAll ds l ts) {j : Nat} (hj : j ∈ l) :
    ∃ u ∈ ts, Denotes ds j u := by
  obtain ⟨k, hk⟩ := List.mem_iff_getElem?.1 hj
  have hk' : k < ts.length := by rw [h.1]; exact (List.getElem?_eq_some_iff.1 hk).1
  exact ⟨ts[k], List.getElem_mem hk', h.2 k j _ hk (List.getElem?_eq_getElem hk')⟩

/-- The references of an entry stand for smaller types than the entry. -/
theorem Spec.Denotes.sub {ds : List TyDecl} {i : Nat} {t : Ty} {d : TyDecl} (h : Denotes ds i t) (hd : ds[i]? = some d) {j : Nat}
    (hj : j ∈ d.refs) : ∃ u, Denotes ds j u ∧ sizeOf u < sizeOf t := by
  have hi := h.inv hd
  cases d with
  | prim p => simp [TyDecl.refs] at hj
  | integer p => simp [TyDecl.refs] at hj
  | opaquePointer p => simp [TyDecl.refs] at hj
  | function r ps v =>
    obtain ⟨tr, tps, rfl, h1, h2⟩ := hi
    rcases List.mem_cons.1 hj with rfl | hj
    · exact ⟨tr, h1, by simp; omega⟩
    · obtain ⟨u, hu, hd⟩ := h2.sub hj
      have := List.sizeOf_lt_of_mem hu
      exact ⟨u, hd, by simp; omega⟩
  | struct n fs p =>
    obtain ⟨tfs, rfl, h2⟩ := hi
    obtain ⟨u, hu, hd⟩ := h2.sub hj
    have := List.sizeOf_lt_of_mem hu
    exact ⟨u, hd, by simp; omega⟩
  | pointer p a =>
    obtain ⟨te, rfl, h1⟩ := hi
    simp [TyDecl.refs] at hj; subst hj
    exact ⟨te, h1, by simp; omega⟩
  | array n e =>
    obtain ⟨te, rfl, h1⟩ := hi
    simp [TyDecl.refs] at hj; subst hj
    exact ⟨te, h1, by simp; omega⟩
  | vector s n e =>
    obtain ⟨te, rfl, h1⟩ := hi
    simp [TyDecl.refs] at hj; subst hj
    exact ⟨te, h1, by cases s <;> simp <;> omega⟩

/-- A table whose entries all stand for types has no circle of references. -/
theorem acyclic_of_denotes {ds : List TyDecl} {ts : List Ty} (hl : ts.length = ds.length)
    (h : ∀ (i : Nat) (t : Ty), ts[i]? = some t → Denotes ds i t) : Acyclic ds := by
  refine ⟨fun i => (ts[i]?).elim 0 sizeOf, fun i d hd j hj => ?_⟩
  have hi : i < ts.length := by rw [hl]; exact (List.getElem?_eq_some_iff.1 hd).1
  have hti := List.getElem?_eq_getElem hi
  obtain ⟨u, hu, hs⟩ := (h i _ hti).sub hd hj
  have hj' : j < ds.length := by
    refine Nat.lt_of_not_le fun hge => ?_
    have := List.getElem?_eq_none hge
    cases hu <;> simp_all
  have htj := List.getElem?_eq_getElem (l := ts) (i := j) (by omega)
  rw [hu.unique (h j _ htj)] at hs
  simp only [hti, htj, Option.elim]
  exact hs

/-! ### Recursions that do not end -/

theorem mapOut_diverge {ε α β : Type} {f : α → Out ε β} {pre post : List α} {a : α}
    (hp : ∀ x ∈ pre, (∃ t, f x = .ok t) ∨ f x = .diverge) (ha : f a = .diverge) : mapOut f (pre ++ a :: post) = .diverge := by
  induction pre with
  | nil => simp only [List.nil_append, mapOut, ha, Out.diverge_bind]
  | cons x pre ih =>
    simp only [List.cons_append, mapOut]
    rcases hp x (by simp) with ⟨t, ht⟩ | ht
    · rw [ht, Out.ok_bind, ih fun y hy => hp y (by simp [hy])]; rfl
    · rw [ht]; rfl

theorem resolve_diverge {f : TypeRef → Out TypeTableError Ty} {p : PType} {pre post : List TypeRef} {a : TypeRef}
    (hr : p.refs = pre ++ a :: post) (hp : ∀ x ∈ pre, (∃ t, f x = .ok t) ∨ f x = .diverge) (ha : f a = .diverge) :
    p.resolve f = .diverge := by
  have single : ∀ {x : TypeRef}, [x] = pre ++ a :: post → f x = .diverge := by
    intro x hx
    cases pre with
    | nil => simp at hx; rw [hx.1]; exact ha
    | cons y pre => simp at hx
  cases p with
  | prim _ => simp [PType.refs] at hr
  | integer _ => simp [PType.refs] at hr
  | opaquePointer _ => simp [PType.refs] at hr
  | function r ps v =>
    simp only [PType.refs] at hr
    cases pre with
    | nil =>
      simp only [List.nil_append, List.cons.injEq] at hr
      simp only [PType.resolve, hr.1, ha]; rfl
    | cons y pre =>
      simp only [List.cons_append, List.cons.injEq] at hr
      obtain ⟨rfl, rfl⟩ := hr
      simp only [PType.resolve]
      rcases hp r (by simp) with ⟨t, ht⟩ | ht
      · rw [ht, Out.ok_bind, mapOut_diverge (fun x hx => hp x (by simp [hx])) ha]; rfl
      · rw [ht]; rfl
  | struct n fs q =>
    simp only [PType.refs] at hr
    simp only [PType.resolve, hr]
    rw [mapOut_diverge hp ha]; rfl
  | pointer e a => simp only [PType.resolve]; rw [single hr]; rfl
  | array n e => simp only [PType.resolve]; rw [single hr]; rfl
  | fixedVector n e => simp only [PType.resolve]; rw [single hr]; rfl
  | scalableVector n e => simp only [PType.resolve]; rw [single hr]; rfl

theorem resolveRef_ok_or (n : Nat) (r : TypeRef) (t : Ty) (hd : Denotes (table.map PType.toDecl) r.toNat t) (hv : Valid t) :
    (∃ t, resolveRef table n r = .ok t) ∨ resolveRef table n r = .diverge := by
  by_cases h : resolveRef table n r = .diverge
  · exact .inr h
  · left
    refine ⟨t, ?_⟩
    rw [← resolveRef_mono_add table n (sizeOf t + 1) r h, ← Nat.add_assoc]
    exact resolveRef_complete _ r t (by omega) hd hv

theorem resolve_loop {S : Nat → Prop} (hS : Loop (table.map PType.toDecl) S) (n : Nat) {i : Nat} (hi : S i) {p : PType}
    (hp : table[i]? = some p) (ih : ∀ r : TypeRef, S r.toNat → resolveRef table n r = .diverge) :
    p.resolve (resolveRef table n) = .diverge := by
  obtain ⟨d, pre, j, post, hd, hr, hj, hpre⟩ := hS i hi
  rw [List.getElem?_map, hp, Option.map_some, Option.some.injEq] at hd
  subst hd
  rw [PType.toDecl_refs] at hr
  obtain ⟨l1, l2, h1, rfl, h2⟩ := List.map_eq_append_iff.1 hr
  obtain ⟨a, l3, rfl, rfl, rfl⟩ := List.map_eq_cons_iff.1 h2
  refine resolve_diverge h1 (fun x hx => ?_) (ih a hj)
  obtain ⟨t, ht, hv⟩ := hpre x.toNat (List.mem_map.2 ⟨x, hx, rfl⟩)
  exact resolveRef_ok_or n x t ht hv

theorem resolveRef_loop {S : Nat → Prop} (hS : Loop (table.map PType.toDecl) S) (n : Nat) (r : TypeRef) (hr : S r.toNat) :
    resolveRef table n r = .diverge := by
  induction n generalizing r with
  | zero => rfl
  | succ n ih =>
    have ⟨p, hp⟩ : ∃ p, table[r.toNat]? = some p := by
      obtain ⟨d, _, _, _, hd, _⟩ := hS _ hr
      rw [List.getElem?_map, Option.map_eq_some_iff] at hd
      obtain ⟨p, hp, -⟩ := hd; exact ⟨p, hp⟩
    rw [resolveRef, hp]
    exact resolve_loop hS n hr hp ih

theorem reifyTypes_loop {S : Nat → Prop} (hS : Loop (table.map PType.toDecl) S)
    (hall : ∀ i < table.length, S i ∨ ∃ t, Denotes (table.map PType.toDecl) i t ∧ Valid t) (i : Nat) (hi : i < table.length)
    (hs : S i) : reifyTypes table.length table = .diverge := by
  unfold reifyTypes
  rw [if_neg (by simp)]
  have hsplit : table = table.take i ++ table[i] :: table.drop (i + 1) := by
    rw [List.getElem_cons_drop, List.take_append_drop]
  generalize hf : PType.resolve (resolveRef table (table.length + 1)) = f
  rw [hsplit]
  subst hf
  refine mapOut_diverge (fun p hp => ?_) ?_
  · obtain ⟨k, hk, rfl⟩ := List.mem_take_iff_getElem.1 hp
    have hk' : k < table.length := by omega
    rcases hall k hk' with hs' | ⟨t, ht, hv⟩
    · exact .inr (resolve_loop hS _ hs' (List.getElem?_eq_getElem hk') fun r hr => resolveRef_loop hS _ r hr)
    · refine .inl ⟨t, ?_⟩
      rw [resolveRef_stable_fun table (sizeOf t)]
      refine resolve_complete (n := sizeOf t) (fun r t' hs hd hv => ?_) (List.getElem?_eq_getElem hk') (Nat.le_refl _) ht hv
      rw [show table.length + 1 + sizeOf t = (table.length + sizeOf t) + 1 by omega]
      exact resolveRef_complete _ r t' (by omega) hd hv
  · exact resolve_loop hS _ hs (List.getElem?_eq_getElem hi) fun r hr => resolveRef_loop hS _ r hr

end Verif
