import Verif.Props.Stderr

/-! The messages of an error and its causes determine the error. -/

namespace Verif.Props
open Verif.Spec

/-- Two texts that differ somewhere before either of them ends. -/
def clash : Str → Str → Bool
  | a :: as, b :: bs => a != b || clash as bs
  | _, _ => false

theorem clash_ne {a b : Str} (h : clash a b = true) (x y : Str) : a ++ x ≠ b ++ y := by
  induction a generalizing b with
  | nil => simp [clash] at h
  | cons c cs ih =>
    cases b with
    | nil => simp [clash] at h
    | cons d ds =>
      intro he
      simp only [List.cons_append, List.cons.injEq] at he
      simp only [clash, Bool.or_eq_true, bne_iff_ne] at h
      rcases h with h | h
      · exact h he.1
      · exact ih h he.2

theorem clash_tt {a b x y : Str} (h : clash a b = true) : a ++ x ≠ b ++ y := clash_ne h x y

/-- No two texts of the list begin alike. -/
def allClash : List Str → Bool
  | [] => true
  | a :: l => l.all (clash a) && allClash l

theorem clash_comm (a b : Str) : clash a b = clash b a := by
  induction a generalizing b with
  | nil => cases b <;> rfl
  | cons c cs ih =>
    cases b with
    | nil => rfl
    | cons d ds => simp only [clash, ih ds, bne_comm (a := c)]

theorem allClash_get {l : List Str} (h : allClash l = true) {i j : Nat} {a b : Str} (hi : l[i]? = some a) (hj : l[j]? = some b)
    (hne : i ≠ j) : clash a b = true := by
  induction l generalizing i j with
  | nil => simp at hi
  | cons c l ih =>
    rw [allClash, Bool.and_eq_true, List.all_eq_true] at h
    cases i with
    | zero =>
      cases j with
      | zero => exact absurd rfl hne
      | succ j =>
        rw [List.getElem?_cons_zero, Option.some.injEq] at hi
        rw [List.getElem?_cons_succ] at hj
        rw [← hi]
        exact h.1 b (List.mem_of_getElem? hj)
    | succ i =>
      rw [List.getElem?_cons_succ] at hi
      cases j with
      | zero =>
        rw [List.getElem?_cons_zero, Option.some.injEq] at hj
        rw [← hj, clash_comm]
        exact h.1 a (List.mem_of_getElem? hi)
      | succ j =>
        rw [List.getElem?_cons_succ] at hj
        exact ih h.2 hi hj (by omega)

/-- The characters of literals. They are found by unification: reducing `String.toList` is slow. -/
inductive Literals : List String → List Str → Prop
  | nil : Literals [] []
  | cons {c : List Char} {l : List String} {cs : List Str} : Literals l cs → Literals (String.ofList c :: l) (c :: cs)

theorem literals_get {l : List String} {cs : List Str} (h : Literals l cs) {i : Nat} {s : String} (hi : l[i]? = some s) :
    cs[i]? = some s.toList := by
  induction h generalizing i with
  | nil => simp at hi
  | cons _ ih =>
    cases i with
    | zero =>
      rw [List.getElem?_cons_zero, Option.some.injEq] at hi
      rw [List.getElem?_cons_zero, ← hi, String.toList_ofList]
    | succ i => exact ih hi

/-- The text begins with the `i`-th of the literals. -/
def Begins (l : List String) (i : Nat) (s : Str) : Prop := ∃ p x, l[i]? = some p ∧ s = p.toList ++ x

theorem begins_inj {l : List String} {cs : List Str} (h : Literals l cs) (hc : allClash cs = true) {i j : Nat} {s t : Str}
    (hi : Begins l i s) (hj : Begins l j t) (he : s = t) : i = j := by
  obtain ⟨p, x, h1, rfl⟩ := hi
  obtain ⟨q, y, h2, h3⟩ := hj
  apply Classical.byContradiction
  intro hne
  exact clash_ne (allClash_get hc (literals_get h h1) (literals_get h h2) hne) x y (he.trans h3)

theorem begins_with {l : List String} {i : Nat} {p : String} {x : Str} (h : l[i]? = some p) : Begins l i (p.toList ++ x) :=
  ⟨p, x, h, rfl⟩
theorem begins_with₂ {l : List String} {i : Nat} {p : String} {x y : Str} (h : l[i]? = some p) : Begins l i (p.toList ++ x ++ y) :=
  ⟨p, x ++ y, h, List.append_assoc ..⟩
theorem begins_bare {l : List String} {i : Nat} {p : String} (h : l[i]? = some p) : Begins l i p.toList :=
  ⟨p, [], h, (List.append_nil _).symm⟩

/-- A text that begins, but not with a digit. -/
def nonDigit : Str → Bool
  | [] => false
  | c :: _ => !(decide (48 ≤ c.toNat) && decide (c.toNat ≤ 57))

theorem decimal_then {n m : Nat} {s s' x y : Str} (hs : nonDigit s = true) (hs' : nonDigit s' = true)
    (h : decimal n ++ (s ++ x) = decimal m ++ (s' ++ y)) : n = m ∧ s ++ x = s' ++ y := by
  have aux : ∀ (a b : Str), (∀ c ∈ a, 48 ≤ c.toNat ∧ c.toNat ≤ 57) → (∀ c ∈ b, 48 ≤ c.toNat ∧ c.toNat ≤ 57) →
      a ++ (s ++ x) = b ++ (s' ++ y) → a = b ∧ s ++ x = s' ++ y := by
    intro a
    induction a with
    | nil =>
      intro b _ hb he
      cases b with
      | nil => exact ⟨rfl, he⟩
      | cons d ds =>
        cases s with
        | nil => cases hs
        | cons c cs =>
          simp only [List.nil_append, List.cons_append, List.cons.injEq] at he
          have := hb d (by simp)
          rw [← he.1] at this
          simp [nonDigit, this.1, this.2] at hs
    | cons c cs ih =>
      intro b ha hb he
      cases b with
      | nil =>
        cases s' with
        | nil => cases hs'
        | cons d ds =>
          simp only [List.nil_append, List.cons_append, List.cons.injEq] at he
          have := ha c (by simp)
          rw [he.1] at this
          simp [nonDigit, this.1, this.2] at hs'
      | cons d ds =>
        simp only [List.cons_append, List.cons.injEq] at he
        obtain ⟨h1, h2⟩ := ih ds (fun x hx => ha x (List.mem_cons_of_mem _ hx)) (fun x hx => hb x (List.mem_cons_of_mem _ hx)) he.2
        exact ⟨by rw [he.1, h1], h2⟩
  obtain ⟨h1, h2⟩ := aux _ _ (fun _ => decimal_digit) (fun _ => decimal_digit) h
  exact ⟨decimal_inj h1, h2⟩

theorem decimal_then_same {n m : Nat} {s x y : Str} (hs : nonDigit s = true)
    (h : decimal n ++ (s ++ x) = decimal m ++ (s ++ y)) : n = m ∧ x = y := by
  obtain ⟨h1, h2⟩ := decimal_then hs hs h
  exact ⟨h1, List.append_cancel_left h2⟩

theorem decimal_end {n m : Nat} {s : Str} (h : decimal n ++ s = decimal m ++ s) : n = m := decimal_inj (List.append_cancel_right h)

theorem bits_decimal {w : Nat} {a b : BitVec w} (h : decimal a.toNat = decimal b.toNat) : a = b :=
  BitVec.eq_of_toNat_eq (decimal_inj h)

theorem noDiscriminant_inj {name : String} {v w : U64} (h : Stderr.noDiscriminant name v = Stderr.noDiscriminant name w) : v = w := by
  unfold Stderr.noDiscriminant at h
  have h := List.append_cancel_left (List.append_cancel_left (List.append_cancel_left h))
  exact BitVec.eq_of_toNat_eq (decimal_end h)

/-! ## Types -/

/-- The beginning of the text of a type. -/
def typeHead : Ty → Str
  | .prim p => Stderr.primName p
  | .integer _ => "Integer(IntegerType { bit_width: ".toList
  | .function .. => "Function(FunctionType { return_type: ".toList
  | .pointer .. => "Pointer(PointerType { pointee: ".toList
  | .opaquePointer _ => "OpaquePointer(AddressSpace(".toList
  | .struct .. => "Struct(StructType { name: ".toList
  | .array .. => "Array(ArrayType { num_elements: ".toList
  | .fixedVector .. => "FixedVector(VectorType { num_elements: ".toList
  | .scalableVector .. => "ScalableVector(VectorType { num_elements: ".toList

/-- What follows it. -/
def typeTail (plain : Char → Bool) : Ty → Str
  | .prim _ => []
  | .integer w => decimal w.toNat ++ " })".toList
  | .function r ps v => Stderr.typeDebug plain r ++ (", param_types: [".toList ++ (Stderr.commas (Stderr.typesDebug plain ps) ++
      ("], is_vararg: ".toList ++ (Stderr.debugBool v ++ " })".toList))))
  | .pointer t a => Stderr.typeDebug plain t ++ (", address_space: AddressSpace(".toList ++ (decimal a.val.toNat ++ ") })".toList))
  | .opaquePointer a => decimal a.val.toNat ++ "))".toList
  | .struct n fs p => Stderr.debugName plain n ++ (", fields: [".toList ++ (Stderr.commas (Stderr.typesDebug plain fs) ++
      ("], is_packed: ".toList ++ (Stderr.debugBool p ++ " })".toList))))
  | .array n t => decimal n.toNat ++ (", element_type: ".toList ++ (Stderr.typeDebug plain t ++ " })".toList))
  | .fixedVector n t => decimal n.toNat ++ (", element_type: ".toList ++ (Stderr.typeDebug plain t ++ " })".toList))
  | .scalableVector n t => decimal n.toNat ++ (", element_type: ".toList ++ (Stderr.typeDebug plain t ++ " })".toList))

theorem tuple_one {T S f v H E : Str} (hH : H = T ++ ("(".toList ++ (S ++ (" { ".toList ++ (f ++ ": ".toList)))))
    (hE : E = " }".toList ++ ")".toList) : Stderr.debugTuple T (Stderr.debugStruct S [(f, v)]) = H ++ (v ++ E) := by
  subst hH hE
  show T ++ (_ ++ ((S ++ (_ ++ ((f ++ (_ ++ v)) ++ _))) ++ _)) = _
  generalize "(".toList = p, ")".toList = q, " { ".toList = b, " }".toList = c, ": ".toList = k
  simp only [List.append_assoc]

theorem tuple_two {T S f g v w H M E : Str} (hH : H = T ++ ("(".toList ++ (S ++ (" { ".toList ++ (f ++ ": ".toList)))))
    (hM : M = ", ".toList ++ (g ++ ": ".toList)) (hE : E = " }".toList ++ ")".toList) :
    Stderr.debugTuple T (Stderr.debugStruct S [(f, v), (g, w)]) = H ++ (v ++ (M ++ (w ++ E))) := by
  subst hH hE hM
  show T ++ (_ ++ ((S ++ (_ ++ (((f ++ (_ ++ v)) ++ (_ ++ (g ++ (_ ++ w)))) ++ _))) ++ _)) = _
  generalize "(".toList = p, ")".toList = q, " { ".toList = b, " }".toList = c, ": ".toList = k, ", ".toList = m
  simp only [List.append_assoc]

theorem tuple_three {T S f g i v w x H M N E : Str} (hH : H = T ++ ("(".toList ++ (S ++ (" { ".toList ++ (f ++ ": ".toList)))))
    (hM : M = ", ".toList ++ (g ++ ": ".toList)) (hN : N = ", ".toList ++ (i ++ ": ".toList))
    (hE : E = " }".toList ++ ")".toList) :
    Stderr.debugTuple T (Stderr.debugStruct S [(f, v), (g, w), (i, x)]) = H ++ (v ++ (M ++ (w ++ (N ++ (x ++ E))))) := by
  subst hH hE hM hN
  show T ++ (_ ++ ((S ++ (_ ++ (((f ++ (_ ++ v)) ++ (_ ++ ((g ++ (_ ++ w)) ++ (_ ++ (i ++ (_ ++ x)))))) ++ _))) ++ _)) = _
  generalize "(".toList = p, ")".toList = q, " { ".toList = b, " }".toList = c, ": ".toList = k, ", ".toList = m
  simp only [List.append_assoc]

/-- The lists in types: their elements, in brackets. -/
theorem in_list {M N M' N' l r : Str} (hM : M' = M ++ "[".toList) (hN : N' = "]".toList ++ N) :
    M ++ (("[".toList ++ (l ++ "]".toList)) ++ (N ++ r)) = M' ++ (l ++ (N' ++ r)) := by
  subst hM hN
  generalize "[".toList = p, "]".toList = q
  simp only [List.append_assoc]

/-- The address space at the end of types. -/
theorem in_space {M E M' E' l : Str} (hM : M' = M ++ ("AddressSpace".toList ++ "(".toList)) (hE : E' = ")".toList ++ E) :
    M ++ (("AddressSpace".toList ++ ("(".toList ++ (l ++ ")".toList))) ++ E) = M' ++ (l ++ E') := by
  subst hM hE
  generalize "(".toList = p, ")".toList = q, "AddressSpace".toList = a
  simp only [List.append_assoc]

theorem typeDebug_eq (plain : Char → Bool) (t : Ty) : Stderr.typeDebug plain t = typeHead t ++ typeTail plain t := by
  have hE : " })".toList = " }".toList ++ ")".toList := by decide +kernel
  cases t with
  | prim p => exact (List.append_nil _).symm
  | integer w => exact tuple_one (H := "Integer(IntegerType { bit_width: ".toList) (by decide +kernel) hE
  | function r ps v =>
    have h := tuple_three (T := "Function".toList) (S := "FunctionType".toList) (f := "return_type".toList)
      (g := "param_types".toList) (i := "is_vararg".toList) (v := Stderr.typeDebug plain r)
      (w := Stderr.debugList (Stderr.typesDebug plain ps)) (x := Stderr.debugBool v)
      (H := "Function(FunctionType { return_type: ".toList) (M := ", param_types: ".toList) (N := ", is_vararg: ".toList)
      (by decide +kernel) (by decide +kernel) (by decide +kernel) hE
    refine h.trans (congrArg _ (congrArg _ ?_))
    exact in_list (by decide +kernel) (by decide +kernel)
  | pointer t a =>
    have h := tuple_two (T := "Pointer".toList) (S := "PointerType".toList) (f := "pointee".toList)
      (g := "address_space".toList) (v := Stderr.typeDebug plain t) (w := Stderr.spaceDebug a)
      (H := "Pointer(PointerType { pointee: ".toList) (M := ", address_space: ".toList)
      (by decide +kernel) (by decide +kernel) hE
    refine h.trans (congrArg _ (congrArg _ ?_))
    exact in_space (by decide +kernel) (by decide +kernel)
  | opaquePointer a =>
    show "OpaquePointer".toList ++ ("(".toList ++ (_ ++ ")".toList)) = _
    refine Eq.trans ?_ (in_space (M := "OpaquePointer(".toList) (M' := "OpaquePointer(AddressSpace(".toList) (E := ")".toList) (by decide +kernel) (by decide +kernel))
    rw [show "OpaquePointer(".toList = "OpaquePointer".toList ++ "(".toList by decide +kernel, List.append_assoc]
    rfl
  | struct n fs p =>
    have h := tuple_three (T := "Struct".toList) (S := "StructType".toList) (f := "name".toList)
      (g := "fields".toList) (i := "is_packed".toList) (v := Stderr.debugName plain n)
      (w := Stderr.debugList (Stderr.typesDebug plain fs)) (x := Stderr.debugBool p)
      (H := "Struct(StructType { name: ".toList) (M := ", fields: ".toList) (N := ", is_packed: ".toList)
      (by decide +kernel) (by decide +kernel) (by decide +kernel) hE
    refine h.trans (congrArg _ (congrArg _ ?_))
    exact in_list (by decide +kernel) (by decide +kernel)
  | array n t => exact tuple_two (H := "Array(ArrayType { num_elements: ".toList) (by decide +kernel) (by decide +kernel) hE
  | fixedVector n t => exact tuple_two (H := "FixedVector(VectorType { num_elements: ".toList) (by decide +kernel) (by decide +kernel) hE
  | scalableVector n t => exact tuple_two (H := "ScalableVector(VectorType { num_elements: ".toList) (by decide +kernel) (by decide +kernel) hE

/-- The constructors. -/
def typeKind : Ty → Nat
  | .prim .half => 0
  | .prim .bFloat => 1
  | .prim .float => 2
  | .prim .double => 3
  | .prim .metadata => 4
  | .prim .x86Fp80 => 5
  | .prim .fp128 => 6
  | .prim .ppcFp128 => 7
  | .prim .void => 8
  | .prim .label => 9
  | .prim .x86Mmx => 10
  | .prim .x86Amx => 11
  | .prim .token => 12
  | .integer _ => 13
  | .function .. => 14
  | .pointer .. => 15
  | .opaquePointer _ => 16
  | .struct .. => 17
  | .array .. => 18
  | .fixedVector .. => 19
  | .scalableVector .. => 20

/-- How they begin. -/
def typeHeads : List String :=
  ["Half", "BFloat", "Float", "Double", "Metadata", "X86Fp80", "Fp128", "PpcFp128", "Void", "Label", "X86Mmx", "X86Amx", "Token",
    "Integer(IntegerType { bit_width: ", "Function(FunctionType { return_type: ", "Pointer(PointerType { pointee: ",
    "OpaquePointer(AddressSpace(", "Struct(StructType { name: ", "Array(ArrayType { num_elements: ",
    "FixedVector(VectorType { num_elements: ", "ScalableVector(VectorType { num_elements: "]

theorem typeHead_eq (t : Ty) : typeKind t < 21 ∧ typeHead t = (typeHeads.getD (typeKind t) "").toList := by
  cases t with
  | prim p => cases p <;> exact ⟨by decide, rfl⟩
  | _ => exact ⟨by show (_ : Nat) < 21; simp only [typeKind]; decide, rfl⟩

theorem typeHeads_clash : ∀ i < 21, ∀ j < 21, i ≠ j → clash (typeHeads.getD i "").toList (typeHeads.getD j "").toList = true := by
  decide +kernel

theorem typeHead_inj {t t' : Ty} {x y : Str} (h : typeHead t ++ x = typeHead t' ++ y) : typeKind t = typeKind t' := by
  obtain ⟨h1, h2⟩ := typeHead_eq t
  obtain ⟨h3, h4⟩ := typeHead_eq t'
  rw [h2, h4] at h
  exact Classical.byContradiction fun hne => clash_ne (typeHeads_clash _ h1 _ h3 hne) _ _ h

theorem typeHead_first (t : Ty) : ∃ c cs, typeHead t = c :: cs ∧ c ≠ ']' := by
  obtain ⟨h1, h2⟩ := typeHead_eq t
  have : ∀ i < 21, (match (typeHeads.getD i "").toList with | [] => false | c :: _ => decide (c ≠ ']')) = true := by decide +kernel
  have := this _ h1
  rw [← h2] at this
  cases h : typeHead t with
  | nil => rw [h] at this; cases this
  | cons c cs => rw [h] at this; exact ⟨c, cs, rfl, of_decide_eq_true this⟩

theorem bool_prefix {a b : Bool} {x y : Str} (h : Stderr.debugBool a ++ x = Stderr.debugBool b ++ y) : a = b ∧ x = y := by
  cases a <;> cases b
  · exact ⟨rfl, List.append_cancel_left h⟩
  · exact absurd h (clash_tt (a := "false".toList) (b := "true".toList) (by decide +kernel))
  · exact absurd h (clash_tt (a := "true".toList) (b := "false".toList) (by decide +kernel))
  · exact ⟨rfl, List.append_cancel_left h⟩

theorem literal_prefix {a b s s' x y : Str} (h : IsLiteral a s) (h' : IsLiteral b s') (he : a ++ x = b ++ y) : s = s' ∧ x = y := by
  obtain ⟨l, rfl, hl⟩ := h
  obtain ⟨l', rfl, hl'⟩ := h'
  simp only [List.cons_append, List.append_assoc, List.cons.injEq, true_and, List.nil_append] at he
  exact spellsAll_unique hl hl' he

theorem name_prefix {plain plain' : Char → Bool} {a b : Option Str} {x y : Str}
    (h : Stderr.debugName plain a ++ x = Stderr.debugName plain' b ++ y) : a = b ∧ x = y := by
  cases a with
  | none =>
    cases b with
    | none => exact ⟨rfl, List.append_cancel_left h⟩
    | some s =>
      have h : "None".toList ++ x = ("Some".toList ++ _) ++ y := h
      rw [List.append_assoc] at h
      exact absurd h (clash_tt (by decide +kernel))
  | some s =>
    cases b with
    | none =>
      have h : ("Some".toList ++ _) ++ x = "None".toList ++ y := h
      rw [List.append_assoc] at h
      exact absurd h (clash_tt (by decide +kernel))
    | some s' =>
      have h : ("Some".toList ++ ("(".toList ++ (Print.quote plain s ++ ")".toList))) ++ x =
        ("Some".toList ++ ("(".toList ++ (Print.quote plain' s' ++ ")".toList))) ++ y := h
      rw [List.append_assoc, List.append_assoc, List.append_assoc, List.append_assoc, List.append_assoc, List.append_assoc] at h
      obtain ⟨h1, h2⟩ := literal_prefix (C75_quoted plain s) (C75_quoted plain' s')
        (List.append_cancel_left (List.append_cancel_left h))
      exact ⟨by rw [h1], List.append_cancel_left h2⟩

theorem commas_cons (a : Str) (l : List Str) (x : Str) :
    Stderr.commas (a :: l) ++ x = a ++ (match l with | [] => x | l => ", ".toList ++ (Stderr.commas l ++ x)) := by
  cases l with
  | nil => rfl
  | cons b l =>
    show (a ++ (", ".toList ++ Stderr.commas (b :: l))) ++ x = _
    rw [List.append_assoc, List.append_assoc]

theorem type_first {plain : Char → Bool} {t : Ty} {x y : Str} : Stderr.typeDebug plain t ++ x ≠ ']' :: y := by
  obtain ⟨c, cs, h, hc⟩ := typeHead_first t
  rw [typeDebug_eq, h]
  intro he
  exact hc (List.cons.inj he).1

theorem space_eq {a b : AddressSpace} (h : a.val.toNat = b.val.toNat) : a = b := by
  cases a
  cases b
  exact congrArg _ (BitVec.eq_of_toNat_eq h)

mutual
/-- The text of a type determines it, whatever follows. -/
theorem type_prefix (plain plain' : Char → Bool) : ∀ (t t' : Ty) (x y : Str),
    Stderr.typeDebug plain t ++ x = Stderr.typeDebug plain' t' ++ y → t = t' ∧ x = y
  | .prim p, t', x, y => fun h => by
    have h' := h
    rw [typeDebug_eq, typeDebug_eq, List.append_assoc, List.append_assoc] at h'
    have hk := typeHead_inj h'
    cases t' with
    | prim q =>
      have hpq : p = q := by cases p <;> cases q <;> first | rfl | cases hk
      subst hpq
      exact ⟨rfl, List.append_cancel_left h⟩
    | _ => cases p <;> cases hk
  | .integer w, t', x, y => fun h => by
    rw [typeDebug_eq, typeDebug_eq, List.append_assoc, List.append_assoc] at h
    have hk := typeHead_inj h
    cases t' with
    | integer w' =>
      have h := List.append_cancel_left h
      simp only [typeTail, List.append_assoc] at h
      obtain ⟨h1, h2⟩ := decimal_then_same (by decide +kernel) h
      exact ⟨by rw [BitVec.eq_of_toNat_eq h1], h2⟩
    | prim q => cases q <;> cases hk
    | _ => cases hk
  | .function r ps v, t', x, y => fun h => by
    rw [typeDebug_eq, typeDebug_eq, List.append_assoc, List.append_assoc] at h
    have hk := typeHead_inj h
    cases t' with
    | function r' ps' v' =>
      have h := List.append_cancel_left h
      simp only [typeTail, List.append_assoc] at h
      obtain ⟨h1, h2⟩ := type_prefix plain plain' r r' _ _ h
      have h2 := List.append_cancel_left h2
      rw [show "], is_vararg: ".toList = ']' :: ", is_vararg: ".toList by decide +kernel] at h2
      obtain ⟨h3, h4⟩ := types_prefix plain plain' ps ps' _ _ h2
      obtain ⟨h5, h6⟩ := bool_prefix (List.append_cancel_left h4)
      exact ⟨by rw [h1, h3, h5], List.append_cancel_left h6⟩
    | prim q => cases q <;> cases hk
    | _ => cases hk
  | .pointer t a, t', x, y => fun h => by
    rw [typeDebug_eq, typeDebug_eq, List.append_assoc, List.append_assoc] at h
    have hk := typeHead_inj h
    cases t' with
    | pointer t' a' =>
      have h := List.append_cancel_left h
      simp only [typeTail, List.append_assoc] at h
      obtain ⟨h1, h2⟩ := type_prefix plain plain' t t' _ _ h
      obtain ⟨h3, h4⟩ := decimal_then_same (by decide +kernel) (List.append_cancel_left h2)
      exact ⟨by rw [h1, space_eq h3], h4⟩
    | prim q => cases q <;> cases hk
    | _ => cases hk
  | .opaquePointer a, t', x, y => fun h => by
    rw [typeDebug_eq, typeDebug_eq, List.append_assoc, List.append_assoc] at h
    have hk := typeHead_inj h
    cases t' with
    | opaquePointer a' =>
      have h := List.append_cancel_left h
      simp only [typeTail, List.append_assoc] at h
      obtain ⟨h3, h4⟩ := decimal_then_same (by decide +kernel) h
      exact ⟨by rw [space_eq h3], h4⟩
    | prim q => cases q <;> cases hk
    | _ => cases hk
  | .struct n fs p, t', x, y => fun h => by
    rw [typeDebug_eq, typeDebug_eq, List.append_assoc, List.append_assoc] at h
    have hk := typeHead_inj h
    cases t' with
    | struct n' fs' p' =>
      have h := List.append_cancel_left h
      simp only [typeTail, List.append_assoc] at h
      obtain ⟨h1, h2⟩ := name_prefix h
      have h2 := List.append_cancel_left h2
      rw [show "], is_packed: ".toList = ']' :: ", is_packed: ".toList by decide +kernel] at h2
      obtain ⟨h3, h4⟩ := types_prefix plain plain' fs fs' _ _ h2
      obtain ⟨h5, h6⟩ := bool_prefix (List.append_cancel_left h4)
      exact ⟨by rw [h1, h3, h5], List.append_cancel_left h6⟩
    | prim q => cases q <;> cases hk
    | _ => cases hk
  | .array n t, t', x, y => fun h => by
    rw [typeDebug_eq, typeDebug_eq, List.append_assoc, List.append_assoc] at h
    have hk := typeHead_inj h
    cases t' with
    | array n' t' =>
      have h := List.append_cancel_left h
      simp only [typeTail, List.append_assoc] at h
      obtain ⟨h1, h2⟩ := decimal_then_same (by decide +kernel) h
      obtain ⟨h3, h4⟩ := type_prefix plain plain' t t' _ _ h2
      exact ⟨by rw [BitVec.eq_of_toNat_eq h1, h3], List.append_cancel_left h4⟩
    | prim q => cases q <;> cases hk
    | _ => cases hk
  | .fixedVector n t, t', x, y => fun h => by
    rw [typeDebug_eq, typeDebug_eq, List.append_assoc, List.append_assoc] at h
    have hk := typeHead_inj h
    cases t' with
    | fixedVector n' t' =>
      have h := List.append_cancel_left h
      simp only [typeTail, List.append_assoc] at h
      obtain ⟨h1, h2⟩ := decimal_then_same (by decide +kernel) h
      obtain ⟨h3, h4⟩ := type_prefix plain plain' t t' _ _ h2
      exact ⟨by rw [BitVec.eq_of_toNat_eq h1, h3], List.append_cancel_left h4⟩
    | prim q => cases q <;> cases hk
    | _ => cases hk
  | .scalableVector n t, t', x, y => fun h => by
    rw [typeDebug_eq, typeDebug_eq, List.append_assoc, List.append_assoc] at h
    have hk := typeHead_inj h
    cases t' with
    | scalableVector n' t' =>
      have h := List.append_cancel_left h
      simp only [typeTail, List.append_assoc] at h
      obtain ⟨h1, h2⟩ := decimal_then_same (by decide +kernel) h
      obtain ⟨h3, h4⟩ := type_prefix plain plain' t t' _ _ h2
      exact ⟨by rw [BitVec.eq_of_toNat_eq h1, h3], List.append_cancel_left h4⟩
    | prim q => cases q <;> cases hk
    | _ => cases hk
/-- The same for the types in a list. -/
theorem types_prefix (plain plain' : Char → Bool) : ∀ (ts ts' : List Ty) (x y : Str),
    Stderr.commas (Stderr.typesDebug plain ts) ++ ']' :: x = Stderr.commas (Stderr.typesDebug plain' ts') ++ ']' :: y →
      ts = ts' ∧ x = y
  | [], ts', x, y => fun h => by
    cases ts' with
    | nil => exact ⟨rfl, (List.cons.inj h).2⟩
    | cons t' ts' =>
      simp only [Stderr.typesDebug] at h
      rw [commas_cons] at h
      exact absurd h.symm type_first
  | t :: ts, ts', x, y => fun h => by
    cases ts' with
    | nil =>
      simp only [Stderr.typesDebug] at h
      rw [commas_cons] at h
      exact absurd h type_first
    | cons t' ts' =>
      simp only [Stderr.typesDebug] at h
      rw [commas_cons, commas_cons] at h
      obtain ⟨h1, h2⟩ := type_prefix plain plain' t t' _ _ h
      cases ts with
      | nil =>
        cases ts' with
        | nil => exact ⟨by rw [h1], (List.cons.inj h2).2⟩
        | cons u' us' =>
          have h2 : [']'] ++ x = ", ".toList ++ _ := h2
          exact absurd h2 (clash_tt (by decide +kernel))
      | cons u us =>
        cases ts' with
        | nil =>
          have h2 : ", ".toList ++ _ = [']'] ++ y := h2
          exact absurd h2 (clash_tt (by decide +kernel))
        | cons u' us' =>
          obtain ⟨h3, h4⟩ := types_prefix plain plain' (u :: us) (u' :: us') x y (List.append_cancel_left h2)
          exact ⟨by rw [h1, h3], h4⟩
end

/-- C77. The text for a type in a message determines the type. -/
theorem C77_type (plain plain' : Char → Bool) (t t' : Ty) (h : Stderr.typeDebug plain t = Stderr.typeDebug plain' t') : t = t' :=
  (type_prefix plain plain' t t' [] [] (by rw [List.append_nil, List.append_nil]; exact h)).1

end Verif.Props
