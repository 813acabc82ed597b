import Verif.Bitstream.Reads

/-!
Reading back abbreviation definitions, abbreviated and unabbreviated records.
-/

set_option linter.unusedSimpArgs false

namespace Verif
open Spec Cursor

/-! ## How the definitions of the specification correspond to `Abbrev` -/

def Spec.Elem.op : Elem → AbbrevOp
  | .fixed w => .fixed w
  | .vbr w => .vbr w
  | .char6 => .char6

def Spec.Scalar.op : Scalar → AbbrevOp
  | .lit v => .literal v
  | .enc e => e.op

def Spec.Tail.ops : Tail → List AbbrevOp
  | .nothing => []
  | .array e => [.array e.op]
  | .blob => [.blob]

/-- The operand list (`Abbrev::operands`) of a definition. -/
def Spec.Def.abbrev (d : Def) : Abbrev := { operands := d.scalars.map Scalar.op ++ d.tail.ops }

/-! ## Definitions -/

theorem readsTryFrom {v : U64} {e : AbbrevOpEnc} (h : AbbrevOpEnc.tryFrom v = pure e) (pos : Nat) :
    Reads (AbbrevOpEnc.tryFrom v) pos [] e := by rw [h]; exact .pure _ _

theorem reads_parseArrayElem (pf : Profile) (e : Elem) (pos : Nat) :
    Reads (parseArrayElem pf) pos e.defBits e.op := by
  have key : ∀ (n : Nat) (enc : AbbrevOpEnc) (bs : List Bool), n < 8 →
      AbbrevOpEnc.tryFrom (BitVec.ofNat 64 n) = pure enc →
      (∀ pos, Reads (match enc with
        | .fixed => do let w ← cur (Cursor.readVbr pf 5); pure (AbbrevOp.fixed w)
        | .vbr => do let w ← cur (Cursor.readVbr pf 5); pure (AbbrevOp.vbr w)
        | .char6 => pure AbbrevOp.char6
        | elemEnc => (StM.throw (.abbrevParse (.arrayElement elemEnc)) : BM AbbrevOp)) pos bs e.op) →
      Reads (parseArrayElem pf) pos ([false] ++ (bitsOfNat 3 n ++ bs)) e.op := by
    intro n enc bs hn he hm
    unfold parseArrayElem
    refine (reads_bit false pos).cur.bind ?_
    have hv : (BitVec.ofNat 64 n).toNat = n := by simp; omega
    have h3 := reads_read (n := 3) (by omega) (by omega) (v := BitVec.ofNat 64 n) (by omega) (pos + 1)
    rw [hv] at h3
    refine h3.cur.bind ?_
    rw [he]
    exact hm _
  cases e with
  | fixed w =>
    simp only [Elem.defBits, List.append_assoc]
    exact key 1 .fixed _ (by omega) rfl fun pos => (reads_readVbr pf (by omega) (by omega) w pos).cur.bind_pure _
  | vbr w =>
    simp only [Elem.defBits, List.append_assoc]
    exact key 2 .vbr _ (by omega) rfl fun pos => (reads_readVbr pf (by omega) (by omega) w pos).cur.bind_pure _
  | char6 =>
    have := key 4 .char6 [] (by omega) rfl fun pos => .pure _ _
    simpa [Elem.defBits] using this

/-- Encoded operands after their first bit. -/
theorem reads_encoded (pf : Profile) (num idx : U64) (n : Nat) (enc : AbbrevOpEnc) (bs : List Bool) (r : AbbrevOp × Bool)
    (hn : n < 8) (he : AbbrevOpEnc.tryFrom (BitVec.ofNat 64 n) = pure enc)
    (hm : ∀ pos, Reads (match enc with
      | .fixed => do let w ← cur (Cursor.readVbr pf 5); pure (AbbrevOp.fixed w, false)
      | .vbr => do let w ← cur (Cursor.readVbr pf 5); pure (AbbrevOp.vbr w, false)
      | .array => do
        let last2 ← subU64 pf .abbrevArraySub num 2
        if idx ≠ last2 then StM.throw (.abbrevParse .arrayIndex)
        else do let elem ← parseArrayElem pf; pure (AbbrevOp.array elem, true)
      | .char6 => pure (AbbrevOp.char6, false)
      | .blob => do
        let last ← subU64 pf .abbrevBlobSub num 1
        if idx ≠ last then StM.throw (.abbrevParse .blobIndex)
        else (pure (AbbrevOp.blob, false) : BM (AbbrevOp × Bool))) pos bs r) (pos : Nat) :
    Reads (parseEncodedOperand pf num idx) pos (bitsOfNat 3 n ++ bs) r := by
  unfold parseEncodedOperand
  have hv : (BitVec.ofNat 64 n).toNat = n := by simp; omega
  have h3 := reads_read (n := 3) (by omega) (by omega) (v := BitVec.ofNat 64 n) (by omega) pos
  rw [hv] at h3
  refine h3.cur.bind ?_
  rw [he]
  exact hm _

theorem subU64_ok {σ ε : Type} (pf : Profile) (site : PanicSite) {a b : U64} (h : b.toNat ≤ a.toNat) :
    (subU64 pf site a b : StM σ ε U64) = pure (a - b) := by
  simp only [subU64]; rw [if_pos h]

theorem reads_parseOperands (pf : Profile) (num : U64) (ss : List Scalar) (t : Tail)
    (hlen : ss.length + t.numOps ≤ num.toNat) (pos : Nat) :
    Reads (parseOperands pf num (ss.length + t.numOps)) pos
      (scalarsDefBits ss ++ t.defBits) (ss.map Scalar.op ++ t.ops) := by
  induction ss generalizing pos with
  | nil =>
    cases t with
    | nothing => exact .pure _ _
    | array e =>
      simp only [List.length_nil, Nat.zero_add, Tail.numOps] at hlen
      simp only [List.length_nil, Nat.zero_add, Tail.numOps, scalarsDefBits, List.nil_append, List.map_nil, Tail.ops, Tail.defBits,
        parseOperands, List.append_assoc]
      refine (reads_bit false pos).cur.bind ?_
      rw [if_neg (by decide)]
      have henc := reads_encoded pf num (num - BitVec.ofNat 64 2) 3 .array e.defBits (AbbrevOp.array e.op, true)
        (by omega) rfl (by
          intro pos
          have h2 : (2 : U64).toNat ≤ num.toNat := hlen
          simp only [subU64_ok pf _ h2]
          have : Reads (if num - BitVec.ofNat 64 2 ≠ num - 2 then (StM.throw (.abbrevParse .arrayIndex) : BM (AbbrevOp × Bool))
            else do let elem ← parseArrayElem pf; pure (AbbrevOp.array elem, true)) pos e.defBits (AbbrevOp.array e.op, true) := by
            rw [if_neg (by simp)]
            exact (reads_parseArrayElem pf e pos).bind_pure _
          exact this) (pos + 1)
      rw [← List.append_nil (bitsOfNat 3 3 ++ e.defBits)]
      refine Reads.bind henc ?_
      exact .pure _ _
    | blob =>
      simp only [List.length_nil, Nat.zero_add, Tail.numOps] at hlen
      simp only [List.length_nil, Nat.zero_add, Tail.numOps, scalarsDefBits, List.nil_append, List.map_nil, Tail.ops, Tail.defBits,
        parseOperands, List.append_assoc]
      refine (reads_bit false pos).cur.bind ?_
      rw [if_neg (by decide)]
      have henc := reads_encoded pf num (num - BitVec.ofNat 64 1) 5 .blob [] (AbbrevOp.blob, false)
        (by omega) rfl (by
          intro pos
          have h2 : (1 : U64).toNat ≤ num.toNat := hlen
          simp only [subU64_ok pf _ h2]
          have : Reads (if num - BitVec.ofNat 64 1 ≠ num - 1 then (StM.throw (.abbrevParse .blobIndex) : BM (AbbrevOp × Bool))
            else pure (AbbrevOp.blob, false)) pos [] (AbbrevOp.blob, false) := by
            rw [if_neg (by simp)]
            exact .pure _ _
          exact this) (pos + 1)
      rw [List.append_nil] at henc
      rw [← List.append_nil (bitsOfNat 3 5)]
      refine Reads.bind henc ?_
      exact .pure _ _
  | cons s ss ih =>
    have hl : (s :: ss).length + t.numOps =
        (ss.length + t.numOps) + 1 := by simp; omega
    rw [hl] at hlen ⊢
    have ih' := ih (by omega)
    generalize hk : ss.length + t.numOps = k at *
    simp only [parseOperands, scalarsDefBits, List.append_assoc, List.map_cons, List.cons_append]
    have enc : ∀ (n : Nat) (opE : AbbrevOpEnc) (bs : List Bool) (op : AbbrevOp), n < 8 →
        s.op = op → s.defBits = [false] ++ (bitsOfNat 3 n ++ bs) →
        (Reads (parseEncodedOperand pf num (num - BitVec.ofNat 64 (k + 1))) (pos + 1) (bitsOfNat 3 n ++ bs) (op, false)) →
        Reads (do
          let operandKind ← cur (Cursor.read 1)
          if operandKind = 1 then do
            let val ← cur (Cursor.readVbr pf 8)
            let ops ← parseOperands pf num k
            pure (.literal val :: ops)
          else do
            let (op, doneEarly) ← parseEncodedOperand pf num (num - BitVec.ofNat 64 (k + 1))
            if doneEarly then pure [op]
            else do
              let ops ← parseOperands pf num k
              pure (op :: ops)) pos (s.defBits ++ (scalarsDefBits ss ++ t.defBits)) (s.op :: (ss.map Scalar.op ++ t.ops)) := by
      intro n opE bs op hn hop hbits henc
      rw [hbits, List.append_assoc, hop]
      refine (reads_bit false pos).cur.bind ?_
      rw [if_neg (by decide)]
      refine Reads.bind henc ?_
      simp only [Bool.false_eq_true, if_false]
      exact (ih' _).bind_pure _
    cases s with
    | lit v =>
      simp only [Scalar.defBits, Scalar.op, List.append_assoc]
      refine (reads_bit true pos).cur.bind ?_
      rw [if_pos (by decide)]
      refine (reads_readVbr pf (by omega) (by omega) v _).cur.bind ?_
      exact (ih' _).bind_pure _
    | enc e =>
      cases e with
      | fixed w =>
        refine enc 1 .fixed (encVbr 5 w) (.fixed w) (by omega) rfl (by simp [Scalar.defBits, Elem.defBits]) ?_
        exact reads_encoded pf _ _ 1 .fixed _ _ (by omega) rfl
          (fun pos => (reads_readVbr pf (by omega) (by omega) w pos).cur.bind_pure _) _
      | vbr w =>
        refine enc 2 .vbr (encVbr 5 w) (.vbr w) (by omega) rfl (by simp [Scalar.defBits, Elem.defBits]) ?_
        exact reads_encoded pf _ _ 2 .vbr _ _ (by omega) rfl
          (fun pos => (reads_readVbr pf (by omega) (by omega) w pos).cur.bind_pure _) _
      | char6 =>
        refine enc 4 .char6 [] .char6 (by omega) rfl (by simp [Scalar.defBits, Elem.defBits]) ?_
        exact reads_encoded pf _ _ 4 .char6 _ _ (by omega) rfl (fun pos => .pure _ _) _

theorem reads_abbrevNew (pf : Profile) (d : Def) (hd : d.Valid) (pos : Nat) :
    Reads (Abbrev.new pf) pos d.bits d.abbrev := by
  unfold Abbrev.new
  have hn : (BitVec.ofNat 64 d.numOps).toNat = d.numOps := by simp [Nat.mod_eq_of_lt hd.2]
  refine (reads_readVbr pf (by omega) (by omega) _ pos).cur.bind ?_
  have hge : ¬ (BitVec.ofNat 64 d.numOps < 1) := by
    rw [BitVec.lt_def, hn]
    have := hd.1
    simp only [BitVec.ofNat_eq_ofNat, BitVec.toNat_ofNat]
    omega
  rw [if_neg hge, hn]
  have := reads_parseOperands pf (BitVec.ofNat 64 d.numOps) d.scalars d.tail
    (by rw [hn]; exact Nat.le_refl _) (pos + (encVbr 5 (BitVec.ofNat 64 d.numOps)).length)
  exact this.bind_pure _

/-! ## Values -/

theorem char6_table : ∀ i : Fin 64, char6Alphabet[i.val]? = some (char6Alphabet[i.val]'(by have := i.2; simp [char6Alphabet])) ∧
    char6Code (char6Alphabet[i.val]'(by have := i.2; simp [char6Alphabet])).toNat = some i.val := by decide

theorem char6Code_spec {v : Nat} {i : Nat} (h : char6Code v = some i) :
    i < 64 ∧ char6Alphabet[i]? = some (BitVec.ofNat 8 v) ∧ v < 256 := by
  have tbl : ∀ v : Fin 256, ∀ i, char6Code v.val = some i →
      i < 64 ∧ char6Alphabet[i]? = some (BitVec.ofNat 8 v.val) := by
    intro v
    have : ∀ v : Fin 256, (char6Code v.val).all
        (fun i => decide (i < 64 ∧ char6Alphabet[i]? = some (BitVec.ofNat 8 v.val))) = true := by decide +kernel
    intro i hi
    have := this v
    rw [hi] at this; simpa using this
  have hv : v < 256 := by
    simp only [char6Code] at h
    repeat' split at h
    all_goals first | omega | simp at h
  exact ⟨(tbl ⟨v, hv⟩ i h).1, (tbl ⟨v, hv⟩ i h).2, hv⟩

theorem reads_elem (pf : Profile) (e : Elem) {v : U64} {b : List Bool} (h : e.valBits v = some b) (pos : Nat) :
    Reads (e.op.parse pf) pos b [v] := by
  cases e with
  | fixed w =>
    simp only [Elem.valBits] at h
    split at h
    · next hc =>
      simp only [Option.some.injEq] at h; subst h
      exact (reads_readAs hc.1 hc.2.1 hc.2.2 (by simp only [IntTy.max]; have := v.isLt; omega) pos).cur.bind_pure _
    · simp at h
  | vbr w =>
    simp only [Elem.valBits] at h
    split at h
    · next hc =>
      simp only [Option.some.injEq] at h; subst h
      exact (reads_readVbr pf hc.1 hc.2 v pos).cur.bind_pure _
    · simp at h
  | char6 =>
    simp only [Elem.valBits, Option.map_eq_some_iff] at h
    obtain ⟨i, hi, rfl⟩ := h
    obtain ⟨h64, htab, hv⟩ := char6Code_spec hi
    simp only [Elem.op, AbbrevOp.parse]
    have hin : (BitVec.ofNat 64 i).toNat = i := by simp; omega
    have hr := reads_readAs (t := .u8) (n := 6) (by omega) (by omega) (v := BitVec.ofNat 64 i) (by omega)
      (by rw [hin]; simp only [IntTy.max]; omega) pos
    rw [hin] at hr
    rw [← List.append_nil (bitsOfNat 6 i)]
    refine hr.cur.bind ?_
    simp only [decodeChar6, hin, htab]
    have : (BitVec.ofNat 8 v.toNat).setWidth 64 = v := by
      apply BitVec.eq_of_toNat_eq
      simp; omega
    show Reads (Pure.pure [(BitVec.ofNat 8 v.toNat).setWidth 64]) _ _ _
    rw [this]
    exact .pure _ _

theorem reads_repeat_elem (pf : Profile) (e : Elem) (vs : List U64) {b : List Bool} (h : elemsBits e vs = some b)
    (pos : Nat) : Reads (repeatFields (e.op.parse pf) vs.length) pos b vs := by
  induction vs generalizing b pos with
  | nil => simp [elemsBits] at h; subst h; exact .pure _ _
  | cons v vs ih =>
    simp only [elemsBits, Option.bind_eq_bind, Option.bind_eq_some_iff, Option.some.injEq] at h
    obtain ⟨b₁, h₁, b₂, h₂, rfl⟩ := h
    simp only [List.length_cons, repeatFields]
    refine (reads_elem pf e h₁ pos).bind ?_
    exact (ih h₂ _).bind_pure _

theorem reads_repeat_byte (vs : List U64) {b : List Bool} (h : bytesBits vs = some b)
    (pos : Nat) :
    Reads (repeatFields (do let b ← cur (Cursor.readExact .u8); pure [b]) vs.length) pos b vs := by
  induction vs generalizing b pos with
  | nil => simp [bytesBits] at h; subst h; exact .pure _ _
  | cons v vs ih =>
    simp only [bytesBits, Option.bind_eq_bind, Option.bind_eq_some_iff] at h
    obtain ⟨b₂, h₂, h⟩ := h
    split at h
    · next hv =>
      simp only [Option.some.injEq] at h; subst h
      simp only [List.length_cons, repeatFields]
      refine Reads.bind ((reads_readAs (t := .u8) (n := 8) (by omega) (by omega) (v := v) (by omega)
        (by simp only [IntTy.max]; omega) pos).cur.bind_pure _) ?_
      exact (ih h₂ _).bind_pure _
    · simp at h

theorem countBits_spec {n : Nat} {b : List Bool} (h : countBits n = some b) :
    b = encVbr 6 (BitVec.ofNat 64 n) ∧ (BitVec.ofNat 64 n).toNat = n ∧ n < 2 ^ 60 := by
  simp only [countBits] at h
  split at h
  · next hn => simp at h; exact ⟨h.symm, by simp; omega, hn⟩
  · simp at h

theorem withCapacity_ok {σ ε : Type} {n : U64} (h : n.toNat < 2 ^ 60) :
    (withCapacity n : StM σ ε Unit) = pure () := by
  simp only [withCapacity]; rw [if_neg (by omega)]

theorem pureBind {ε α β : Type} (a : α) (f : α → StM Cursor ε β) : (pure a >>= f) = f a := rfl

theorem reads_array (pf : Profile) (e : Elem) (vs : List U64) (pos : Nat) {b : List Bool}
    (h : Tail.valBits pos (.array e) vs = some b) : Reads ((AbbrevOp.array e.op).parse pf) pos b vs := by
  simp only [Tail.valBits, Option.bind_eq_bind, Option.bind_eq_some_iff, Option.some.injEq] at h
  obtain ⟨n, hn, b', hb, rfl⟩ := h
  obtain ⟨rfl, hlen, hlt⟩ := countBits_spec hn
  simp only [AbbrevOp.parse]
  refine (reads_readVbr pf (by omega) (by omega) _ pos).cur.bind ?_
  rw [withCapacity_ok (by omega), hlen]
  exact reads_repeat_elem pf e vs hb _

theorem reads_blob (pf : Profile) (vs : List U64) (pos : Nat) {b : List Bool}
    (h : Tail.valBits pos .blob vs = some b) : Reads (AbbrevOp.blob.parse pf) pos b vs := by
  simp only [Tail.valBits, Option.bind_eq_bind, Option.bind_eq_some_iff, Option.some.injEq] at h
  obtain ⟨n, hn, b', hb, rfl⟩ := h
  obtain ⟨rfl, hlen, hlt⟩ := countBits_spec hn
  simp only [AbbrevOp.parse, List.append_assoc]
  refine (reads_readVbr pf (by omega) (by omega) _ pos).cur.bind ?_
  refine (reads_align _).bind ?_
  rw [withCapacity_ok (by omega), hlen]
  refine Reads.bind (m := repeatFields _ _) (reads_repeat_byte vs hb _) ?_
  have := (reads_align (pos + ((encVbr 6 (BitVec.ofNat 64 vs.length)).length +
    (pad32 (pos + (encVbr 6 (BitVec.ofNat 64 vs.length)).length)).length + b'.length))).bind_pure
    (fun _ => vs)
  simp only [List.length_append, Nat.add_assoc] at this ⊢
  exact this

theorem reads_vals (pf : Profile) (t : Tail) (ss : List Scalar) (vs : List U64) (pos : Nat) {b : List Bool}
    (h : valsBits t pos ss vs = some b) : Reads (parseFields pf (ss.map Scalar.op ++ t.ops)) pos b vs := by
  induction ss generalizing vs pos b with
  | nil =>
    simp only [valsBits] at h
    simp only [List.map_nil, List.nil_append]
    cases t with
    | nothing =>
      cases vs with
      | nil => simp [Tail.valBits] at h; subst h; exact .pure _ _
      | cons v vs => simp [Tail.valBits] at h
    | array e =>
      simp only [Tail.ops, parseFields]
      have := (reads_array pf e vs pos h).bind_pure (fun xs => xs ++ [])
      rw [List.append_nil] at this
      exact this
    | blob =>
      simp only [Tail.ops, parseFields]
      have := (reads_blob pf vs pos h).bind_pure (fun xs => xs ++ [])
      rw [List.append_nil] at this
      exact this
  | cons s ss ih =>
    cases vs with
    | nil => simp [valsBits] at h
    | cons v vs =>
      simp only [valsBits, Option.bind_eq_bind, Option.bind_eq_some_iff, Option.some.injEq] at h
      obtain ⟨b₁, h₁, b₂, h₂, rfl⟩ := h
      simp only [List.map_cons, List.cons_append, parseFields]
      have hs : Reads (s.op.parse pf) pos b₁ [v] := by
        cases s with
        | lit w =>
          simp only [Scalar.valBits] at h₁
          split at h₁
          · next hw => simp at h₁; subst h₁; subst hw; exact .pure _ _
          · simp at h₁
        | enc e => exact reads_elem pf e h₁ pos
      exact hs.bind ((ih vs _ h₂).bind_pure _)

theorem reads_abbrevParse (pf : Profile) (d : Def) (vs : List U64) (pos : Nat) {b : List Bool}
    (h : d.valBits pos vs = some b) : Reads (d.abbrev.parse pf) pos b vs := reads_vals pf _ _ _ pos h

theorem reads_vbr6s (pf : Profile) (vs : List U64) (pos : Nat) :
    Reads (Parser.readVbr6s pf vs.length) pos (vbr6s vs) vs := by
  induction vs generalizing pos with
  | nil => exact .pure _ _
  | cons v vs ih =>
    simp only [List.length_cons, Parser.readVbr6s, vbr6s]
    exact (reads_readVbr pf (by omega) (by omega) v pos).cur.bind ((ih _).bind_pure _)

end Verif
