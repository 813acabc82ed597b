import Verif.Bitstream.ReportSpec
import Verif.Props.Faults
import Verif.Props.Depth

/-! # C73: which errors are reported -/

namespace Verif
open Verif.Spec Verif.Cursor Verif.Parser Verif.Props

/-! ## Errors of actions -/

/-- The action keeps `I`, and its errors are among `P`. -/
def Tells {σ ε α : Type} (I : σ → Prop) (P : ε → Prop) (m : StM σ ε α) : Prop :=
  ∀ s, I s → I (m s).2 ∧ ∀ e, (m s).1 = .err e → P e

variable {σ ε α β : Type} {I : σ → Prop} {P : ε → Prop}

theorem Tells.pure (a : α) : Tells I P (Pure.pure a : StM σ ε α) := fun _ h => ⟨h, fun _ h => by cases h⟩
theorem Tells.throw {e : ε} (h : P e) : Tells I P (StM.throw e : StM σ ε α) := fun _ hi => ⟨hi, fun _ h' => by cases h'; exact h⟩
theorem Tells.panic (s : PanicSite) : Tells I P (StM.panic s : StM σ ε α) := fun _ h => ⟨h, fun _ h => by cases h⟩

theorem tells_bind {m : StM σ ε α} {f : α → StM σ ε β} {s : σ} (hm : I (m s).2 ∧ ∀ e, (m s).1 = .err e → P e)
    (hf : ∀ a s', m s = (.ok a, s') → I (f a s').2 ∧ ∀ e, (f a s').1 = .err e → P e) :
    I ((m >>= f) s).2 ∧ ∀ e, ((m >>= f) s).1 = .err e → P e := by
  match h : m s with
  | (.ok a, s') => rw [StM.bind_ok h]; exact hf a s' h
  | (.err e, s') =>
    rw [StM.bind_err h]; rw [h] at hm
    exact ⟨hm.1, fun _ h' => by cases h'; exact hm.2 _ rfl⟩
  | (.panic e, s') => rw [StM.bind_panic h]; rw [h] at hm; exact ⟨hm.1, fun _ h' => by cases h'⟩
  | (.diverge, s') => rw [StM.bind_diverge h]; rw [h] at hm; exact ⟨hm.1, fun _ h' => by cases h'⟩

theorem Tells.bind {m : StM σ ε α} {f : α → StM σ ε β} (hm : Tells I P m) (hf : ∀ a, Tells I P (f a)) : Tells I P (m >>= f) :=
  fun s hs => tells_bind (hm s hs) fun a s' h => hf a s' (by have := (hm s hs).1; rwa [h] at this)

theorem Tells.mono {Q : ε → Prop} {m : StM σ ε α} (h : Tells I P m) (hq : ∀ e, P e → Q e) : Tells I Q m :=
  fun s hs => ⟨(h s hs).1, fun e he => hq e ((h s hs).2 e he)⟩

/-! ## Reading numbers -/

theorem tells_read (n : Nat) : Tells Inv (fun e => e = .eof ∨ e = .short ∨ e = .invalidReadSize) (Cursor.read n) := by
  intro c h
  refine ⟨(good_read n (fun _ => True) c h).inv, fun e he => ?_⟩
  rcases read_cases h n with ⟨-, hr⟩ | ⟨-, -, -, v, c', hr, -⟩ | ⟨-, -, -, hr⟩ | ⟨-, -, -, -, c', hr, -⟩ <;> rw [hr] at he <;> cases he
  · exact .inr (.inr rfl)
  · exact .inl rfl
  · exact .inr (.inl rfl)

theorem tells_cur_read (n : Nat) : Tells Inv ReadError (cur (Cursor.read n)) := by
  intro c h
  obtain ⟨h1, h2⟩ := tells_read n c h
  simp only [cur, StM.mapErr]
  match hr : Cursor.read n c with
  | (.ok v, c') => rw [hr] at h1; exact ⟨h1, fun _ h => by cases h⟩
  | (.panic s, c') => rw [hr] at h1; exact ⟨h1, fun _ h => by cases h⟩
  | (.diverge, c') => rw [hr] at h1; exact ⟨h1, fun _ h => by cases h⟩
  | (.err e, c') =>
    rw [hr] at h1 h2
    refine ⟨h1, fun e' h => ?_⟩
    cases h
    rcases h2 e rfl with rfl | rfl | rfl
    · exact .nothing
    · exact .cut
    · exact .size

theorem tells_cur_readAs {t : IntTy} {n : Nat} (ht : n ≤ 63 → 2 ^ n - 1 ≤ t.max) : Tells Inv ReadError (cur (Cursor.readAs t n)) := by
  intro c h
  obtain ⟨h1, h2⟩ := tells_cur_read n c h
  simp only [cur, StM.mapErr, Cursor.readAs] at h1 h2 ⊢
  match hr : Cursor.read n c with
  | (.ok v, c') =>
    rw [hr] at h1
    obtain ⟨hv, -, hn⟩ := read_value_lt h hr
    have := ht hn
    simp only
    rw [if_pos (by omega)]
    exact ⟨h1, fun _ h => by cases h⟩
  | (.panic s, c') => rw [hr] at h1; exact ⟨h1, fun _ h => by cases h⟩
  | (.diverge, c') => rw [hr] at h1; exact ⟨h1, fun _ h => by cases h⟩
  | (.err e, c') =>
    rw [hr] at h1 h2
    exact ⟨h1, h2⟩

theorem tells_vbrLoop (pf : Profile) (w : Nat) : ∀ (fuel : Nat) (r : U64) (shift : Nat),
    Tells Inv (fun e => e = .eof ∨ e = .short ∨ e = .invalidReadSize) (Cursor.readVbrLoop pf w fuel r shift) := by
  intro fuel
  induction fuel with
  | zero => intro r shift c h; exact ⟨h, fun _ h => by cases h⟩
  | succ fuel ih =>
    intro r shift c h
    obtain ⟨h1, h2⟩ := tells_read w c h
    simp only [Cursor.readVbrLoop]
    match hr : Cursor.read w c with
    | (.ok v, c') =>
      rw [hr] at h1
      simp only
      split
      · exact ⟨h1, fun _ h => by cases h⟩
      · split
        · exact ih _ _ c' h1
        · exact ⟨h1, fun _ h => by cases h⟩
    | (.panic s, c') => rw [hr] at h1; exact ⟨h1, fun _ h => by cases h⟩
    | (.diverge, c') => rw [hr] at h1; exact ⟨h1, fun _ h => by cases h⟩
    | (.err e, c') =>
      rw [hr] at h1 h2
      exact ⟨h1, fun e' h => by cases h; exact h2 e rfl⟩

theorem tells_cur_readVbr (pf : Profile) (w : Nat) : Tells Inv ReadError (cur (Cursor.readVbr pf w)) := by
  intro c h
  simp only [cur, StM.mapErr, Cursor.readVbr]
  split
  · exact ⟨h, fun _ h => by cases h; exact .vbrWidth⟩
  · obtain ⟨h1, h2⟩ := tells_vbrLoop pf w (c.bitLen + 1) 0 0 c h
    match hr : Cursor.readVbrLoop pf w (c.bitLen + 1) 0 0 c with
    | (.ok v, c') => rw [hr] at h1; exact ⟨h1, fun _ h => by cases h⟩
    | (.panic s, c') => rw [hr] at h1; exact ⟨h1, fun _ h => by cases h⟩
    | (.diverge, c') => rw [hr] at h1; exact ⟨h1, fun _ h => by cases h⟩
    | (.err e, c') =>
      rw [hr] at h1 h2
      refine ⟨h1, fun e' h => ?_⟩
      cases h
      rcases h2 e rfl with rfl | rfl | rfl
      · exact .nothing
      · exact .cut
      · exact .size

theorem tells_align : Tells Inv ReadError align := fun c h =>
  ⟨(good_align32 (ε := BErr) (fun _ => True) c h).inv, fun _ h => by cases h⟩

theorem tells_withCapacity (n : U64) : Tells I P (withCapacity n : StM σ ε Unit) := by
  unfold withCapacity
  split
  · exact .panic _
  · exact .pure _

/-! ## Abbreviations -/

theorem tells_repeat {body : BM (List U64)} (h : Tells Inv ReadError body) (n : Nat) : Tells Inv ReadError (repeatFields body n) := by
  induction n with
  | zero => exact .pure _
  | succ n ih => exact h.bind fun _ => ih.bind fun _ => .pure _

theorem tells_op (pf : Profile) (op : AbbrevOp) : Tells Inv ReadError (op.parse pf) := by
  induction op with
  | literal v => exact .pure _
  | vbr w => exact (tells_cur_readVbr pf _).bind fun _ => .pure _
  | fixed w =>
    exact (tells_cur_readAs fun h => by
      have := Nat.pow_le_pow_right (n := 2) (by omega) h
      show _ ≤ 2 ^ 64 - 1
      omega).bind fun _ => .pure _
  | array elem ih => exact (tells_cur_readVbr pf _).bind fun _ => (tells_withCapacity _).bind fun _ => tells_repeat ih _
  | char6 =>
    refine (tells_cur_readAs fun _ => by decide).bind fun c => Tells.bind ?_ fun _ => .pure _
    unfold decodeChar6
    split
    · exact .pure _
    · exact .panic _
  | blob =>
    exact (tells_cur_readVbr pf _).bind fun _ => tells_align.bind fun _ => (tells_withCapacity _).bind fun _ =>
      (tells_repeat ((tells_cur_readAs fun _ => by decide).bind fun _ => .pure _) _).bind fun _ => tells_align.bind fun _ => .pure _

theorem tells_fields (pf : Profile) (ops : List AbbrevOp) : Tells Inv ReadError (parseFields pf ops) := by
  induction ops with
  | nil => exact .pure _
  | cons op ops ih => exact (tells_op pf op).bind fun _ => ih.bind fun _ => .pure _

/-- Reading an encoding, of three bits. -/
theorem tells_enc {f : AbbrevOpEnc → BM α} (hf : ∀ x, Tells Inv ReadError (f x)) :
    Tells Inv ReadError (do let e ← cur (Cursor.read 3); let enc ← AbbrevOpEnc.tryFrom e; f enc) := by
  intro c h
  have h0 := tells_cur_read 3 c h
  refine tells_bind h0 fun e c' he => ?_
  rw [he] at h0
  refine Tells.bind (I := Inv) (P := ReadError) ?_ hf c' h0.1
  have hlt : e.toNat < 8 := by
    have : Cursor.read 3 c = (.ok e, c') := by
      simp only [cur, StM.mapErr] at he
      match hr : Cursor.read 3 c with
      | (.ok x, d) => rw [hr] at he; simp at he; rw [he.1, he.2]
      | (.err x, d) => rw [hr] at he; simp at he
      | (.panic x, d) => rw [hr] at he; simp at he
      | (.diverge, d) => rw [hr] at he; simp at he
    exact (read_value_lt h this).1
  unfold AbbrevOpEnc.tryFrom
  split
  · exact .pure _
  split
  · exact .pure _
  split
  · exact .pure _
  split
  · exact .pure _
  split
  · exact .pure _
  · next h1 h2 h3 h4 h5 =>
    refine .throw (.encoding _ ?_)
    have key : ∀ k : U64, ¬ e = k → e.toNat ≠ k.toNat := fun k hk hc => hk (BitVec.eq_of_toNat_eq hc)
    have e1 := key _ h1
    have e2 := key _ h2
    have e3 := key _ h3
    have e4 := key _ h4
    have e5 := key _ h5
    simp at e1 e2 e3 e4 e5
    rcases (by omega : e.toNat = 0 ∨ e.toNat = 6 ∨ e.toNat = 7) with h | h | h
    · exact .inl (BitVec.eq_of_toNat_eq h)
    · exact .inr (.inl (BitVec.eq_of_toNat_eq h))
    · exact .inr (.inr (BitVec.eq_of_toNat_eq h))

theorem tells_arrayElem (pf : Profile) : Tells Inv ReadError (parseArrayElem pf) := by
  unfold parseArrayElem
  refine (tells_cur_read 1).bind fun _ => tells_enc fun x => ?_
  cases x with
  | fixed => exact (tells_cur_readVbr pf 5).bind fun _ => .pure _
  | vbr => exact (tells_cur_readVbr pf 5).bind fun _ => .pure _
  | char6 => exact .pure _
  | array => exact .throw .arrayOfArrays
  | blob => exact .throw .arrayOfBlobs

theorem tells_sub (pf : Profile) (s : PanicSite) (a b : U64) : Tells I P (subU64 pf s a b : StM σ ε U64) := by
  unfold subU64
  split
  · exact .pure _
  · cases pf
    · exact .panic _
    · exact .pure _

theorem tells_operand (pf : Profile) (num idx : U64) : Tells Inv ReadError (parseEncodedOperand pf num idx) := by
  unfold parseEncodedOperand
  refine tells_enc fun x => ?_
  cases x with
  | fixed => exact (tells_cur_readVbr pf 5).bind fun _ => .pure _
  | vbr => exact (tells_cur_readVbr pf 5).bind fun _ => .pure _
  | char6 => exact .pure _
  | array =>
    refine (tells_sub pf _ _ _).bind fun l => ?_
    split
    · exact .throw .arrayIndex
    · exact (tells_arrayElem pf).bind fun _ => .pure _
  | blob =>
    refine (tells_sub pf _ _ _).bind fun l => ?_
    split
    · exact .throw .blobIndex
    · exact .pure _

theorem tells_operands (pf : Profile) (num : U64) (n : Nat) : Tells Inv ReadError (parseOperands pf num n) := by
  induction n with
  | zero => exact .pure _
  | succ n ih =>
    refine (tells_cur_read 1).bind fun k => ?_
    split
    · exact (tells_cur_readVbr pf 8).bind fun _ => ih.bind fun _ => .pure _
    · refine (tells_operand pf _ _).bind fun x => ?_
      obtain ⟨op, done⟩ := x
      cases done
      · exact ih.bind fun _ => .pure _
      · exact .pure _

theorem tells_new (pf : Profile) : Tells Inv ReadError (Abbrev.new pf) := by
  unfold Abbrev.new
  refine (tells_cur_readVbr pf 5).bind fun num => ?_
  split
  · exact .throw .noOperand
  · exact (tells_operands pf _ _).bind fun _ => .pure _

/-! ## The parser -/

theorem tells_onCursor {m : BM α} (h : Tells Inv ReadError m) : Tells PInv ReadError (onCursor m) := fun p hp =>
  ⟨⟨(h p.cursor hp.cur).1, hp.stack⟩, (h p.cursor hp.cur).2⟩

theorem tells_of_pgood {m : PM α} {k : Nat} (h : PGood (fun _ => True) k m) {Q : BErr → Prop} (hq : ∀ p, PInv p → ∀ e, (m p).1 = .err e → Q e) :
    Tells PInv Q m := fun p hp => ⟨(h p hp).inv, hq p hp⟩

theorem tells_scope : Tells PInv ReadError scope :=
  tells_of_pgood pgood_scope fun p hp e he => by
    obtain ⟨s, rest, -, h⟩ := scope_ok hp
    rw [h] at he; cases he

theorem tells_extend (l : List Abbrev) : Tells PInv ReadError (scopeMut (Scope.extendAbbrevs l)) :=
  tells_of_pgood (pgood_scopeMut (blockMap_extend l)) fun p hp e he => by
    obtain ⟨s, rest, hs, -⟩ := scope_ok hp
    simp only [scopeMut, hs] at he
    cases s with
    | initial => cases he; exact .defineOutside
    | block => cases he

theorem tells_mul4 (pf : Profile) (x : U64) : Tells PInv ReadError (mul4 pf x) := by
  unfold mul4
  split
  · exact .pure _
  · cases pf
    · exact .panic _
    · exact .pure _

theorem tells_enterBlock (pf : Profile) : Tells PInv ReadError (enterBlock pf) := by
  unfold enterBlock
  refine (tells_onCursor (tells_cur_readVbr pf 8)).bind fun blockId => (tells_onCursor (tells_cur_readVbr pf 4)).bind fun w =>
    (tells_onCursor tells_align).bind fun _ => ?_
  split
  · next h =>
    obtain rfl : w = 0 := BitVec.eq_of_toNat_eq (by
      have := BitVec.lt_def.1 h
      simp at this ⊢
      omega)
    exact .throw .noWidth
  · refine (tells_onCursor (tells_cur_read 32)).bind fun _ => (tells_mul4 pf _).bind fun len =>
      (tells_of_pgood (pgood_pushScope (by simp [Scope.new])) fun p hp e he => by cases he).bind fun _ =>
      (tells_of_pgood PGood.get fun p hp e he => by cases he).bind fun q => ?_
    have hend : Tells PInv ReadError (do
        let s ← Parser.scope
        if s.isBlockinfo then pure none
        else pure (some (StreamEntry.subBlock { blockId := blockId, len := len }))) := by
      refine tells_scope.bind fun s => ?_
      split <;> exact .pure _
    split
    · exact (tells_extend _).bind fun _ => hend
    · exact (Tells.pure ()).bind fun _ => hend

theorem tells_exitBlock : Tells PInv ReadError exitBlock := by
  refine tells_of_pgood pgood_exitBlock fun p hp e he => ?_
  unfold exitBlock at he
  have h0 : onCursor align p = (.ok (), (onCursor align p).2) := rfl
  rw [StM.bind_ok h0, StM.bind_ok (show StM.get _ = (.ok _, _) from rfl)] at he
  generalize (onCursor align p).2 = q at he
  match hs : q.scopes with
  | [] => simp only [hs] at he; cases he; exact .exitOutside
  | [_] => simp only [hs] at he; cases he; exact .exitOutside
  | s :: a :: rest =>
    simp only [hs] at he
    rw [StM.bind_ok (show (StM.set _ : PM Unit) _ = (.ok (), _) from rfl)] at he
    split at he <;> cases he

theorem tells_defineAbbrev (pf : Profile) : Tells PInv ReadError (defineAbbrev pf) := by
  unfold defineAbbrev
  refine (tells_onCursor (tells_new pf)).bind fun a => tells_scope.bind fun s => ?_
  split
  · split
    · exact .throw .noBid
    · exact tells_of_pgood (pgood_pushBlockinfo _ _) fun p hp e he => by cases he
  · exact tells_extend _

theorem tells_vbr6s (pf : Profile) (n : Nat) : Tells Inv ReadError (readVbr6s pf n) := by
  induction n with
  | zero => exact .pure _
  | succ n ih => exact (tells_cur_readVbr pf 6).bind fun _ => ih.bind fun _ => .pure _

theorem tells_infoCode (v : U64) : Tells PInv ReadError (BlockInfoCode.tryFrom v) := by
  unfold BlockInfoCode.tryFrom
  split
  · exact .pure _
  split
  · exact .pure _
  split
  · exact .pure _
  · next h1 h2 h3 => exact .throw (.infoCode v h1 h2 h3)

theorem infoCode_state {v : U64} {p p' : Parser} {c : BlockInfoCode} (h : BlockInfoCode.tryFrom v p = (.ok c, p')) : p' = p := by
  unfold BlockInfoCode.tryFrom at h
  split at h
  · cases h; rfl
  split at h
  · cases h; rfl
  split at h
  · cases h; rfl
  · cases h

theorem tells_parseUnabbrev (pf : Profile) : Tells PInv ReadError (parseUnabbrev pf) := by
  unfold parseUnabbrev
  refine tells_scope.bind fun s => ?_
  split
  · exact .throw .recordOutside
  · refine (tells_onCursor (tells_cur_readVbr pf 6)).bind fun code => (tells_onCursor (tells_cur_readVbr pf 6)).bind fun n =>
      (tells_withCapacity n).bind fun _ => (tells_onCursor (tells_vbr6s pf _)).bind fun fields => ?_
    intro p hp
    refine tells_bind (tells_scope p hp) fun s p' h => ?_
    obtain ⟨rest, hs, rfl⟩ := scope_inv h
    by_cases hb : s.isBlockinfo
    · rw [if_pos hb]
      refine tells_bind (tells_infoCode code p' hp) fun c q h => ?_
      obtain rfl := infoCode_state h
      cases c with
      | setBid =>
        cases fields with
        | nil => exact Tells.panic (I := PInv) (P := ReadError) _ q hp
        | cons b _ =>
          refine tells_bind ⟨(pgood_scopeMut (A := fun _ => True) (blockMap_setBid b) q hp).inv, fun e he => ?_⟩
            fun _ q' h' => Tells.pure (I := PInv) (P := ReadError) none q' (by
              have := (pgood_scopeMut (A := fun _ => True) (blockMap_setBid b) q hp).inv
              rwa [h'] at this)
          simp only [scopeMut, hs] at he
          cases s with
          | initial => cases hb
          | block => cases he
      | blockName => exact Tells.pure (I := PInv) (P := ReadError) none q hp
      | setRecordName => exact Tells.pure (I := PInv) (P := ReadError) none q hp
    · rw [if_neg hb]
      exact Tells.pure (I := PInv) (P := ReadError) _ p' hp

theorem tells_parseWithAbbrev (pf : Profile) {id : U64} (h4 : 4 ≤ id.toNat) (h63 : id.toNat < 2 ^ 63) {p : Parser} (hp : PInv p)
    (hs : ∀ rest, p.scopes ≠ .initial :: rest) :
    PInv (parseWithAbbrev pf id p).2 ∧ ∀ e, (parseWithAbbrev pf id p).1 = .err e → ReadError e := by
  unfold parseWithAbbrev
  refine tells_bind (tells_scope p hp) fun s p' h => ?_
  obtain ⟨rest, hs', rfl⟩ := scope_inv h
  refine Tells.bind (I := PInv) (P := ReadError) (fun q hq => ⟨(pgood_getAbbrev (A := fun _ => True) h4 q hq).inv, fun e he => ?_⟩)
    (fun a => (tells_onCursor (tells_fields pf _)).bind fun fields => ?_) p' hp
  · cases s with
    | initial => exact absurd hs' (hs rest)
    | block w i b l =>
      simp only [StM.lift, Scope.getAbbrev] at he
      rw [if_neg (by omega)] at he
      cases h : l[(id - 4).toNat]? with
      | none => rw [h] at he; cases he; exact .undefined id h4 h63
      | some a => rw [h] at he; cases he
  · cases fields with
    | nil => exact .panic _
    | cons code fields =>
      refine tells_scope.bind fun s => ?_
      split <;> exact .pure _

theorem tells_step (pf : Profile) : Tells PInv (fun e => e = .exhausted ∨ ReadError e) (step pf) := by
  intro p hp
  unfold step
  rw [StM.bind_ok (show StM.get p = (.ok p, p) from rfl)]
  split
  · exact ⟨hp, fun e h => by cases h; exact .inl rfl⟩
  · refine (fun h => ⟨h.1, fun e he => .inr (h.2 e he)⟩ :
      (PInv _ ∧ ∀ e, _ = Out.err e → ReadError e) → (PInv _ ∧ ∀ e, _ = Out.err e → (e = .exhausted ∨ ReadError e))) ?_
    refine tells_bind (tells_scope p hp) fun s p' h => ?_
    obtain ⟨rest, hs, rfl⟩ := scope_inv h
    have h0 := tells_onCursor (tells_cur_read s.abbrevIdWidth.toNat) p' hp
    refine tells_bind h0 fun id q hq => ?_
    rw [hq] at h0
    obtain ⟨hr, hsc, -⟩ := onCursor_cur_ok hq
    obtain ⟨hlt, -, hw⟩ := read_value_lt hp.cur hr
    split
    · exact tells_exitBlock q h0.1
    split
    · exact tells_enterBlock pf q h0.1
    split
    · exact (tells_defineAbbrev pf).bind (fun _ => .pure _) q h0.1
    split
    · exact tells_parseUnabbrev pf q h0.1
    · next k0 k1 k2 k3 =>
      have key : ∀ k : U64, ¬ id = k → id.toNat ≠ k.toNat := fun k hk hc => hk (BitVec.eq_of_toNat_eq hc)
      have e0 := key _ k0
      have e1 := key _ k1
      have e2 := key _ k2
      have e3 := key _ k3
      simp at e0 e1 e2 e3
      have h4 : 4 ≤ id.toNat := by omega
      refine tells_parseWithAbbrev pf h4 (Nat.lt_of_lt_of_le hlt (Nat.pow_le_pow_right (by omega) hw)) h0.1 fun rest' hc => ?_
      rw [hsc, hs] at hc
      obtain rfl := (List.cons.inj hc).1
      have : id.toNat < 2 ^ 2 := hlt
      omega

theorem tells_advance (pf : Profile) (fuel : Nat) : Tells PInv (fun e => e = .exhausted ∨ ReadError e) (advanceFuel pf fuel) := by
  induction fuel with
  | zero => intro p hp; exact ⟨hp, fun e h => by cases h⟩
  | succ fuel ih =>
    refine (tells_step pf).bind fun r => ?_
    cases r with
    | some e => exact .pure _
    | none => exact ih

theorem next_tells {pf : Profile} {b : Bitstream} (h : PInv b.parser) {e : BErr} (he : (Bitstream.next pf b).1 = .error e) :
    ReadError e := by
  obtain ⟨-, h2⟩ := tells_advance pf (b.parser.cursor.bitLen + 1) b.parser h
  unfold Bitstream.next at he
  split at he
  · cases he
  · cases he
  · next e' b' hne ha =>
    cases he
    have : (advanceFuel pf (b.parser.cursor.bitLen + 1) b.parser).1 = .err e := by
      have := congrArg Prod.fst ha
      exact this
    rcases h2 e this with rfl | h
    · exact absurd rfl hne
    · exact h
  · cases he
  · cases he

/-! ## Every error happens -/

theorem iterate_mem {pf : Profile} {x : Bitstream.Next} (n : Nat) : ∀ {b : Bitstream}, Reach pf b → x ∈ (iterate pf n b).1 →
    ∃ b', Reach pf b' ∧ (Bitstream.next pf b').1 = x := by
  induction n with
  | zero => intro b _ h; simp [iterate] at h
  | succ n ih =>
    intro b hb h
    simp only [iterate, List.mem_cons] at h
    rcases h with h | h
    · exact ⟨b, hb, h.symm⟩
    · exact ih hb.next h

theorem isVbr_enc (pf : Profile) {w : Nat} (hw : 2 ≤ w) (v : U64) : IsVbr pf w v (encVbr w v) := by
  obtain ⟨h1, h2, h3, h4⟩ := vbrChunks_spec w hw 64 v.toNat v.isLt (by omega)
  refine ⟨_, h1, h2, rfl, ?_⟩
  rw [if_pos (h4 64 v.isLt (by omega)), h3]
  simp

/-- The start of a block 8 with abbreviation ids of 63 bits. -/
def exWide : List Bool :=
  bitsOfNat 2 1 ++ (rawVbr 8 [8] ++ (rawVbr 4 [7, 7] ++ (List.replicate 14 false ++ bitsOfNat 32 0)))

theorem exWide_stream (pf : Profile) :
    Stream pf toWord Ctx.start [] 32 exWide [.start 8 0] (Ctx.start.enter 8 63) [Ctx.start] := by
  have h : Item pf toWord Ctx.start [] 32 exWide (if (8 : U64) = 0 then [] else [.start 8 (4 * 0)]) (Ctx.start.enter 8 63) [Ctx.start] :=
    .enter (by rfl) ⟨[8], by simp, by simp, rfl, by rw [if_pos (by decide)]; rfl⟩
      ⟨[7, 7], by simp, by simp, rfl, by rw [if_pos (by decide)]; rfl⟩ (by decide) (by show _ = _; decide) (by omega)
  have := Stream.cons h .nil
  rw [List.append_nil] at this
  exact this

theorem undefined_stream (pf : Profile) (id : U64) (h4 : 4 ≤ id.toNat) (h63 : id.toNat < 2 ^ 63) :
    ∃ rest b b', Bitstream.fromRaw (exMagic ++ rest) = .ok b ∧
      iterate pf 1 b = ([.item (.subBlock { blockId := 8, len := 0 })], b') ∧ (Bitstream.next pf b').1 = .error (.badAbbrev id) := by
  have hl : (exWide ++ (bitsOfNat 63 id.toNat ++ [false])).length = 32 * 4 := by simp [exWide, rawVbr]
  obtain ⟨b, hb, hd⟩ := open_bits hl
  obtain ⟨b', h1, h2⟩ := (C66_fails pf hb [.subBlock { blockId := 8, len := 0 }] (.error (.badAbbrev id))).2
    ⟨exWide, bitsOfNat 63 id.toNat ++ [false], [.start 8 0], Ctx.start.enter 8 63, [Ctx.start], hd, exWide_stream pf, rfl,
      .undefined rfl (idBits_iff.2 ⟨by decide, by decide, h63, rfl⟩) h4 (by decide) h4⟩
  exact ⟨_, b, b', hb, h1, h2⟩

theorem infoCode_stream (pf : Profile) (code : U64) (h1 : code ≠ 1) (h2 : code ≠ 2) (h3 : code ≠ 3) :
    ∃ rest b, Bitstream.fromRaw (exMagic ++ rest) = .ok b ∧ (Bitstream.next pf b).1 = .error (.badBlockInfoCode code) := by
  let body := bitsOfNat 2 3 ++ (encVbr 6 code ++ (bitsOfNat 6 0 ++ ([] ++ List.replicate (31 * (8 + (encVbr 6 code).length)) false)))
  have hl : (startBits 0 ++ body).length = 32 * (2 + (8 + (encVbr 6 code).length)) := by
    simp [body, startBits_length]; omega
  obtain ⟨b, hb, hd⟩ := open_bits hl
  have hi := start_item pf (k := Ctx.start) rfl [] (pos := 32) rfl (id := 0) (by omega)
  rw [if_pos (by decide)] at hi
  have hs := Stream.cons hi .nil
  rw [List.append_nil] at hs
  obtain ⟨b', e1, e2⟩ := (C66_fails pf hb [] (.error (.badBlockInfoCode code))).2
    ⟨startBits 0, body, [], Ctx.start.enter 0 2, [Ctx.start], hd, hs, rfl,
      .infoCode (fields := []) rfl (idBits_iff.2 ⟨by decide, by decide, by decide, rfl⟩) rfl (isVbr_enc pf (by omega) code)
        ⟨by decide, vbr_one pf (w := 6) (v := 0) (by decide)⟩ rfl h1 h2 h3⟩
  cases e1
  exact ⟨_, b, hb, e2⟩

/-- C73. Reading a stream, whatever it contains and whatever was reported before, reports one of the errors of `ReadError`, and each
of them is reported for some stream. So the end of the stream is never an error; casts never fail; the container is not blamed after
it was opened; and the errors of the crate for records without a block, for BLOCKINFO outside blocks, and for array elements that are
allowed, are never reported. -/
theorem C73_read (pf : Profile) (e : BErr) : (∃ b, Reach pf b ∧ (Bitstream.next pf b).1 = .error e) ↔ ReadError e := by
  refine ⟨fun ⟨b, hb, he⟩ => next_tells hb.pinv he, fun h => ?_⟩
  have key : ∀ (bytes : List U8) (n : Nat), (runRaw pf n bytes).map (fun l => decide (.error e ∈ l)) = some true →
      ∃ b, Reach pf b ∧ (Bitstream.next pf b).1 = .error e := by
    intro bytes n h
    rw [Option.map_eq_some_iff] at h
    obtain ⟨l, hl, hm⟩ := h
    obtain ⟨b, hb, rfl⟩ := runRaw_spec hl
    exact iterate_mem n (.opened (.raw hb)) (by simpa using hm)
  cases h with
  | nothing => exact key (exMagic ++ pack 4 (exEnter 8 3)) 1 (by cases pf <;> decide +kernel)
  | cut => exact key (exMagic ++ pack 12 (exEnter 8 3 ++ bitsOfNat 3 3 ++ List.replicate 29 true)) 2 (by cases pf <;> decide +kernel)
  | size =>
    exact key (exMagic ++ pack 12 (bitsOfNat 2 1 ++ bitsOfNat 8 8 ++ encVbr 4 64 ++ List.replicate 42 false)) 2
      (by cases pf <;> decide +kernel)
  | vbrWidth =>
    exact key (exMagic ++ pack 12 (exEnter 8 3 ++ bitsOfNat 3 2 ++
      ({ scalars := [.enc (.vbr 1)], tail := .nothing } : Def).bits ++ bitsOfNat 3 4)) 2 (by cases pf <;> decide +kernel)
  | infoCode code h1 h2 h3 =>
    obtain ⟨_, b, hb, he⟩ := infoCode_stream pf code h1 h2 h3
    exact ⟨b, .opened (.raw hb), he⟩
  | encoding n h =>
    rcases h with rfl | rfl | rfl
    · exact key (exMagic ++ pack 4 (bitsOfNat 2 2 ++ bitsOfNat 5 1 ++ [false] ++ bitsOfNat 3 0)) 1 (by cases pf <;> decide +kernel)
    · exact key (exMagic ++ pack 4 (bitsOfNat 2 2 ++ bitsOfNat 5 1 ++ [false] ++ bitsOfNat 3 6)) 1 (by cases pf <;> decide +kernel)
    · exact key (exMagic ++ pack 4 (bitsOfNat 2 2 ++ bitsOfNat 5 1 ++ [false] ++ bitsOfNat 3 7)) 1 (by cases pf <;> decide +kernel)
  | noBid =>
    exact key (exMagic ++ pack 12 (exEnter 0 3 ++ bitsOfNat 3 2 ++ ({ scalars := [.lit 5], tail := .nothing } : Def).bits)) 1
      (by cases pf <;> decide +kernel)
  | recordOutside => exact key (exMagic ++ pack 4 (bitsOfNat 2 3)) 1 (by cases pf <;> decide +kernel)
  | noOperand => exact key (exMagic ++ pack 4 (bitsOfNat 2 2 ++ bitsOfNat 5 0)) 1 (by cases pf <;> decide +kernel)
  | arrayIndex =>
    exact key (exMagic ++ pack 4 (bitsOfNat 2 2 ++ bitsOfNat 5 3 ++ [false] ++ bitsOfNat 3 3)) 1 (by cases pf <;> decide +kernel)
  | arrayOfArrays =>
    exact key (exMagic ++ pack 4 (bitsOfNat 2 2 ++ bitsOfNat 5 2 ++ [false] ++ bitsOfNat 3 3 ++ [false] ++ bitsOfNat 3 3)) 1
      (by cases pf <;> decide +kernel)
  | arrayOfBlobs =>
    exact key (exMagic ++ pack 4 (bitsOfNat 2 2 ++ bitsOfNat 5 2 ++ [false] ++ bitsOfNat 3 3 ++ [false] ++ bitsOfNat 3 5)) 1
      (by cases pf <;> decide +kernel)
  | blobIndex =>
    exact key (exMagic ++ pack 4 (bitsOfNat 2 2 ++ bitsOfNat 5 2 ++ [false] ++ bitsOfNat 3 5)) 1 (by cases pf <;> decide +kernel)
  | undefined id h4 h63 =>
    obtain ⟨_, b, b', hb, hi, he⟩ := undefined_stream pf id h4 h63
    exact ⟨b', by have := iterate_reach (pf := pf) (.opened (.raw hb)) 1; rwa [hi] at this, he⟩
  | defineOutside =>
    exact key (exMagic ++ pack 4 (bitsOfNat 2 2 ++ ({ scalars := [.lit 5], tail := .nothing } : Def).bits)) 1
      (by cases pf <;> decide +kernel)
  | noWidth => exact key (exMagic ++ pack 4 (bitsOfNat 2 1 ++ bitsOfNat 8 8 ++ bitsOfNat 4 0)) 1 (by cases pf <;> decide +kernel)
  | exitOutside => exact key (exMagic ++ pack 4 (bitsOfNat 2 0)) 1 (by cases pf <;> decide +kernel)

/-! ## Opening -/

theorem cutError_cases (n : Nat) : cutError n = .eof ∨ cutError n = .short := by
  unfold cutError
  split
  · exact .inl rfl
  · exact .inr rfl

theorem wrapped_tells {pf : Profile} {bytes : List U8} {e : BErr} (h : Bitstream.fromWrapped pf bytes = .err e) : OpenError e := by
  rcases C25_wrapped pf bytes with ⟨-, e'⟩ | ⟨o, s, -, -, -, h'⟩
  · rw [e'] at h; cases h
    rcases cutError_cases (bytes.length % 4) with h | h <;> rw [h]
    · exact .nothing
    · exact .cut
  · rcases h' with ⟨-, e'⟩ | ⟨-, -, e'⟩ | ⟨-, -, -, e'⟩ | ⟨-, -, -, -, e'⟩ | ⟨-, -, -, w, b, e', -⟩
    · rw [e'] at h; cases h; exact .size
    · rw [e'] at h; cases h; exact .behind
    · rw [e'] at h; cases h; exact .words
    · rw [e'] at h; cases h
      rcases cutError_cases (s + 20 - o) with h | h <;> rw [h]
      · exact .noMagic
      · exact .cutMagic
    · rw [e'] at h; cases h

/-- C73, bare streams. -/
theorem C73_open_raw (e : BErr) : (∃ bytes, Bitstream.fromRaw bytes = .err e) ↔ OpenRawError e := by
  constructor
  · rintro ⟨bytes, h⟩
    rcases C25_raw bytes with ⟨-, -, b, e', -⟩ | ⟨-, e'⟩ | ⟨-, e'⟩
    · rw [e'] at h; cases h
    · rw [e'] at h; cases h; exact .words
    · rw [e'] at h; cases h; exact .noMagic
  · intro h
    cases h with
    | words => exact ⟨[1], rfl⟩
    | noMagic => exact ⟨[], rfl⟩

/-- Opening fails with this error. Used for concrete bytes only. -/
def failsWith {α : Type} (o : Out BErr α) (e : BErr) : Bool :=
  match o with
  | .err e' => e' = e
  | _ => false

theorem of_failsWith {α : Type} {o : Out BErr α} {e : BErr} (h : failsWith o e = true) : o = .err e := by
  unfold failsWith at h
  split at h
  · rw [of_decide_eq_true h]
  · cases h

/-- C73, streams in a wrapper, and streams of either kind: the same errors. -/
theorem C73_open (pf : Profile) (e : BErr) : ((∃ bytes, Bitstream.fromWrapped pf bytes = .err e) ↔ OpenError e) ∧
    ((∃ bytes, Bitstream.from pf bytes = .err e) ↔ OpenError e) := by
  have key : OpenError e → ∃ bytes, Bitstream.fromWrapped pf bytes = .err e ∧ Bitstream.from pf bytes = .err e := by
    have h : ∀ bytes, (failsWith (Bitstream.fromWrapped pf bytes) e && failsWith (Bitstream.from pf bytes) e) = true →
        ∃ bytes, Bitstream.fromWrapped pf bytes = .err e ∧ Bitstream.from pf bytes = .err e := by
      intro bytes h
      rw [Bool.and_eq_true] at h
      exact ⟨bytes, of_failsWith h.1, of_failsWith h.2⟩
    intro he
    cases he with
    | nothing => exact h [] (by cases pf <;> decide +kernel)
    | cut => exact h [1] (by cases pf <;> decide +kernel)
    | size => exact h (wrapperHeader 0 20 4 7) (by cases pf <;> decide +kernel)
    | behind => exact h (wrapperHeader 0 24 0 7) (by cases pf <;> decide +kernel)
    | words => exact h (wrapperHeader 0 20 1 7 ++ [1]) (by cases pf <;> decide +kernel)
    | noMagic => exact h (wrapperHeader 0 20 0 7) (by cases pf <;> decide +kernel)
    | cutMagic => exact h (wrapperHeader 0 21 4 7 ++ [1, 2, 3, 4]) (by cases pf <;> decide +kernel)
  refine ⟨⟨fun ⟨bytes, h⟩ => wrapped_tells h, fun h => (key h).imp fun _ h => h.1⟩, fun ⟨bytes, h⟩ => ?_, fun h =>
    (key h).imp fun _ h => h.2⟩
  rcases C25_detect pf bytes with ⟨-, e'⟩ | ⟨-, -, e'⟩ | ⟨-, -, e'⟩
  · rw [e'] at h; cases h
    rcases cutError_cases bytes.length with h | h <;> rw [h]
    · exact .nothing
    · exact .cut
  · rw [e'] at h
    cases h' : Bitstream.fromWrapped pf bytes with
    | err e'' => rw [h'] at h; cases h; exact wrapped_tells h'
    | ok _ => rw [h'] at h; cases h
    | panic _ => rw [h'] at h; cases h
    | diverge => rw [h'] at h; cases h
  · rw [e'] at h
    cases h' : Bitstream.fromRaw bytes with
    | err e'' =>
      rw [h'] at h
      cases h
      cases (C73_open_raw e).1 ⟨bytes, h'⟩ with
      | words => exact .words
      | noMagic => exact .noMagic
    | ok _ => rw [h'] at h; cases h
    | panic _ => rw [h'] at h; cases h
    | diverge => rw [h'] at h; cases h

end Verif
