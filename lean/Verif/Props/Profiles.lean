import Verif.Base.Profiles
import Verif.Cursor.History
import Verif.Bitstream.RunSpec
import Verif.Mapper.Module
import Verif.Props.ErrorCases

/-!
# Debug and release builds agree
-/

namespace Verif
open Spec
namespace Props

/-! ## The cursor -/

theorem same_vbrLoop (w fuel : Nat) (acc : U64) (shift : Nat) :
    SSame fun pf => Cursor.readVbrLoop pf w fuel acc shift := by
  induction fuel generalizing acc shift with
  | zero => exact .const _
  | succ n ih =>
    intro c
    simp only [Cursor.readVbrLoop]
    generalize Cursor.read w c = r
    obtain ⟨o, c'⟩ := r
    cases o with
    | err e => exact .inr rfl
    | panic p => exact .inr rfl
    | diverge => exact .inr rfl
    | ok block =>
      dsimp only
      by_cases hs : shift < 64
      · simp only [Cursor.shl64, if_pos hs]
        split
        · exact ih _ _ c'
        · exact .inr rfl
      · simp only [Cursor.shl64, if_neg hs]
        exact .inl ⟨.vbrShift, rfl, rfl⟩

theorem same_vbr (w : Nat) : SSame fun pf => Cursor.readVbr pf w := by
  intro c
  simp only [Cursor.readVbr]
  split
  · exact .inr rfl
  · exact same_vbrLoop w _ _ _ c

theorem same_svbr (w : Nat) : SSame fun pf => Cursor.readSvbr pf w := by
  intro c
  simp only [Cursor.readSvbr]
  rcases (same_vbr w).cases c with ⟨p, c', h, hp⟩ | h
  · exact .inl (by rw [h]; exact .intro hp)
  · rw [h]
    generalize Cursor.readVbr .debug w c = r
    obtain ⟨o, c'⟩ := r
    cases o with
    | err e => exact .inr rfl
    | panic p => exact .inr rfl
    | diverge => exact .inr rfl
    | ok v =>
      dsimp only
      split
      · split
        · exact .inl ⟨.svbrNeg, rfl, rfl⟩
        · exact .inr rfl
      · exact .inr rfl

theorem same_seek (pos : Cursor.SeekFrom) : SSame fun pf => Cursor.seek pf pos := by
  intro c
  have key (base : Nat) (q : Int) :
      (Cursor.addI64 .debug base q = none) ∨ Cursor.addI64 .release base q = Cursor.addI64 .debug base q := by
    simp only [Cursor.addI64]
    split
    · exact .inr rfl
    · exact .inl rfl
  cases pos with
  | start p => exact .inr rfl
  | fromEnd p =>
    simp only [Cursor.seek]
    split
    · exact .inr rfl
    · rcases key c.byteLen p with h | h
      · exact .inl (by rw [h]; exact ⟨.seekAdd, rfl, rfl⟩)
      · exact .inr (by rw [h])
  | current p =>
    simp only [Cursor.seek]
    rcases key c.tellByte p with h | h
    · exact .inl (by rw [h]; exact ⟨.seekAdd, rfl, rfl⟩)
    · exact .inr (by rw [h])

/-! ## Abbreviations -/

theorem same_cur {α : Type} {m : Profile → CurM α} (h : SSame m) : SSame fun pf => cur (m pf) := h.mapErr _

theorem same_repeat {body : Profile → BM (List U64)} (h : SSame body) (n : Nat) :
    SSame fun pf => repeatFields (body pf) n := by
  induction n with
  | zero => exact .const _
  | succ n ih =>
    simp only [repeatFields]
    exact h.bind fun _ => ih.bind fun _ => .const _

theorem same_opParse (op : AbbrevOp) : SSame fun pf => op.parse pf := by
  induction op with
  | literal v => exact .const _
  | vbr w =>
    simp only [AbbrevOp.parse]
    exact (same_cur (same_vbr _)).bind fun _ => .const _
  | fixed w => exact .const _
  | array e ih =>
    simp only [AbbrevOp.parse]
    exact (same_cur (same_vbr _)).bind fun _ => (SSame.const _).bind fun _ => same_repeat ih _
  | char6 => exact .const _
  | blob =>
    simp only [AbbrevOp.parse]
    exact (same_cur (same_vbr _)).bind fun _ => .const _

theorem same_fields (ops : List AbbrevOp) : SSame fun pf => parseFields pf ops := by
  induction ops with
  | nil => exact .const _
  | cons op ops ih =>
    simp only [parseFields]
    exact (same_opParse op).bind fun _ => ih.bind fun _ => .const _

theorem same_sub {σ ε : Type} {site : PanicSite} (hs : site.overflow = true) (a b : U64) :
    SSame (σ := σ) (ε := ε) fun pf => subU64 pf site a b := by
  intro s
  simp only [subU64]
  split
  · exact .inr rfl
  · exact .inl (.intro hs)

theorem same_arrayElem : SSame fun pf => parseArrayElem pf := by
  simp only [parseArrayElem]
  refine (SSame.const _).bind fun _ => (SSame.const _).bind fun _ => (SSame.const _).bind fun e => ?_
  cases e with
  | fixed => exact (same_cur (same_vbr _)).bind fun _ => .const _
  | vbr => exact (same_cur (same_vbr _)).bind fun _ => .const _
  | array => exact .const _
  | char6 => exact .const _
  | blob => exact .const _

theorem same_encoded (num idx : U64) : SSame fun pf => parseEncodedOperand pf num idx := by
  simp only [parseEncodedOperand]
  refine (SSame.const _).bind fun _ => (SSame.const _).bind fun e => ?_
  cases e with
  | fixed => exact (same_cur (same_vbr _)).bind fun _ => .const _
  | vbr => exact (same_cur (same_vbr _)).bind fun _ => .const _
  | array =>
    refine (same_sub rfl _ _).bind fun l => ?_
    by_cases h : idx ≠ l
    · simp only [if_pos h]; exact .const _
    · simp only [if_neg h]; exact same_arrayElem.bind fun _ => .const _
  | char6 => exact .const _
  | blob => exact (same_sub rfl _ _).bind fun l => .const _

theorem same_operands (num : U64) (n : Nat) : SSame fun pf => parseOperands pf num n := by
  induction n with
  | zero => exact .const _
  | succ n ih =>
    simp only [parseOperands]
    refine (SSame.const _).bind fun k => ?_
    by_cases h : k = 1
    · simp only [if_pos h]
      exact (same_cur (same_vbr _)).bind fun _ => ih.bind fun _ => .const _
    · simp only [if_neg h]
      refine (same_encoded _ _).bind fun x => ?_
      obtain ⟨op, d⟩ := x
      cases d with
      | true => exact .const _
      | false => exact ih.bind fun _ => .const _

theorem same_abbrev : SSame fun pf => Abbrev.new pf := by
  simp only [Abbrev.new]
  refine (same_cur (same_vbr _)).bind fun num => ?_
  by_cases h : num < 1
  · simp only [if_pos h]; exact .const _
  · simp only [if_neg h]; exact (same_operands _ _).bind fun _ => .const _

/-! ## The parser -/

open Parser in
theorem same_onCursor {α : Type} {m : Profile → BM α} (h : SSame m) : SSame fun pf => onCursor (m pf) := by
  intro p
  simp only [onCursor]
  rcases h.cases p.cursor with ⟨q, c', h, hq⟩ | h
  · exact .inl (by rw [h]; exact .intro hq)
  · exact .inr (by rw [h])

theorem same_mul4 (x : U64) : SSame fun pf => Parser.mul4 pf x := by
  intro s
  simp only [Parser.mul4]
  split
  · exact .inr rfl
  · exact .inl (.intro rfl)

theorem same_enter : SSame fun pf => Parser.enterBlock pf := by
  simp only [Parser.enterBlock]
  refine (same_onCursor (same_cur (same_vbr _))).bind fun id => (same_onCursor (same_cur (same_vbr _))).bind fun w =>
    (SSame.const _).bind fun _ => ?_
  by_cases h : w < 1
  · simp only [if_pos h]; exact .const _
  · simp only [if_neg h]
    exact (SSame.const _).bind fun words => (same_mul4 words).bind fun _ => .const _

theorem same_define : SSame fun pf => Parser.defineAbbrev pf := by
  simp only [Parser.defineAbbrev]
  exact (same_onCursor same_abbrev).bind fun _ => .const _

theorem same_vbr6s (n : Nat) : SSame fun pf => Parser.readVbr6s pf n := by
  induction n with
  | zero => exact .const _
  | succ n ih =>
    simp only [Parser.readVbr6s]
    exact (same_cur (same_vbr _)).bind fun _ => ih.bind fun _ => .const _

theorem same_unabbrev : SSame fun pf => Parser.parseUnabbrev pf := by
  simp only [Parser.parseUnabbrev]
  refine (SSame.const _).bind fun s => ?_
  by_cases h : s = .initial
  · simp only [if_pos h]; exact .const _
  · simp only [if_neg h]
    exact (same_onCursor (same_cur (same_vbr _))).bind fun _ => (same_onCursor (same_cur (same_vbr _))).bind fun n =>
      (SSame.const _).bind fun _ => (same_onCursor (same_vbr6s _)).bind fun _ => .const _

theorem same_getAbbrev (id : U64) (s : Scope) : OSame fun pf => s.getAbbrev pf id := by
  cases s with
  | initial => exact .const _
  | block w b i as =>
    simp only [Scope.getAbbrev, OSame]
    split
    · exact .inl (.intro rfl)
    · exact .inr rfl

theorem same_withAbbrev (id : U64) : SSame fun pf => Parser.parseWithAbbrev pf id := by
  simp only [Parser.parseWithAbbrev]
  exact (SSame.const _).bind fun s => (SSame.lift (same_getAbbrev id s)).bind fun a =>
    (same_onCursor (same_fields a.operands)).bind fun _ => .const _

theorem same_step : SSame fun pf => Parser.step pf := by
  simp only [Parser.step]
  refine (SSame.const _).bind fun p => ?_
  by_cases h : p.cursor.exhausted = true
  · simp only [if_pos h]; exact .const _
  · simp only [if_neg h]
    refine (SSame.const _).bind fun s => (SSame.const _).bind fun id => ?_
    by_cases h0 : id = 0
    · simp only [if_pos h0]; exact .const _
    · simp only [if_neg h0]
      by_cases h1 : id = 1
      · simp only [if_pos h1]; exact same_enter
      · simp only [if_neg h1]
        by_cases h2 : id = 2
        · simp only [if_pos h2]; exact same_define.bind fun _ => .const _
        · simp only [if_neg h2]
          by_cases h3 : id = 3
          · simp only [if_pos h3]; exact same_unabbrev
          · simp only [if_neg h3]; exact same_withAbbrev id

theorem same_advanceFuel (n : Nat) : SSame fun pf => Parser.advanceFuel pf n := by
  induction n with
  | zero => exact .const _
  | succ n ih =>
    simp only [Parser.advanceFuel]
    refine same_step.bind fun r => ?_
    cases r with
    | some e => exact .const _
    | none => exact ih

theorem same_advance : SSame fun pf => Parser.advance pf := fun p => same_advanceFuel _ p

theorem same_streamAdvance : SSame fun pf => Bitstream.advance pf := by
  intro b
  simp only [Bitstream.advance]
  rcases same_advance.cases b.parser with ⟨q, c', h, hq⟩ | h
  · exact .inl (by rw [h]; exact .intro hq)
  · exact .inr (by rw [h])

/-- The caller of `next` sees a panic that reports an arithmetic overflow. -/
def Overflowed : Bitstream.Next → Prop
  | .panic site => site.overflow = true
  | _ => False

theorem same_next (b : Bitstream) :
    Overflowed (Bitstream.next .debug b).1 ∨ Bitstream.next .release b = Bitstream.next .debug b := by
  simp only [Bitstream.next]
  rcases same_streamAdvance.cases b with ⟨q, b', h, hq⟩ | h
  · exact .inl (by rw [h]; exact hq)
  · exact .inr (by rw [h])

/-! ## Opening and unrolling -/

theorem same_fromWrapped (bytes : List U8) : OSame fun pf => Bitstream.fromWrapped pf bytes := by
  simp only [Bitstream.fromWrapped]
  refine (OSame.const _).bind fun w => (OSame.const _).bind fun c => ?_
  rcases (same_seek (.start w.offset)).cases c with ⟨q, c', h, hq⟩ | h
  · exact .inl (by dsimp only; rw [h]; exact .intro hq)
  · exact .inr (by dsimp only; rw [h])

theorem same_from (bytes : List U8) : OSame fun pf => Bitstream.from pf bytes := by
  simp only [Bitstream.from]
  refine (OSame.const _).bind fun m => ?_
  by_cases h : m = 0x0b17c0de
  · simp only [if_pos h]
    exact (same_fromWrapped bytes).bind fun _ => .const _
  · simp only [if_neg h]
    exact .const _

theorem same_enterLoop (n : Nat) (acc : UBlock) : SSame fun pf => enterLoop pf n acc := by
  induction n generalizing acc with
  | zero => exact .const _
  | succ n ih =>
    intro b
    simp only [enterLoop]
    rcases same_next b with h | h
    · left
      generalize Bitstream.next .debug b = r at h
      obtain ⟨x, b'⟩ := r
      cases x with
      | panic p => exact .intro h
      | _ => exact h.elim
    · rw [h]
      generalize Bitstream.next .debug b = r
      obtain ⟨x, b'⟩ := r
      cases x with
      | done => exact .inr rfl
      | error e => exact .inr rfl
      | panic p => exact .inr rfl
      | diverge => exact .inr rfl
      | item e =>
        cases e with
        | endBlock => exact .inr rfl
        | record r => exact ih _ b'
        | subBlock s =>
          dsimp only
          rcases (ih (UBlock.new s.blockId)).cases b' with ⟨q, b'', h, hq⟩ | h
          · exact .inl (by rw [h]; exact .intro hq)
          · rw [h]
            generalize enterLoop .debug n (UBlock.new s.blockId) b' = r
            obtain ⟨x, b''⟩ := r
            cases x with
            | ok child => exact ih _ b''
            | err e => exact .inr rfl
            | panic p => exact .inr rfl
            | diverge => exact .inr rfl

theorem same_unrollLoop (n : Nat) (ps : List PartialModule) : SSame fun pf => unrollLoop pf n ps := by
  induction n generalizing ps with
  | zero => exact .const _
  | succ n ih =>
    intro b
    simp only [unrollLoop]
    rcases same_next b with h | h
    · left
      generalize Bitstream.next .debug b = r at h
      obtain ⟨x, b'⟩ := r
      cases x with
      | panic p => exact .intro h
      | _ => exact h.elim
    · rw [h]
      generalize Bitstream.next .debug b = r
      obtain ⟨x, b'⟩ := r
      cases x with
      | done => exact .inr rfl
      | error e => exact .inr rfl
      | panic p => exact .inr rfl
      | diverge => exact .inr rfl
      | item e =>
        dsimp only
        cases e.asBlock with
        | none => exact .inr rfl
        | some s =>
          dsimp only [enterUBlock]
          rcases (same_enterLoop n (UBlock.new s.blockId)).cases b' with ⟨q, b'', h, hq⟩ | h
          · exact .inl (by rw [h]; exact .intro hq)
          · rw [h]
            generalize enterLoop .debug n (UBlock.new s.blockId) b' = r
            obtain ⟨x, b''⟩ := r
            cases x with
            | ok child =>
              dsimp only
              cases addTop ps child with
              | ok ps' => exact ih _ b''
              | err e => exact .inr rfl
              | panic p => exact .inr rfl
              | diverge => exact .inr rfl
            | err e => exact .inr rfl
            | panic p => exact .inr rfl
            | diverge => exact .inr rfl

theorem same_unroll (b : Bitstream) : OSame fun pf => unroll pf b := (same_unrollLoop _ _).fst b

/-! ## Mapping -/

theorem same_lenMinus1 {ε : Type} (n : Nat) : OSame (ε := ε) fun pf => lenMinus1 pf n := by
  simp only [lenMinus1, OSame]
  split
  · exact .inl (.intro rfl)
  · exact .inr rfl

theorem same_tryString (r : BRecord) (i : U64) : OSame fun pf => r.tryString pf i := by
  simp only [BRecord.tryString]
  exact (same_lenMinus1 _).bind fun _ => .const _

theorem same_tryBlob (r : BRecord) (i : U64) : OSame fun pf => r.tryBlob pf i := by
  simp only [BRecord.tryBlob]
  exact (same_lenMinus1 _).bind fun _ => .const _

theorem same_strtab (b : UBlock) : OSame fun pf => Strtab.tryFrom pf b := by
  simp only [Strtab.tryFrom]
  exact (OSame.const _).bind fun r => ((same_tryBlob r _).mapErr _).bind fun _ => .const _

theorem same_symtab (b : UBlock) : OSame fun pf => Symtab.tryFrom pf b := by
  simp only [Symtab.tryFrom]
  exact (OSame.const _).bind fun r => ((same_tryBlob r _).mapErr _).bind fun _ => .const _

theorem same_identification (b : UBlock) : OSame fun pf => Identification.tryFrom pf b := by
  simp only [Identification.tryFrom]
  exact (OSame.const _).bind fun r => ((same_tryString r _).mapErr _).bind fun _ => .const _

theorem same_addUsize {ε : Type} (a b : U64) : OSame (ε := ε) fun pf => addUsize pf a b := by
  simp only [addUsize, OSame]
  split
  · exact .inr rfl
  · exact .inl (.intro rfl)

theorem same_tryGet (t : Strtab) (s : StrtabRef) : OSame fun pf => t.tryGet pf s := by
  simp only [Strtab.tryGet]
  by_cases h : s.size = 0
  · simp only [if_pos h]; exact .const _
  · simp only [if_neg h]
    by_cases h1 : s.offset.toNat ≥ t.bytes.length
    · simp only [if_pos h1]; exact .const _
    · simp only [if_neg h1]
      refine (same_addUsize _ _).bind fun stop => ?_
      by_cases h2 : stop.toNat > t.bytes.length
      · simp only [if_pos h2]; exact .const _
      · simp only [if_neg h2]
        exact (same_addUsize _ _).bind fun _ => .const _

theorem same_readName (t : Strtab) (r : BRecord) : OSame fun pf => t.readName pf r := by
  simp only [Strtab.readName]
  exact (OSame.const _).bind fun _ => (OSame.const _).bind fun _ => same_tryGet _ _

theorem same_mapOut {ε α β : Type} {f : Profile → α → Out ε β} (h : ∀ a, OSame fun pf => f pf a) (l : List α) :
    OSame fun pf => mapOut (f pf) l := by
  induction l with
  | nil => exact .const _
  | cons a l ih =>
    simp only [mapOut]
    exact (h a).bind fun _ => ih.bind fun _ => .const _

theorem same_typeStep (s : TypeTableState) (r : BRecord) : OSame fun pf => typeStep pf s r := by
  simp only [typeStep]
  refine (OSame.const _).bind fun code => ?_
  cases code with
  | structName => exact ((same_tryString r _).mapErr _).bind fun _ => .const _
  | _ => exact .const _

theorem same_typeTable (b : UBlock) : OSame fun pf => TypeTable.tryFrom pf b := by
  simp only [TypeTable.tryFrom]
  exact (OSame.const _).bind fun _ => (OSame.const _).bind fun _ => (OSame.const _).bind fun _ =>
    (OSame.foldlM same_typeStep _ _).bind fun _ => .const _

theorem same_dataLayout (r : BRecord) : OSame fun pf => DataLayout.tryMap pf r := by
  simp only [DataLayout.tryMap]
  exact ((same_tryString r _).mapErr _).bind fun _ => .const _

theorem same_comdat (r : BRecord) (ctx : PartialMapCtx) : OSame fun pf => Comdat.tryMap pf r ctx := by
  simp only [Comdat.tryMap]
  refine (OSame.const _).bind fun u => ?_
  by_cases h : (!u) = true
  · simp only [if_pos h]; exact .const _
  · simp only [if_neg h]
    by_cases h1 : r.fields.length ≠ 3
    · simp only [if_pos h1]; exact .const _
    · simp only [if_neg h1]
      exact (OSame.const _).bind fun _ => (OSame.const _).bind fun _ => ((same_tryGet _ _).mapErr _).bind fun _ => .const _

theorem same_function (r : BRecord) (ctx : MapCtx) : OSame fun pf => FunctionRecord.tryMap pf r ctx := by
  simp only [FunctionRecord.tryMap]
  by_cases h : (!ctx.useStrtab) = true
  · simp only [if_pos h]; exact .const _
  · simp only [if_neg h]
    by_cases h1 : r.fields.length < 10
    · simp only [if_pos h1]; exact .const _
    · simp only [if_neg h1]
      exact ((same_readName _ _).mapErr _).bind fun _ => .const _

theorem same_alias (r : BRecord) (ctx : MapCtx) : OSame fun pf => Alias.tryMap pf r ctx := by
  simp only [Alias.tryMap]
  by_cases h : (!ctx.useStrtab) = true
  · simp only [if_pos h]; exact .const _
  · simp only [if_neg h]
    by_cases h1 : r.fields.length < 5
    · simp only [if_pos h1]; exact .const _
    · simp only [if_neg h1]
      exact ((same_readName _ _).mapErr _).bind fun _ => .const _

theorem same_orElse {ε α β : Type} (x : Option α) (missing : β) {f : Profile → α → Out ε β}
    (h : ∀ a, OSame fun pf => f pf a) : OSame fun pf => orElse x missing (f pf) := by
  cases x with
  | none => exact .const _
  | some a => exact h a

theorem same_strings (rs : Records) (code : ModuleCode) : OSame fun pf => moduleStrings pf rs code := by
  simp only [moduleStrings]
  exact (same_mapOut (f := fun pf r => BRecord.tryString pf r 0) (fun r => same_tryString r 0) _).mapErr _

theorem same_fill (b : UBlock) (ctx : PartialMapCtx) : OSame fun pf => Module.fill pf b ctx := by
  simp only [Module.fill]
  refine (OSame.const _).bind fun _ => (OSame.const _).bind fun _ => ?_
  refine (same_orElse (f := fun pf r => (DataLayout.tryMap pf r).mapErr ModuleError.dataLayoutRecord) _ _
    fun r => (same_dataLayout r).mapErr _).bind fun _ => ?_
  refine (same_strings _ _).bind fun _ => (same_strings _ _).bind fun _ => (OSame.const _).bind fun tb => ?_
  refine ((same_typeTable tb).mapErr _).bind fun _ => ?_
  refine (OSame.const _).bind fun _ => (OSame.const _).bind fun _ => (OSame.const _).bind fun _ => ?_
  refine (OSame.const _).bind fun _ => (OSame.const _).bind fun _ => ?_
  exact ((same_mapOut (f := fun pf r => Comdat.tryMap pf r _) (fun r => same_comdat r _) _).mapErr _).bind fun _ => .const _

theorem same_finish (target : Str) (b : UBlock) (ctx : MapCtx) : OSame fun pf => Module.finish pf target b ctx := by
  simp only [Module.finish]
  refine (OSame.const _).bind fun _ => ?_
  refine (same_orElse (f := fun pf r => (BRecord.tryString pf r 0).mapErr fun e => ModuleError.map (.recordString e)) _ _
    fun r => (same_tryString r 0).mapErr _).bind fun _ => ?_
  refine (OSame.const _).bind fun _ => ?_
  refine (same_orElse (f := fun pf r => (BRecord.tryString pf r 0).mapErr (fun e => ModuleError.map (.recordString e)) >>=
    fun s => .ok (split '\n' s)) _ _ fun r => ((same_tryString r 0).mapErr _).bind fun _ => .const _).bind fun _ => ?_
  refine (same_strings _ _).bind fun _ => ?_
  refine ((same_mapOut (f := fun pf r => FunctionRecord.tryMap pf r ctx) (fun r => same_function r _) _).mapErr _).bind
    fun _ => ?_
  refine (OSame.const _).bind fun _ => ?_
  exact ((same_mapOut (f := fun pf r => Alias.tryMap pf r ctx) (fun r => same_alias r _) _).mapErr _).bind fun _ => .const _

theorem same_module (target : Str) (b : UBlock) (ctx : PartialMapCtx) :
    OSame fun pf => Module.tryFromFull pf target b ctx := by
  simp only [Module.tryFromFull]
  exact (same_fill b ctx).bind fun _ => (OSame.const _).bind fun _ => (same_finish target b _).bind fun _ => .const _

theorem same_reify (target : Str) (p : PartialModule) : OSame fun pf => PartialModule.reify pf target p := by
  simp only [PartialModule.reify]
  refine (OSame.const _).bind fun sb => ((same_strtab sb).mapErr _).bind fun _ => ?_
  refine ((same_identification _).mapErr _).bind fun _ => (OSame.const _).bind fun mb => ?_
  have hm (ctx : PartialMapCtx) : OSame fun pf => Module.tryFrom pf target mb ctx := by
    simp only [Module.tryFrom]
    exact (same_module target mb ctx).bind fun _ => .const _
  refine ((hm _).mapErr _).bind fun _ => ?_
  have h : OSame fun pf => optSymtab pf p.symtab := by
    cases p.symtab with
    | none => exact .const _
    | some b => exact (same_symtab b).bind fun _ => .const _
  exact (h.mapErr _).bind fun _ => .const _

theorem same_ofStream (target : Str) (b : Bitstream) : OSame fun pf => Bitcode.ofStream pf target b := by
  simp only [Bitcode.ofStream]
  exact ((same_unroll b).mapErr _).bind fun ps =>
    (same_mapOut (f := fun pf p => PartialModule.reify pf target p) (same_reify target) ps).bind fun _ => .const _

/-! ## The property -/

/-- C55: mapping the bytes of a file gives the same result in debug and release builds, unless the debug build reports an
arithmetic overflow. -/
theorem C55_file (target : Str) (bytes : List U8) :
    (Bitcode.tryFrom .debug target bytes).Overflows ∨
      Bitcode.tryFrom .release target bytes = Bitcode.tryFrom .debug target bytes := by
  have h : OSame fun pf => Bitcode.tryFrom pf target bytes := by
    simp only [Bitcode.tryFrom]
    exact ((same_from bytes).mapErr _).bind fun s => same_ofStream target s.2
  exact h.cases

/-- C55: so does opening a stream, in whichever way. -/
theorem C55_open (bytes : List U8) :
    ((Bitstream.from .debug bytes).Overflows ∨ Bitstream.from .release bytes = Bitstream.from .debug bytes) ∧
    ((Bitstream.fromWrapped .debug bytes).Overflows ∨
      Bitstream.fromWrapped .release bytes = Bitstream.fromWrapped .debug bytes) :=
  ⟨(same_from bytes).cases, (same_fromWrapped bytes).cases⟩

/-- C55: the results of any number of calls of `next` are the same, unless one of them overflows in the debug build. -/
theorem C55_iterate (n : Nat) (b : Bitstream) :
    (∃ r ∈ (iterate .debug n b).1, Overflowed r) ∨ iterate .release n b = iterate .debug n b := by
  induction n generalizing b with
  | zero => exact .inr rfl
  | succ n ih =>
    simp only [iterate]
    rcases same_next b with h | h
    · exact .inl ⟨_, List.mem_cons_self, h⟩
    · rw [h]
      rcases ih (Bitstream.next .debug b).2 with ⟨r, hr, ho⟩ | h'
      · exact .inl ⟨r, List.mem_cons_of_mem _ hr, ho⟩
      · exact .inr (by rw [h'])

/-- The caller of a cursor operation sees a panic that reports an arithmetic overflow. -/
def ObsOverflowed : Cursor.Obs → Prop
  | .word r => r.Overflows
  | .int r => r.Overflows
  | .unit r => r.Overflows
  | .seek r => r.Overflows
  | .none => False

/-- C55: everything any sequence of cursor operations lets its caller observe is the same in both builds, unless one of
them overflows in the debug build. -/
theorem C55_cursor (ops : List Cursor.Op) (c : Cursor) :
    (∃ o ∈ Cursor.trace .debug ops c, ObsOverflowed o.1) ∨ Cursor.trace .release ops c = Cursor.trace .debug ops c := by
  induction ops generalizing c with
  | nil => exact .inr rfl
  | cons op ops ih =>
    have hop : ObsOverflowed (Cursor.apply .debug op c).1 ∨ Cursor.apply .release op c = Cursor.apply .debug op c := by
      cases op with
      | readVbr w =>
        rcases (same_vbr w).cases c with ⟨q, c', h, hq⟩ | h
        · exact .inl (by simp only [Cursor.apply, h]; exact .intro hq)
        · exact .inr (by simp only [Cursor.apply, h])
      | readSvbr w =>
        rcases (same_svbr w).cases c with ⟨q, c', h, hq⟩ | h
        · exact .inl (by simp only [Cursor.apply, h]; exact .intro hq)
        · exact .inr (by simp only [Cursor.apply, h])
      | seek p =>
        rcases (same_seek p).cases c with ⟨q, c', h, hq⟩ | h
        · exact .inl (by simp only [Cursor.apply, h]; exact .intro hq)
        · exact .inr (by simp only [Cursor.apply, h])
      | _ => exact .inr rfl
    simp only [Cursor.trace]
    rcases hop with h | h
    · exact .inl ⟨_, List.mem_cons_self, h⟩
    · rw [h]
      rcases ih (Cursor.apply .debug op c).2 with ⟨r, hr, ho⟩ | h'
      · exact .inl ⟨r, List.mem_cons_of_mem _ hr, ho⟩
      · exact .inr (by rw [h'])

/-- A debug build maps this file, so a release build maps it to the same. -/
example : (streamBytes 0xdec04342 exFile).map (fun x => Bitcode.tryFrom .debug "t".toList x.1) = some (.ok exBitcode) :=
  exFile_maps .debug

/-- The exception is real: a library record without fields stops a debug build and is an empty name in a release build. -/
theorem C55_overflow_differs :
    mapFile .debug (fileOf (moduleOf (.unabbrev 6 [] .nil))) = some (.panic .recordLenSub) ∧
    mapFile .release (fileOf (moduleOf (.unabbrev 6 [] .nil))) = some (.ok { modules := [
      { identification := { producer := "LLVM".toList, epoch := 0 }
        module := { triple := "t".toList, asm := [], deplibs := [[]] }
        strtab := { bytes := [99, 102, 103] }, symtab := none }] }) := by decide +kernel

end Props
end Verif
