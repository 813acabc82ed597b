import Verif.Cursor.LogSpec
import Verif.Props.Belt
import Verif.Bitstream.Log
import Verif.Props.Iteration

/-! C91: what a cursor logs, over whole histories of operations. -/

namespace Verif
open Spec Cursor

theorem BRep.number {t : Belt} {c : Cursor} (h : BRep t c) : c.currentBlock = t.number t.pos t.edge ∧ c.bitIndex = t.edge - t.pos := by
  have hidx := h.inv.idx_le
  have hb := h.inv.block
  have he : c.bitIndex = t.edge - t.pos := by rw [h.edge, h.pos]; simp only [tellBit]; omega
  refine ⟨?_, he⟩
  apply BitVec.eq_of_toNat_eq
  rw [Belt.number, h.rest, ← he, ← hb]
  simp

theorem log_read {t : Belt} {c : Cursor} (h : BRep t c) (n : Nat) : CurLog.read n c = t.readLog n := by
  have hl := h.len
  have hle := tellBit_le h.inv
  have hp := h.pos
  have hidx := h.inv.idx_le
  have he := h.edge
  obtain ⟨n1, n2⟩ := h.number
  have hr := brep_read h n
  simp only [CurLog.read, Belt.readLog, ← n1, ← n2]
  congr 1
  by_cases h1 : n = 0 ∨ n ≥ 64
  · rw [if_pos h1, if_pos h1]
  rw [if_neg h1, if_neg h1]
  by_cases h2 : c.bitIndex ≥ n
  · rw [if_pos h2, if_pos (by simp only [tellBit] at hp; omega)]
  rw [if_neg h2, if_neg (by simp only [tellBit] at hp; omega)]
  by_cases h3 : t.pos = t.bits.length
  · rw [if_pos h3]
    have : c.tellByte ≥ c.byteLen := by simp only [tellByte]; omega
    have h4 : loadCurrentBlock c = (.err .eof, c) := by simp [loadCurrentBlock, this]
    have h5 : (Cursor.read n c).1 = .err .eof := by rw [hr.1, Belt.read, if_neg h1, if_pos h3]
    simp only [CurLog.load, h4]
    cases hc : Cursor.read n c with
    | mk o c1 => rw [hc] at h5; simp only at h5; subst h5; rfl
  · rw [if_neg h3]
    obtain ⟨c1, l1, l2, l3, l4, l5, l6⟩ := load_spec h.inv (by omega)
    have hb : t.edge ≤ t.bits.length := by have := h.inv.pos_le; omega
    have l7 : c1.bitIndex = min (t.edge + 64) t.bits.length - t.edge := by omega
    have l8 : c1.currentBlock = t.number t.edge (min (t.edge + 64) t.bits.length) := by
      apply BitVec.eq_of_toNat_eq
      have hr1 : c1.rest = t.bits.drop t.edge := by rw [he, ← l6.1, h.bits, ← l2.bits]; rfl
      rw [Belt.number, ← l7, ← hr1, ← l6.2.1]
      simp
    simp only [CurLog.load, l1, l7, l8]
    congr 1
    rw [Belt.read, if_neg h1, if_neg h3] at hr
    by_cases h6 : t.pos + n ≤ t.bits.length
    · rw [if_neg (by omega), if_neg (show ¬ t.pos + n ≤ t.edge by simp only [tellBit] at hp; omega)] at hr
      rw [if_pos h6]
      cases hc : Cursor.read n c with
      | mk o c2 =>
        rw [hc] at hr
        obtain ⟨r1, r2⟩ := hr
        simp only at r1; subst r1
        obtain ⟨m1, m2⟩ := r2.number
        show [_] ++ [CurLine.partDone c2.currentBlock c2.bitIndex] = _
        rw [m1, m2]
        rfl
    · rw [if_pos (by omega)] at hr
      rw [if_neg h6]
      cases hc : Cursor.read n c with
      | mk o c2 =>
        rw [hc] at hr
        obtain ⟨r1, r2⟩ := hr
        simp only at r1; subst r1
        rfl

theorem read_lt {t : Belt} {n : Nat} {v : U64} {t' : Belt} (hr : t.read n = (.ok v, t')) : v.toNat < 2 ^ n := by
  simp only [Belt.read] at hr
  split at hr
  · cases hr
  split at hr
  · cases hr
  split at hr
  · cases hr
  · cases hr
    rw [BitVec.toNat_ofNat]
    refine Nat.lt_of_le_of_lt (Nat.mod_le _ _) (Nat.lt_of_lt_of_le (natOfBits_lt _) (Nat.pow_le_pow_right (by decide) ?_))
    simp only [List.length_take]; omega

theorem log_chunks {pf : Profile} {w : Nat} (h2 : 2 ≤ w) (h32 : w ≤ 32) (k : Nat) (shift : Nat) {t : Belt} {c : Cursor} (h : BRep t c) :
    CurLog.readVbrLoop pf w k shift c = t.chunksLog pf w k shift := by
  induction k generalizing shift t c with
  | zero => rfl
  | succ k ih =>
    simp only [CurLog.readVbrLoop, Belt.chunksLog, log_read h]
    congr 1
    have hr := brep_read h w
    cases h1 : t.read w with
    | mk o t1 =>
      cases hc2 : Cursor.read w c with
      | mk o' c1 =>
        rw [h1, hc2] at hr
        obtain ⟨hr, hm⟩ := hr
        simp only at hr; subst hr
        cases o' with
        | err e => rfl
        | panic p => rfl
        | diverge => rfl
        | ok v =>
          have hlt := read_lt h1
          have hd := chunk_data h2 h32 hlt
          have hc := chunk_cont h2 h32 hlt
          have hde : v &&& ~~~(1#64 <<< (w - 1)) = BitVec.ofNat 64 (v.toNat % 2 ^ (w - 1)) := by
            apply BitVec.eq_of_toNat_eq
            rw [hd, BitVec.toNat_ofNat, Nat.mod_eq_of_lt (b := 2 ^ 64)]
            exact Nat.lt_of_le_of_lt (Nat.mod_le _ _) v.isLt
          simp only [hde]
          congr 1
          by_cases hs : pf = .debug ∧ 64 ≤ shift
          · have hor : (pf = .debug ∧ 64 ≤ shift) ∨ v.toNat < 2 ^ (w - 1) := .inl hs
            rw [if_pos hor]
            obtain ⟨rfl, hs⟩ := hs
            simp [shl64, Nat.not_lt.2 hs]
          · have : ∃ x, shl64 pf (BitVec.ofNat 64 (v.toNat % 2 ^ (w - 1))) shift = some x := by
              by_cases hs' : shift < 64
              · exact ⟨_, by simp only [shl64, if_pos hs']; rfl⟩
              · cases pf with
                | debug => exact absurd ⟨rfl, by omega⟩ hs
                | release => exact ⟨_, by simp only [shl64, if_neg hs']; rfl⟩
            obtain ⟨x, hx⟩ := this
            simp only [hx]
            by_cases hv : v.toNat < 2 ^ (w - 1)
            · have hor : (pf = .debug ∧ 64 ≤ shift) ∨ v.toNat < 2 ^ (w - 1) := .inr hv
              rw [if_pos hor, if_neg (fun hh => by have := hc.1 hh; omega)]
            · have hor : ¬ ((pf = .debug ∧ 64 ≤ shift) ∨ v.toNat < 2 ^ (w - 1)) := fun hh => hh.elim hs hv
              rw [if_neg hor, if_pos (hc.2 (by omega)), ih _ hm]

theorem log_vbr (pf : Profile) (w : Nat) {t : Belt} {c : Cursor} (h : BRep t c) : CurLog.readVbr pf w c = t.vbrLog pf w := by
  unfold CurLog.readVbr Belt.vbrLog
  by_cases hw : 2 ≤ w ∧ w ≤ 32
  · rw [if_neg (by simpa using hw), if_neg (by omega), h.len, log_chunks hw.1 hw.2 _ _ h]; rfl
  · rw [if_pos (by simpa using hw), if_pos (by omega)]

theorem log_seek (p : Nat) {t : Belt} {c : Cursor} (h : BRep t c) : CurLog.seekBit p c = t.seekLog p := by
  have hl := h.len
  simp only [CurLog.seekBit, Belt.seekLog]
  congr 1
  by_cases hb : p / 8 / 8 * 8 > c.byteLen
  · rw [if_pos hb, if_pos (show t.bits.length < p / 64 * 64 by omega)]
  · rw [if_neg hb, if_neg (show ¬ t.bits.length < p / 64 * 64 by omega)]
    congr 1
    by_cases hp : p % 64 > 0
    · rw [if_pos hp, if_neg (show ¬ p % 64 = 0 by omega), log_read (h.jump (p := p / 8 / 8 * 8) (by omega)),
        show p / 8 / 8 * 8 * 8 = p / 64 * 64 by omega]
    · rw [if_neg hp, if_pos (show p % 64 = 0 by omega)]

theorem log_apply (pf : Profile) (op : Op) {t : Belt} {c : Cursor} (h : BRep t c) : CurLog.apply pf op c = t.log pf op := by
  cases op with
  | read n => exact log_read h n
  | readAs ty n => exact log_read h n
  | readExact ty => exact log_read h _
  | readVbr w => exact log_vbr pf w h
  | readSvbr w => exact log_vbr pf w h
  | seekBit p => exact log_seek p h
  | seek p => rfl
  | align32 => rfl

/-- C91. Whatever is done with a cursor, in whatever order and whether it succeeds or fails, it logs what the bits and the position say. -/
theorem C91_log (pf : Profile) (buf : List U8) (hlen : buf.length < 2 ^ 63) (ops : List Op) (hv : ∀ op ∈ ops, op.Valid) :
    CurLog.trace pf ops (Cursor.new buf) = (Belt.start buf).logs pf ops := by
  have key : ∀ (ops : List Op), (∀ op ∈ ops, op.Valid) → ∀ {t : Belt} {c : Cursor}, BRep t c → c.inner.length < 2 ^ 63 →
      CurLog.trace pf ops c = t.logs pf ops := by
    intro ops
    induction ops with
    | nil => intros; rfl
    | cons op ops ih =>
      intro hv t c h hlen
      have hr := brep_apply (pf := pf) h hlen (hv op (by simp))
      have hb := (inv_apply pf op h.inv).2.1
      simp only [CurLog.trace, Belt.logs]
      rw [log_apply pf op h, ih (fun op ho => hv op (by simp [ho])) hr.2 (by rw [hb]; exact hlen)]
  refine key ops hv ⟨inv_new buf, ?_, ?_, ?_⟩ hlen
  · simp [Belt.start, Cursor.bits, Cursor.new]
  · simp [Belt.start, Cursor.new, tellBit]
  · simp [Belt.start, Cursor.new]

/-! ## The messages tell the result -/

/-- A message of a read. -/
def CurLine.ofRead : CurLine → Bool
  | .chunk .. => false
  | _ => true

theorem read_ofRead (n : Nat) (c : Cursor) : ∀ l ∈ CurLog.read n c, l.ofRead := by
  intro l hl
  simp only [CurLog.read, CurLog.load] at hl
  repeat' split at hl
  all_goals simp_all [CurLine.ofRead]
  all_goals rcases hl with rfl | rfl | rfl <;> rfl

/-- Two reads with the same messages. -/
theorem read_tells {c d : Cursor} (hc : c.Inv) (hd : d.Inv) {n : Nat} (h : CurLog.read n c = CurLog.read n d) :
    (Cursor.read n c).1 = (Cursor.read n d).1 := by
  simp only [CurLog.read, List.cons.injEq, CurLine.reading.injEq, true_and] at h
  obtain ⟨⟨h1, h2⟩, h3⟩ := h
  by_cases g1 : n = 0 ∨ n ≥ 64
  · simp only [Cursor.read, if_pos g1]
  rw [if_neg g1, if_neg g1] at h3
  by_cases g2 : c.bitIndex ≥ n
  · simp only [Cursor.read, if_neg g1, if_pos g2, if_pos (h2 ▸ g2), h1]
  rw [if_neg g2, if_neg (h2 ▸ g2)] at h3
  have load : ∀ {c : Cursor}, c.Inv → (∃ c', loadCurrentBlock c = (.ok (), c')) ∨ loadCurrentBlock c = (.err .eof, c) := by
    intro c hc
    by_cases hl : c.tellBit < c.byteLen * 8
    · obtain ⟨c', hl, -⟩ := load_spec hc hl; exact .inl ⟨c', hl⟩
    · exact .inr (by rw [loadCurrentBlock, if_pos (by simp only [tellByte]; omega)])
  rcases load hc with ⟨c', l1⟩ | l1 <;> rcases load hd with ⟨d', l2⟩ | l2
  · simp only [CurLog.load, l1, l2, List.cons_append, List.nil_append, List.cons.injEq, CurLine.loaded.injEq] at h3
    simp only [Cursor.read, if_neg g1, if_neg (h2 ▸ g2), l1, l2, h1, h2, h3.1.1, h3.1.2]
    split <;> rfl
  · simp [CurLog.load, l1, l2, Cursor.read, if_neg g1, if_neg (h2 ▸ g2 : ¬ d.bitIndex ≥ n)] at h3
  · simp [CurLog.load, l1, l2, Cursor.read, if_neg g1, if_neg g2] at h3
  · simp only [Cursor.read, if_neg g1, if_neg g2, if_neg (h2 ▸ g2), l1, l2]

theorem readThen_split {A B X Y : List CurLine} (ha : ∀ l ∈ A, l.ofRead) (hb : ∀ l ∈ B, l.ofRead)
    (hx : ∀ l, X.head? = some l → ¬ l.ofRead) (hy : ∀ l, Y.head? = some l → ¬ l.ofRead) (h : A ++ X = B ++ Y) : A = B ∧ X = Y := by
  induction A generalizing B with
  | nil =>
    cases B with
    | nil => exact ⟨rfl, h⟩
    | cons b B => exact absurd (hb b (by simp)) (hx b (by rw [List.nil_append] at h; rw [h]; rfl))
  | cons a A ih =>
    cases B with
    | nil => exact absurd (ha a (by simp)) (hy a (by rw [List.nil_append] at h; rw [← h]; rfl))
    | cons b B =>
      simp only [List.cons_append, List.cons.injEq] at h
      obtain ⟨rfl, h⟩ := h
      obtain ⟨rfl, rfl⟩ := ih (fun l hl => ha l (by simp [hl])) (fun l hl => hb l (by simp [hl])) h
      exact ⟨rfl, rfl⟩

theorem loop_tells {pf : Profile} {w : Nat} (k k' : Nat) (acc : U64) (shift : Nat) {c d : Cursor} (hc : c.Inv) (hd : d.Inv)
    (h : CurLog.readVbrLoop pf w k shift c = CurLog.readVbrLoop pf w k' shift d) (hk : (readVbrLoop pf w k acc shift c).1 ≠ .diverge)
    (hk' : (readVbrLoop pf w k' acc shift d).1 ≠ .diverge) :
    (readVbrLoop pf w k acc shift c).1 = (readVbrLoop pf w k' acc shift d).1 := by
  induction k generalizing k' acc shift c d with
  | zero => exact absurd rfl hk
  | succ k ih =>
    cases k' with
    | zero => exact absurd rfl hk'
    | succ k' =>
      simp only [CurLog.readVbrLoop] at h
      obtain ⟨h1, h2⟩ := readThen_split (read_ofRead w c) (read_ofRead w d)
        (by intro l hl; split at hl; cases hl; simp [CurLine.ofRead]; cases hl)
        (by intro l hl; split at hl; cases hl; simp [CurLine.ofRead]; cases hl) h
      have h3 := read_tells hc hd h1
      have ic := (good_read w (fun _ => False) c hc).inv
      have id := (good_read w (fun _ => False) d hd).inv
      simp only [readVbrLoop] at hk hk' ⊢
      cases rc : Cursor.read w c with
      | mk o c1 =>
        cases rd : Cursor.read w d with
        | mk o' d1 =>
          rw [rc, rd] at h3
          rw [rc] at ic hk
          rw [rd] at id hk'
          rw [rc, rd] at h2
          simp only at h3; subst h3
          cases o with
          | err e => rfl
          | panic p => rfl
          | diverge => rfl
          | ok v =>
            simp only [List.cons.injEq, true_and] at h2 hk hk' ⊢
            cases hs : shl64 pf (v &&& ~~~(1#64 <<< (w - 1))) shift with
            | none => rfl
            | some x =>
              rw [hs] at h2 hk hk'
              simp only at h2 hk hk' ⊢
              by_cases hb : (v &&& 1#64 <<< (w - 1)) ≠ 0
              · rw [if_pos hb] at hk hk' ⊢
                rw [if_pos hb, if_pos hb] at h2
                rw [if_pos hb]
                exact ih _ _ _ ic id h2 hk hk'
              · rw [if_neg hb, if_neg hb]

theorem vbr_tells {pf : Profile} {w : Nat} {c d : Cursor} (hc : c.Inv) (hd : d.Inv) (h : CurLog.readVbr pf w c = CurLog.readVbr pf w d) :
    (Cursor.readVbr pf w c).1 = (Cursor.readVbr pf w d).1 := by
  have nc := (good_readVbr (A := fun _ => True) pf w (fun _ => trivial) c hc).nodiv
  have nd := (good_readVbr (A := fun _ => True) pf w (fun _ => trivial) d hd).nodiv
  simp only [Cursor.readVbr, CurLog.readVbr] at h nc nd ⊢
  by_cases hw : ¬ (2 ≤ w ∧ w ≤ 32)
  · rw [if_pos hw, if_pos hw]
  · rw [if_neg hw] at nc nd ⊢
    rw [if_neg hw, if_neg hw] at h
    rw [if_neg hw]
    exact loop_tells _ _ _ _ hc hd h nc nd

/-- C91. What an operation logs tells its result: two cursors, over whatever bytes and after whatever operations, that log the same for
an operation give the same result for it. Byte seeks log nothing. -/
theorem C91_tells {pf : Profile} {c d : Cursor} (hc : Reachable pf c) (hd : Reachable pf d) (op : Op) (hop : ∀ p, op ≠ .seek p)
    (h : CurLog.apply pf op c = CurLog.apply pf op d) : (Cursor.apply pf op c).1 = (Cursor.apply pf op d).1 := by
  have hc := hc.inv
  have hd := hd.inv
  have ras : ∀ (ty : IntTy) (n : Nat), CurLog.read n c = CurLog.read n d → (readAs ty n c).1 = (readAs ty n d).1 := by
    intro ty n h
    have h1 := read_tells hc hd h
    simp only [readAs]
    cases rc : Cursor.read n c with
    | mk o c1 =>
      cases rd : Cursor.read n d with
      | mk o' d1 =>
        rw [rc, rd] at h1
        simp only at h1; subst h1
        cases o with
        | ok v => by_cases hv : v.toNat ≤ ty.max <;> simp only [hv, if_true, if_false]
        | _ => rfl
  cases op with
  | read n => exact congrArg Obs.word (read_tells hc hd h)
  | readAs ty n => exact congrArg Obs.word (ras ty n h)
  | readExact ty => exact congrArg Obs.word (ras ty _ h)
  | readVbr w => exact congrArg Obs.word (vbr_tells hc hd h)
  | readSvbr w =>
    have h1 := vbr_tells hc hd h
    simp only [Cursor.apply, Obs.int.injEq]
    rw [readSvbr_of_readVbr pf w c, readSvbr_of_readVbr pf w d, h1]
  | seekBit p =>
    simp only [CurLog.apply, CurLog.seekBit, List.cons.injEq, true_and] at h
    simp only [Cursor.apply, Obs.unit.injEq, Cursor.seekBit]
    by_cases gc : p / 8 / 8 * 8 > c.byteLen <;> by_cases gd : p / 8 / 8 * 8 > d.byteLen
    · rw [if_pos gc, if_pos gd]
    · rw [if_pos gc, if_neg gd] at h; cases h
    · rw [if_neg gc, if_pos gd] at h; cases h
    · rw [if_neg gc, if_neg gd] at h ⊢
      by_cases hp : p % 64 > 0
      · rw [if_pos hp, if_pos hp] at h
        rw [if_pos hp, if_pos hp]
        have h1 := read_tells (inv_at hc (Nat.not_lt.1 gc)) (inv_at hd (Nat.not_lt.1 gd)) (List.cons.inj h).2
        cases rc : Cursor.read (p % 64) (c.atByte (p / 8 / 8 * 8)) with
        | mk o c1 =>
          cases rd : Cursor.read (p % 64) (d.atByte (p / 8 / 8 * 8)) with
          | mk o' d1 =>
            rw [rc, rd] at h1
            simp only at h1; subst h1
            cases o <;> rfl
      · rw [if_neg hp, if_neg hp]
  | seek p => exact absurd rfl (hop p)
  | align32 => rfl

/-- Two cursors over different bytes, at different positions, with the same messages. -/
example :
    let c := (Cursor.apply .debug (.read 6) (Cursor.new [0x40, 0x97])).2
    let d := (Cursor.apply .debug (.seek (.start 1)) (Cursor.new [0xff, 0x7f, 0x97])).2
    let d := (Cursor.apply .debug (.read 6) d).2
    CurLog.apply .debug (.readVbr 4) c = CurLog.apply .debug (.readVbr 4) d ∧ (c.tellBit, d.tellBit) = (6, 14) ∧
    CurLog.apply .debug (.readVbr 4) c =
      [.reading 4 0x25d 10, .enough, .chunk 13 5, .reading 4 0x25 6, .enough, .chunk 5 5] := by
  decide +kernel

/-- The messages of a series of operations. -/
example : (Belt.start [1, 2, 3, 4, 5, 6, 7, 8, 9, 10]).logs .debug
    [.read 60, .read 21, .read 8, .seek (.start 1), .read 4, .align32, .seekBit 81, .readVbr 3, .seekBit 200, .read 64] =
    [[.reading 60 0 0, .loaded 0x807060504030201 64, .partDone 0 4], [.reading 21 0 4, .loaded 0xa09 16], [.reading 8 0xa09 16, .enough],
     [], [.reading 4 0 0, .loaded 0x908070605040302 64, .partDone 0x90807060504030 60], [.aligning],
     [.seeking 81, .toConsume 17, .reading 17 0 0, .loaded 0xa09 16], [.reading 3 0xa09 16, .enough, .chunk 1 1], [.seeking 200],
     [.reading 64 0x141 13]] := by
  decide +kernel

/-- C91. Opening a stream tells whether there is a magic number, and whether it is that of a wrapper. -/
theorem C91_container (bytes : List U8) :
    Log.from bytes = .beginning ::
      if bytes.length < 4 then [] else if word32 bytes = some 0x0B17C0DE then [.wrapper] else [.raw] := by
  have hlen := bitsOf_length bytes
  have hrest : (Cursor.new bytes).rest = bitsOf bytes := rest_new bytes
  unfold Log.from
  congr 1
  rcases readU32 (inv_new bytes) with ⟨hl, v, c', e, hv, -⟩ | ⟨hl, x, c', e, -⟩
  · rw [hrest] at hl hv
    rw [show cur (Cursor.readExact .u32) (Cursor.new bytes) = (.ok v, c') by simp [cur, StM.mapErr, e]]
    rw [if_neg (show ¬ bytes.length < 4 by omega), natOfBits_word _ (by omega), ← hv]
    by_cases h : v = 0x0b17c0de
    · subst h; rfl
    · simp only [if_neg h]
      rw [if_neg]
      intro h'
      exact h (BitVec.eq_of_toNat_eq (Option.some.inj h'))
  · rw [hrest] at hl
    rw [show cur (Cursor.readExact .u32) (Cursor.new bytes) = (.err (.cursor x), c') by simp [cur, StM.mapErr, e]]
    rw [if_pos (show bytes.length < 4 by omega)]

example : Log.from [0xDE, 0xC0, 0x17, 0x0B] = [.beginning, .wrapper] ∧ Log.from [0x42, 0x43, 0xC0, 0xDE] = [.beginning, .raw] ∧
    Log.from [0xDE, 0xC0, 0x17] = [.beginning] := by
  refine ⟨?_, ?_, ?_⟩ <;> rw [C91_container] <;> decide

end Verif
