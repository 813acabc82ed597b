import Verif.Props.ReserveFile
import Verif.Props.Sizes

/-! C81: what is asked of the allocator in advance, before the elements are there. -/

namespace Verif.Props
open Spec Parser

/-- C81, the reader. Whatever has been read of a stream, the next call of `next` panics for want of room exactly if it asks for 2^63
bytes or more at once. -/
theorem C81_capacity_reader (pf : Profile) {b : Bitstream} (h : Reach pf b) :
    (Bitstream.next pf b).1 = .panic .capacity ↔ ∃ n ∈ Reserve.next pf b, 2 ^ 63 ≤ n :=
  (paid_next pf (reach_small h).1 (reach_small h).2).cap

/-- C81, whole files: mapping panics for want of room exactly if 2^63 bytes or more are asked for at once. -/
theorem C81_capacity_file (pf : Profile) (target : Str) (bytes : List U8) :
    Bitcode.tryFrom pf target bytes = .panic .capacity ↔ ∃ n ∈ Reserve.file pf target bytes, 2 ^ 63 ≤ n :=
  file_room pf target bytes

/-- C81, the reader. All but the last request of a call of `next` are for no more than 8 bytes for each bit that the call consumes; and
if the call gives an item or the end, this holds of all its requests together. What is missing: the last request of a call that fails,
for which there is no bound, `C81_unbounded`. -/
theorem C81_read_partial (pf : Profile) {b : Bitstream} (h : Reach pf b) :
    (Reserve.next pf b).dropLast.sum ≤ 8 * ((Bitstream.next pf b).2.pos - b.pos) ∧
    ((∃ e, (Bitstream.next pf b).1 = .item e) ∨ (Bitstream.next pf b).1 = .done →
      (Reserve.next pf b).sum ≤ 8 * ((Bitstream.next pf b).2.pos - b.pos)) :=
  let hp := paid_next pf (reach_small h).1 (reach_small h).2
  ⟨hp.most, hp.fit⟩

/-- C81, whole files: a file that maps asks for no more than 512 times its size, all requests taken together. What is missing: files
that do not map, for which there is no bound, `C81_unbounded`. -/
theorem C81_maps_partial {pf : Profile} {target : Str} {bytes : List U8} {f : Bitcode}
    (h : Bitcode.tryFrom pf target bytes = .ok f) : (Reserve.file pf target bytes).sum ≤ 512 * bytes.length :=
  file_fit h

/-- C81, the cause. An unabbreviated record that announces `n` operands makes the reader ask for the room of `n` operands, whatever
comes after the number, and be it nothing. -/
theorem C81_announced (pf : Profile) {b : Bitstream} (hb : Reach pf b) {w id : U64} {bid : Option U64} {l : List Abbrev}
    {rest : List Scope} (hs : b.parser.scopes = .block w id bid l :: rest) (h1 : 2 ≤ w.toNat) (h2 : w.toNat ≤ 63)
    {code n : U64} {tail : List Bool} (hr : b.remaining = bitsOfNat w.toNat 3 ++ encVbr 6 code ++ encVbr 6 n ++ tail) :
    ∃ more, Reserve.next pf b = 8 * n.toNat :: more := by
  have hi : Cursor.Inv b.parser.cursor := (reach_small hb).1.cur
  rw [remaining_eq, List.append_assoc, List.append_assoc] at hr
  have h3 : (3 : U64).toNat < 2 ^ w.toNat := by
    have : 2 ^ 2 ≤ 2 ^ w.toNat := Nat.pow_le_pow_right (by omega) h1
    show 3 < _; omega
  have hne : b.parser.cursor.exhausted ≠ true := by
    rw [ne_eq, Cursor.exhausted_iff_rest hi, hr]
    intro hc
    have := congrArg List.length hc
    simp at this; omega
  obtain ⟨x, c₁, e₁, -, i₁, hx, r₁, -, -⟩ := Cursor.read_ok hi (n := w.toNat) (by omega) h2 (by rw [hr]; simp)
  have : x = 3 := by
    apply BitVec.eq_of_toNat_eq
    rw [hx, hr, List.take_left' (by simp)]
    exact natOfBits_bitsOfNat_of_lt h3
  subst this
  rw [hr, List.drop_left' (by simp)] at r₁
  obtain ⟨c₂, e₂, -, i₂, r₂, -⟩ := Cursor.readVbr_enc pf (by omega) (by omega) code i₁ r₁
  obtain ⟨c₃, e₃, -⟩ := Cursor.readVbr_enc pf (by omega) (by omega) n i₂ r₂
  unfold Reserve.next Reserve.advance
  have : Reserve.step pf b.parser = [8 * n.toNat] := by
    unfold Reserve.step Reserve.unabbrev
    rw [if_neg hne, hs]
    simp only [Scope.abbrevIdWidth, e₁, e₂, e₃]
    simp
  rw [this]
  exact ⟨_, rfl⟩

/-- A file of 24 bytes: a block with a record that announces 2^60 - 1 operands, and 15 bits. -/
def announcesOperands : List U8 :=
  [0x42, 0x43, 0xc0, 0xde, 0x21, 0x0c, 0, 0, 1, 0, 0, 0, 0x0b, 0xfe, 0xff, 0xff, 0xff, 0xff, 0xff, 0xff, 0xff, 0xff, 0, 0]

/-- A module whose type table announces `n` types and has none. -/
def announcesTypes (n : U64) : Items :=
  .block 13 3 (.unabbrev 1 [76, 76] (.unabbrev 2 [0] .nil)) <|
  .block 8 3 (.unabbrev 1 [2] (.block 17 3 (.unabbrev 1 [n] .nil) (.block 14 3 .nil .nil))) <|
  .block 23 3 (.unabbrev 1 [65, 66] .nil) .nil

/-- A module with a function body that announces `n` basic blocks and has none. -/
def announcesBlocks (n : U64) : Items :=
  .block 13 3 (.unabbrev 1 [76, 76] (.unabbrev 2 [0] .nil)) <|
  .block 8 3 (.unabbrev 1 [2] (.block 17 3 (.unabbrev 1 [0] .nil) (.block 14 3 .nil (.block 12 3 (.unabbrev 1 [n] .nil) .nil)))) <|
  .block 23 3 (.unabbrev 1 [65, 66] .nil) .nil

/-- C81 is false: files of 24, 84 and 96 bytes ask for 2^63 - 8 bytes at once, which is as much as can be asked for without the panic
for want of room, by announcing operands, types and basic blocks. -/
theorem C81_unbounded (pf : Profile) :
    (announcesOperands.length = 24 ∧ Reserve.file pf [] announcesOperands = [2 ^ 63 - 8] ∧
      Bitcode.tryFrom pf [] announcesOperands = .err (.parse (.cursor .short))) ∧
    (∃ bytes es, streamBytes 0xdec04342 (announcesTypes (BitVec.ofNat 64 (2 ^ 63 / 56))) = some (bytes, es) ∧ bytes.length = 84 ∧
      2 ^ 63 - 8 ∈ Reserve.file pf [] bytes ∧ ∃ e, Bitcode.tryFrom pf [] bytes = .err e) ∧
    ∃ bytes es, streamBytes 0xdec04342 (announcesBlocks (BitVec.ofNat 64 (2 ^ 63 / 24))) = some (bytes, es) ∧ bytes.length = 96 ∧
      2 ^ 63 - 8 ∈ Reserve.file pf [] bytes := by
  refine ⟨by cases pf <;> decide +kernel, ?_, ?_⟩
  · have h : ((streamBytes 0xdec04342 (announcesTypes (BitVec.ofNat 64 (2 ^ 63 / 56)))).map fun x =>
        (x.1.length, decide (2 ^ 63 - 8 ∈ Reserve.file pf [] x.1), match Bitcode.tryFrom pf [] x.1 with | .err _ => true | _ => false)) =
        some (84, true, true) := by cases pf <;> decide +kernel
    simp only [Option.map_eq_some_iff, Prod.mk.injEq, decide_eq_true_eq] at h
    obtain ⟨⟨bytes, es⟩, h, h1, h2, h3⟩ := h
    refine ⟨bytes, es, h, h1, h2, ?_⟩
    revert h3
    cases Bitcode.tryFrom pf [] bytes <;> simp
  · have h : ((streamBytes 0xdec04342 (announcesBlocks (BitVec.ofNat 64 (2 ^ 63 / 24)))).map fun x =>
        (x.1.length, decide (2 ^ 63 - 8 ∈ Reserve.file pf [] x.1))) = some (96, true) := by cases pf <;> decide +kernel
    simp only [Option.map_eq_some_iff, Prod.mk.injEq, decide_eq_true_eq] at h
    obtain ⟨⟨bytes, es⟩, h, h1, h2⟩ := h
    exact ⟨bytes, es, h, h1, h2⟩

/-- With one more type, the same file makes mapping panic. -/
example (pf : Profile) : ((streamBytes 0xdec04342 (announcesTypes (BitVec.ofNat 64 (2 ^ 63 / 56 + 1)))).map fun x =>
    (Bitcode.tryFrom pf [] x.1 = .panic .capacity : Bool)) = some true := by cases pf <;> decide +kernel

/-- A file that maps, and what it asks for. -/
example (pf : Profile) : ((streamBytes 0xdec04342 (announcesTypes 0)).map fun x =>
    (x.1.length, Reserve.file pf [] x.1, match Bitcode.tryFrom pf [] x.1 with | .ok _ => true | _ => false)) =
    some (76, [16, 8, 8, 8, 16, 0], true) := by cases pf <;> decide +kernel

/-- The stream of `announcesOperands` after its block is entered: a reachable one, whose next call asks for 2^63 - 8 bytes and fails,
and at which the hypotheses of `C81_announced` hold. -/
example (pf : Profile) : ∃ b, Bitstream.fromRaw announcesOperands = .ok b ∧ Reach pf (Bitstream.next pf b).2 ∧
    Reserve.next pf (Bitstream.next pf b).2 = [2 ^ 63 - 8] ∧
    (Bitstream.next pf (Bitstream.next pf b).2).1 = .error (.cursor .short) ∧
    (Bitstream.next pf b).2.parser.scopes = [.block 3 8 none [], .initial] ∧
    (Bitstream.next pf b).2.remaining =
      bitsOfNat 3 3 ++ encVbr 6 1 ++ encVbr 6 (BitVec.ofNat 64 (2 ^ 60 - 1)) ++ List.replicate 15 false := by
  have key : (match Bitstream.fromRaw announcesOperands with
      | .ok b => decide (Reserve.next pf (Bitstream.next pf b).2 = [2 ^ 63 - 8] ∧
          (Bitstream.next pf (Bitstream.next pf b).2).1 = .error (.cursor .short) ∧
          (Bitstream.next pf b).2.parser.scopes = [.block 3 8 none [], .initial] ∧
          (Bitstream.next pf b).2.remaining =
            bitsOfNat 3 3 ++ encVbr 6 1 ++ encVbr 6 (BitVec.ofNat 64 (2 ^ 60 - 1)) ++ List.replicate 15 false)
      | _ => false) = true := by cases pf <;> decide +kernel
  cases h : Bitstream.fromRaw announcesOperands with
  | ok b =>
    rw [h] at key
    exact ⟨b, rfl, .next (.opened (.raw h)), of_decide_eq_true key⟩
  | err e => rw [h] at key; exact absurd key (by simp)
  | panic e => rw [h] at key; exact absurd key (by simp)
  | diverge => rw [h] at key; exact absurd key (by simp)

end Verif.Props
