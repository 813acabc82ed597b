import Verif.Props.Written
import Verif.Props.Sizes

/-!
# Records of literals: how much can be written with few bits
-/

namespace Verif
open Spec

/-! ## What items take to write -/

/-- Items that can be written in at most `B` bits wherever ids have `width` bits and nothing is defined: outside blocks only if `top`. -/
def Fits (width : U64) (top : Bool) (B : Nat) (its : Items) : Prop :=
  ∀ (k : Ctx) (pos : Nat), k.width = width → k.block ≠ some 0 → (top = false → k.block ≠ none) → k.defs = [] →
    k.info = (fun _ => []) →
    ∃ w, write k pos its = some w ∧ w.bits.length ≤ B ∧ w.after.width = width ∧ w.after.info = fun _ => []

def Narrow (width : U64) : Prop := width = 2 ∨ width = 3

theorem idBits_narrow {k : Ctx} {width : U64} (hk : k.width = width) (hw : Narrow width) (id : U64) (h : id.toNat < 4) :
    ∃ b, idBits k id = some b ∧ b.length ≤ 3 := by
  unfold idBits
  rw [hk]
  rcases hw with rfl | rfl
  · exact ⟨_, if_pos ⟨by decide, by decide, h⟩, by rw [bitsOfNat_length]; decide⟩
  · exact ⟨_, if_pos ⟨by decide, by decide, Nat.lt_trans h (by decide)⟩, by rw [bitsOfNat_length]; decide⟩

theorem Fits.nil (width : U64) (top : Bool) : Fits width top 0 .nil := by
  intro k pos hw _ _ _ hi
  exact ⟨_, rfl, Nat.le_refl _, hw, hi⟩

theorem Fits.unabbrev {width : U64} (hw : Narrow width) {B : Nat} (code : U64) (fields : List U64) {rest : Items}
    (hl : fields.length < 2 ^ 60) (h : Fits width false B rest) :
    Fits width false (160 + 78 * fields.length + B) (.unabbrev code fields rest) := by
  intro k pos hk h0 hb hd hi
  obtain ⟨b, hkb⟩ : ∃ b, k.block = some b := by
    cases hbk : k.block with
    | none => exact absurd hbk (hb rfl)
    | some b => exact ⟨b, rfl⟩
  have hu : k.unabbrev code fields = some k := by
    unfold Ctx.unabbrev
    rw [hkb]
    exact if_neg fun h => h0 (by rw [hkb, h])
  have hc : unabbrevBits code fields =
      some (encVbr 6 code ++ (encVbr 6 (BitVec.ofNat 64 fields.length) ++ vbr6s fields)) := by
    unfold unabbrevBits countBits
    rw [if_pos hl]
    rfl
  obtain ⟨i, hi1, hi2⟩ := idBits_narrow hk hw 3 (by decide)
  obtain ⟨w, h1, h2, h3⟩ := h k (pos + (i ++ (encVbr 6 code ++ (encVbr 6 (BitVec.ofNat 64 fields.length) ++
    vbr6s fields))).length) hk h0 (fun _ => by rw [hkb]; simp) hd hi
  refine ⟨_, by simp only [write, hi1, hc, hu, Option.bind_eq_bind, Option.bind_some, h1]; rfl, ?_, ?_⟩
  rotate_left
  · exact h3
  have e1 := enc6_length code
  have e2 := enc6_length (BitVec.ofNat 64 fields.length)
  have e3 := vbr6s_length fields
  simp only [List.length_append]
  omega

theorem Fits.block {width inner : U64} (hw : Narrow width) (hin : Narrow inner) {top : Bool} {B B' : Nat} {id : U64} (h0 : id ≠ 0)
    {body rest : Items} (hbody : Fits inner false B body) (hrest : Fits width top B' rest) (hB : B ≤ 2 ^ 36) :
    Fits width top (200 + B + B') (.block id inner body rest) := by
  intro k pos hk hk0 hb hd hi
  obtain ⟨i, hi1, hi2⟩ := idBits_narrow hk hw 1 (by decide)
  generalize hhead : i ++ (encVbr 8 id ++ encVbr 4 inner) ++ pad32 (pos + (i ++ (encVbr 8 id ++ encVbr 4 inner)).length) = head
  have hhl : head.length ≤ 118 := by
    rw [← hhead]
    have e1 := enc8_length id
    have e2 : (encVbr 4 inner).length = 4 := by
      rcases hin with rfl | rfl <;> decide
    have e3 := pad32_length (pos + (i ++ (encVbr 8 id ++ encVbr 4 inner)).length)
    simp only [List.length_append] at e3 ⊢
    omega
  obtain ⟨w, h1, h2, h3, h4⟩ := hbody (k.enter id inner) (pos + (head.length + 32)) rfl (fun h => h0 (Option.some.inj h))
    (fun _ => by simp [Ctx.enter]) (by simp [Ctx.enter, hi]) (by simp [Ctx.enter, hi])
  obtain ⟨e, he1, he2⟩ := idBits_narrow h3 hin 0 (by decide)
  generalize htail : e ++ pad32 (pos + (head.length + 32) + (w.bits.length + e.length)) = tail
  have htl : tail.length ≤ 34 := by
    rw [← htail]
    have e3 := pad32_length (pos + (head.length + 32) + (w.bits.length + e.length))
    simp only [List.length_append] at e3 ⊢
    omega
  generalize hwords : (w.bits.length + tail.length) / 32 = words
  obtain ⟨r, g1, g2, g3⟩ := hrest k (pos + (head ++ (bitsOfNat 32 words ++ (w.bits ++ tail))).length) hk hk0 hb hd hi
  refine ⟨_, by
    simp only [write, hi1, Option.bind_eq_bind, Option.bind_some]
    rw [hhead, h1]
    simp only [Option.bind_some]
    rw [he1]
    simp only [Option.bind_some]
    rw [htail, hwords, if_pos (by omega), h4, ← hi, g1]
    rfl, ?_, ?_⟩
  rotate_left
  · exact g3
  simp only [List.length_append, bitsOfNat_length]
  omega

/-! ## Literals -/

/-- Records with the same code and fields, under the first abbreviation of the block. -/
def repeats (code : U64) (fields : List U64) : Nat → Items
  | 0 => .nil
  | m + 1 => .abbrev 4 code fields (repeats code fields m)

/-- An abbreviation made of literals, and `m` records that use it. -/
def literals (code : U64) (fields : List U64) (m : Nat) : Items :=
  .define { scalars := (code :: fields).map .lit, tail := .nothing } (repeats code fields m)

theorem valsBits_literals (pos : Nat) (l : List U64) : valsBits .nothing pos (l.map .lit) l = some [] := by
  induction l generalizing pos with
  | nil => rfl
  | cons v l ih => simp [valsBits, Scalar.valBits, ih]

theorem scalarsDef_length (l : List U64) : (scalarsDefBits (l.map .lit)).length ≤ 81 * l.length := by
  induction l with
  | nil => simp [scalarsDefBits]
  | cons v l ih =>
    have := enc8_length v
    simp only [List.map_cons, scalarsDefBits, Scalar.defBits, List.length_append, List.length_cons, List.length_nil]
    omega

theorem write_repeats (code : U64) (fields : List U64) {k : Ctx} (hw : k.width = 3) (h0 : k.block ≠ some 0) (hb : k.block ≠ none)
    (hd : k.defs = [{ scalars := (code :: fields).map .lit, tail := .nothing }]) (m : Nat) (pos : Nat) :
    ∃ w, write k pos (repeats code fields m) = some w ∧ w.bits.length = 3 * m ∧ w.after = k := by
  induction m generalizing pos with
  | zero => exact ⟨_, rfl, rfl, rfl⟩
  | succ m ih =>
    obtain ⟨w, h1, h2, h3⟩ := ih (pos + 3)
    have hi : idBits k 4 = some (bitsOfNat 3 4) := by
      unfold idBits
      rw [hw]
      exact if_pos ⟨by decide, by decide, by decide⟩
    have hlook : k.lookup 4 = some { scalars := (code :: fields).map .lit, tail := .nothing } := by
      unfold Ctx.lookup
      cases hkb : k.block with
      | none => exact absurd hkb hb
      | some b =>
        have : b ≠ 0 := fun h => h0 (by rw [hkb, h])
        simp only [this, false_or]
        rw [if_neg (by decide), hd]
        rfl
    refine ⟨_, by
      simp only [repeats, write, hi, hlook, Option.bind_eq_bind, Option.bind_some, Def.valBits, valsBits_literals, List.append_nil,
        bitsOfNat_length, h1]
      rfl, ?_, ?_⟩
    rotate_left
    · exact h3
    simp only [List.length_append, bitsOfNat_length, h2]
    omega

theorem Fits.literals (code : U64) (fields : List U64) (m : Nat) (hl : fields.length < 2 ^ 60) :
    Fits 3 false (200 + 81 * fields.length + 3 * m) (literals code fields m) := by
  intro k pos hk h0 hb hd hi
  obtain ⟨b, hkb⟩ : ∃ b, k.block = some b := by
    cases hbk : k.block with
    | none => exact absurd hbk (hb rfl)
    | some b => exact ⟨b, rfl⟩
  have hid : idBits k 2 = some (bitsOfNat 3 2) := by
    unfold idBits
    rw [hk]
    exact if_pos ⟨by decide, by decide, by decide⟩
  let d : Def := { scalars := (code :: fields).map .lit, tail := .nothing }
  have hv : d.Valid := by
    simp only [d, Def.Valid, Def.numOps, Tail.numOps, List.length_map, List.length_cons]
    omega
  have hdef : k.define d = some { k with defs := [d] } := by
    unfold Ctx.define
    rw [hkb]
    have : b ≠ 0 := fun h => h0 (by rw [hkb, h])
    simp only [this, if_false, hd, List.nil_append]
  obtain ⟨w, h1, h2, h3⟩ := write_repeats code fields (k := { k with defs := [d] }) hk h0 (by simp [hkb]) rfl m
    (pos + (bitsOfNat 3 2 ++ d.bits).length)
  refine ⟨_, by
    simp only [Verif.literals, write, hid, Option.bind_eq_bind, Option.bind_some]
    rw [if_pos hv, hdef]
    simp only [Option.bind_some]
    rw [h1]
    rfl, ?_, ?_⟩
  rotate_left
  · rw [h3]; exact ⟨hk, hi⟩
  have e1 : (encVbr 5 (BitVec.ofNat 64 d.numOps)).length ≤ 85 := by
    obtain ⟨n, h1, h2⟩ := encVbr_length 5 (by omega) (BitVec.ofNat 64 d.numOps)
    omega
  have e2 := scalarsDef_length (code :: fields)
  rw [List.length_cons] at e2
  simp only [List.length_append, bitsOfNat_length, Def.bits, d, Tail.defBits, List.length_nil, h2] at e1 ⊢
  omega

theorem Fits.bytes (magic : U32) {B : Nat} {its : Items} (h : Fits 2 true B its) :
    ∃ bytes es, streamBytes magic its = some (bytes, es) ∧ bytes.length ≤ 4 + B / 8 := by
  obtain ⟨w, h1, h2, -⟩ := h Ctx.start 32 rfl (by decide) (fun h => by cases h) rfl rfl
  refine ⟨_, _, by simp only [streamBytes, writeStream, h1, Option.bind_eq_bind, Option.bind_some]; rfl, ?_⟩
  rw [pack_length]
  simp only [List.length_append, bitsOfNat_length]
  omega

/-! ## C54 -/

def repeated (code : U64) (fields : List U64) (m : Nat) : Tree :=
  match m with
  | 0 => .nil
  | m + 1 => .record code fields (repeated code fields m)

theorem repeats_tree (code : U64) (fields : List U64) (m : Nat) :
    (repeats code fields m).tree false = repeated code fields m := by
  induction m with
  | zero => rfl
  | succ m ih => simp [repeats, Items.tree, repeated, ih]

theorem literals_tree (code : U64) (fields : List U64) (m : Nat) :
    (literals code fields m).tree false = repeated code fields m := repeats_tree code fields m

end Verif
