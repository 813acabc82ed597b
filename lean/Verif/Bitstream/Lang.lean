import Verif.Bitstream.Grid
import Verif.Bitstream.AbbrevReads
import Verif.Bitstream.Effects

/-!
Actions on a cursor that accept exactly a language.
-/

set_option linter.unusedSimpArgs false

namespace Verif
open Spec Cursor

variable {gr : Grid} {ε ε' α β : Type}

/-- Bits at a position, and the value they stand for. -/
abbrev Lang (α : Type) := Nat → List Bool → α → Prop

/-- The cursor after reading `b`. -/
structure Moved (gr : Grid) (c c' : Cursor) (b tail : List Bool) : Prop where
  on : gr.on c'
  buf : SameBuf c c'
  rest : c'.rest = tail
  tell : gr.pos c' = gr.pos c + b.length

/-- On the cursors of the grid the action succeeds exactly on the language. -/
structure Exact (gr : Grid) (m : StM Cursor ε α) (F : Lang α) : Prop where
  sound : ∀ {c v c'}, gr.on c → m c = (.ok v, c') → ∃ b, F (gr.pos c) b v ∧ c.rest = b ++ c'.rest ∧ Moved gr c c' b c'.rest
  complete : ∀ {c tail b v}, gr.on c → F (gr.pos c) b v → c.rest = b ++ tail → ∃ c', m c = (.ok v, c') ∧ Moved gr c c' b tail

def Lang.pure (a : α) : Lang α := fun _ b v => b = [] ∧ v = a
def Lang.bind (F : Lang α) (G : α → Lang β) : Lang β := fun pos b v =>
  ∃ b₁ x b₂, b = b₁ ++ b₂ ∧ F pos b₁ x ∧ G x (pos + b₁.length) b₂ v
def Lang.none : Lang α := fun _ _ _ => False

theorem Exact.congr {m : StM Cursor ε α} {F G : Lang α} (h : Exact gr m F) (he : ∀ pos b v, F pos b v ↔ G pos b v) : Exact gr m G := by
  have : F = G := by
    funext pos b v
    exact propext (he pos b v)
  rwa [← this]

theorem exact_pure (a : α) : Exact gr (Pure.pure a : StM Cursor ε α) (Lang.pure a) := by
  constructor
  · intro c v c' hw h
    cases h
    exact ⟨[], ⟨rfl, rfl⟩, rfl, hw, .rfl', rfl, rfl⟩
  · rintro c tail b v hw ⟨rfl, rfl⟩ hr
    exact ⟨c, rfl, hw, .rfl', hr, rfl⟩

theorem exact_throw (e : ε) : Exact gr (StM.throw e : StM Cursor ε α) Lang.none :=
  ⟨fun _ h => (throw_inv h).elim, fun _ h => h.elim⟩

theorem exact_panic (s : PanicSite) : Exact gr (StM.panic s : StM Cursor ε α) Lang.none :=
  ⟨fun _ h => (panic_inv h).elim, fun _ h => h.elim⟩

theorem Exact.bind {m : StM Cursor ε α} {f : α → StM Cursor ε β} {F : Lang α} {G : α → Lang β} (h : Exact gr m F)
    (hf : ∀ x, Exact gr (f x) (G x)) : Exact gr (m >>= f) (F.bind G) := by
  constructor
  · intro c v c' hw e
    obtain ⟨x, c₁, e₁, e₂⟩ := bind_inv e
    obtain ⟨b₁, h₁, r₁, m₁⟩ := h.sound hw e₁
    obtain ⟨b₂, h₂, r₂, m₂⟩ := (hf x).sound m₁.on e₂
    refine ⟨b₁ ++ b₂, ⟨b₁, x, b₂, rfl, h₁, m₁.tell ▸ h₂⟩, ?_, m₂.on, m₁.buf.trans m₂.buf, rfl, ?_⟩
    · rw [r₁, r₂, List.append_assoc]
    · rw [m₂.tell, m₁.tell, List.length_append, Nat.add_assoc]
  · rintro c tail b v hw ⟨b₁, x, b₂, rfl, h₁, h₂⟩ hr
    rw [List.append_assoc] at hr
    obtain ⟨c₁, e₁, m₁⟩ := h.complete hw h₁ hr
    obtain ⟨c₂, e₂, m₂⟩ := (hf x).complete m₁.on (m₁.tell ▸ h₂) m₁.rest
    refine ⟨c₂, by rw [StM.bind_ok e₁, e₂], m₂.on, m₁.buf.trans m₂.buf, m₂.rest, ?_⟩
    rw [m₂.tell, m₁.tell, List.length_append, Nat.add_assoc]

theorem Exact.ite {p : Prop} [Decidable p] {m n : StM Cursor ε α} {F G : Lang α} (h : p → Exact gr m F) (h' : ¬ p → Exact gr n G) :
    Exact gr (if p then m else n) (fun pos b v => if p then F pos b v else G pos b v) := by
  by_cases hp : p
  · simpa only [hp, if_true] using h hp
  · simpa only [hp, if_false] using h' hp

theorem Exact.mapErr {m : StM Cursor ε α} {F : Lang α} (h : Exact gr m F) (f : ε → ε') : Exact gr (StM.mapErr f m) F := by
  constructor
  · intro c v c' hw e
    refine h.sound hw (c' := c') ?_
    simp only [StM.mapErr] at e
    cases hm : m c with
    | mk o c₁ =>
      rw [hm] at e
      cases o <;> simp_all [Out.mapErr]
  · intro c tail b v hw hF hr
    obtain ⟨c', e, hm⟩ := h.complete hw hF hr
    exact ⟨c', by simp [StM.mapErr, e, Out.mapErr], hm⟩

theorem Exact.cur {m : CurM α} {F : Lang α} (h : Exact gr m F) : Exact gr (Verif.cur m) F := h.mapErr _

/-- Adding a check. -/
theorem exact_withCapacity (n : U64) :
    Exact gr (withCapacity n : StM Cursor ε Unit) (fun _ b _ => b = [] ∧ n.toNat < 2 ^ 60) := by
  unfold withCapacity
  refine (Exact.ite (fun _ => exact_panic _) (fun _ => exact_pure ())).congr fun pos b v => ?_
  by_cases h : n.toNat * 8 > 2 ^ 63 - 1
  · simp only [h, if_true, Lang.none, false_iff, not_and]
    omega
  · simp only [h, if_false, Lang.pure]
    constructor
    · exact fun h => ⟨h.1, by omega⟩
    · exact fun h => ⟨h.1, trivial⟩

theorem exact_read (n : Nat) : Exact gr (Cursor.read n)
    (fun _ b v => 1 ≤ n ∧ n ≤ 63 ∧ v.toNat < 2 ^ n ∧ b = bitsOfNat n v.toNat) := by
  constructor
  · intro c v c' hw e
    rcases read_cases (gr.inv hw) n with ⟨-, hr⟩ | ⟨h1, h2, hn, v₁, c₁, hr, hs, hi, hv, hrest, ht, hm⟩ | ⟨-, -, -, hr⟩ |
      ⟨-, -, -, -, c₁, hr, -⟩ <;> rw [hr] at e <;> cases e
    have hl : (c.rest.take n).length = n := by simp; omega
    have hlt := natOfBits_lt (c.rest.take n)
    rw [hl, ← hv] at hlt
    refine ⟨c.rest.take n, ⟨h1, h2, hlt, ?_⟩, ?_, gr.read hw hr, hs, rfl, ?_⟩
    · exact natOfBits_inj (by simp [hl]) (by rw [natOfBits_bitsOfNat_of_lt hlt, hv])
    · rw [hrest, List.take_append_drop]
    · rw [hl, gr.add hw ht]
  · rintro c tail b v hw ⟨h1, h2, hv, rfl⟩ hr
    have hlen := congrArg List.length hr
    rw [List.length_append, bitsOfNat_length] at hlen
    rcases read_cases (gr.inv hw) n with ⟨h, -⟩ | ⟨-, -, -, v₁, c₁, e, hs, -, hv', hrest, ht, -⟩ | ⟨-, -, h, -⟩ | ⟨-, -, h, -⟩
    · omega
    · have : c.rest.take n = bitsOfNat n v.toNat := by
        rw [hr]
        exact List.take_left' (bitsOfNat_length _ _)
      rw [this, natOfBits_bitsOfNat_of_lt hv] at hv'
      cases BitVec.eq_of_toNat_eq hv'
      refine ⟨c₁, e, gr.read hw e, hs, ?_, ?_⟩
      · rw [hrest, hr]
        exact List.drop_left' (bitsOfNat_length _ _)
      · rw [bitsOfNat_length, gr.add hw ht]
    · rw [h] at hlen
      simp at hlen
      omega
    · omega

theorem exact_readAs (ty : IntTy) (n : Nat) : Exact gr (Cursor.readAs ty n)
    (fun _ b v => 1 ≤ n ∧ n ≤ 63 ∧ v.toNat < 2 ^ n ∧ v.toNat ≤ ty.max ∧ b = bitsOfNat n v.toNat) := by
  constructor
  · intro c v c' hw e
    have : Cursor.read n c = (.ok v, c') ∧ v.toNat ≤ ty.max := by
      unfold Cursor.readAs at e
      cases hr : Cursor.read n c with
      | mk o c₁ =>
        rw [hr] at e
        cases o with
        | ok v₁ =>
          by_cases h : v₁.toNat ≤ ty.max
          · simp only [h, if_true] at e
            cases e
            exact ⟨rfl, h⟩
          · simp only [h, if_false] at e
            cases e
        | err => cases e
        | panic => cases e
        | diverge => cases e
    obtain ⟨b, ⟨h1, h2, h3, h4⟩, h5⟩ := (exact_read n).sound hw this.1
    exact ⟨b, ⟨h1, h2, h3, this.2, h4⟩, h5⟩
  · rintro c tail b v hw ⟨h1, h2, hv, hm, rfl⟩ hr
    obtain ⟨c', e, m⟩ := (exact_read n).complete hw ⟨h1, h2, hv, rfl⟩ hr
    exact ⟨c', by simp only [Cursor.readAs, e, hm, if_true], m⟩

theorem exact_align : Exact gr (align) (fun pos b _ => IsPad gr.pad pos b) := by
  constructor
  · intro c v c' hw e
    have : c' = c.align32 := by
      simp only [align, StM.modify] at e
      exact (Prod.mk.inj e).2.symm
    subst this
    obtain ⟨hw', ht⟩ := gr.align hw
    obtain ⟨hsb, -⟩ := align32_spec (gr.inv hw)
    have hrl := rest_length (gr.inv hw)
    have hle := tellBit_le (gr.inv hw)
    have hle' := tellBit_le (gr.inv hw')
    rw [hsb.2] at hle'
    have hlen : (c.rest.take (gr.pad (gr.pos c))).length = gr.pad (gr.pos c) := by
      rw [List.length_take]; omega
    refine ⟨c.rest.take (gr.pad (gr.pos c)), hlen, ?_, hw', hsb, rfl, ?_⟩
    · have : c.align32.rest = c.rest.drop (gr.pad (gr.pos c)) := by
        simp only [Cursor.rest, hsb.bits, List.drop_drop]
        rw [ht]
      rw [this, List.take_append_drop]
    · rw [hlen, gr.add hw ht]
  · rintro c tail b v hw hp hr
    unfold IsPad at hp
    obtain ⟨hw', ht⟩ := gr.align hw
    obtain ⟨hsb, -⟩ := align32_spec (gr.inv hw)
    rw [← hp] at ht
    refine ⟨c.align32, rfl, hw', hsb, ?_, gr.add hw ht⟩
    have : c.align32.rest = c.rest.drop b.length := by
      simp only [Cursor.rest, hsb.bits, List.drop_drop]
      rw [ht]
    rw [this, hr, List.drop_left' rfl]

/-! ## VBR -/

theorem vbrAccum_eq (pf : Profile) {w : Nat} (xs : List Nat) (hne : xs ≠ []) (r : U64) (shift : Nat) :
    vbrAccum pf w xs r shift =
      if pf = .debug ∧ 64 ≤ shift + (xs.length - 1) * (w - 1) then none else some (r ||| chunksOr w shift xs) := by
  induction xs generalizing r shift with
  | nil => exact absurd rfl hne
  | cons x xs ih =>
    simp only [vbrAccum, chunksOr]
    have hs : shl64 pf (BitVec.ofNat 64 x) shift =
        if pf = .debug ∧ 64 ≤ shift then none else some (BitVec.ofNat 64 x <<< (shift % 64)) := by
      unfold shl64
      by_cases h : shift < 64
      · have : ¬ (pf = .debug ∧ 64 ≤ shift) := by omega
        rw [if_pos h, if_neg this, Nat.mod_eq_of_lt h]
      · rw [if_neg h]
        cases pf with
        | debug => rw [if_pos ⟨rfl, by omega⟩]
        | release => rw [if_neg (by simp)]
    rw [hs]
    cases xs with
    | nil =>
      by_cases h : pf = .debug ∧ 64 ≤ shift
      · simp [h]
      · have h' : ¬ (pf = .debug ∧ 64 ≤ shift + ([x].length - 1) * (w - 1)) := by simpa using h
        rw [if_neg h, if_neg h']
        simp [vbrAccum, chunksOr]
    | cons y ys =>
      have hl : shift + ((x :: y :: ys).length - 1) * (w - 1) = shift + (w - 1) + ((y :: ys).length - 1) * (w - 1) := by
        simp only [List.length_cons, Nat.add_sub_cancel, Nat.add_mul]
        omega
      rw [hl]
      by_cases h : pf = .debug ∧ 64 ≤ shift
      · have h' : pf = .debug ∧ 64 ≤ shift + (w - 1) + ((y :: ys).length - 1) * (w - 1) := ⟨h.1, by omega⟩
        rw [if_pos h, if_pos h']
      · rw [if_neg h]
        simp only
        rw [ih (by simp), BitVec.or_assoc]

/-- What `read_vbr` makes of chunks is what the grammar says. -/
theorem vbrAccum_isVbr (pf : Profile) {w : Nat} (hw : w ≤ 65) {xs : List Nat} (hne : xs ≠ []) (hx : ∀ x ∈ xs, x < 2 ^ (w - 1))
    (v : U64) : vbrAccum pf w xs 0 0 = some v ↔
      (if (xs.length - 1) * (w - 1) < 64 then v = BitVec.ofNat 64 (chunksValue w xs)
       else pf = .release ∧ v = chunksOr w 0 xs) := by
  by_cases h : (xs.length - 1) * (w - 1) < 64
  · rw [if_pos h]
    obtain ⟨u, hu, hv⟩ := vbrAccum_value pf xs 0 0 hx (by simp) (.inr (by omega)) hw
    have : u = BitVec.ofNat 64 (chunksValue w xs) := by
      apply BitVec.eq_of_toNat_eq
      rw [hv]
      simp
    rw [hu, ← this]
    simp [eq_comm]
  · rw [if_neg h, vbrAccum_eq pf xs hne]
    cases pf with
    | debug =>
      have h' : Profile.debug = .debug ∧ 64 ≤ 0 + (xs.length - 1) * (w - 1) := ⟨rfl, by omega⟩
      rw [if_pos h']
      simp
    | release =>
      rw [if_neg (by simp)]
      simp [eq_comm]

theorem vbrLoop_sound (pf : Profile) {w : Nat} (h : 2 ≤ w) (h' : w ≤ 32) (fuel : Nat) (r : U64) (shift : Nat) {c : Cursor}
    (hi : gr.on c) {v : U64} {c' : Cursor} (e : readVbrLoop pf w fuel r shift c = (.ok v, c')) :
    ∃ xs : List Nat, xs ≠ [] ∧ (∀ x ∈ xs, x < 2 ^ (w - 1)) ∧ vbrAccum pf w xs r shift = some v ∧
      c.rest = rawVbr w xs ++ c'.rest ∧ Moved gr c c' (rawVbr w xs) c'.rest := by
  induction fuel generalizing r shift c with
  | zero => simp [readVbrLoop] at e
  | succ fuel ih =>
    have hpow : (2:Nat) ^ w = 2 ^ (w - 1) * 2 := by rw [← Nat.pow_succ]; congr 1; omega
    have hp := Nat.two_pow_pos (w - 1)
    cases hr : Cursor.read w c with
    | mk o c₁ =>
      cases o with
      | err => simp [readVbrLoop, hr] at e
      | panic => simp [readVbrLoop, hr] at e
      | diverge => simp [readVbrLoop, hr] at e
      | ok u =>
        obtain ⟨b, ⟨-, -, hu, rfl⟩, hrest, hm⟩ := (exact_read w).sound hi hr
        have hdata : (u &&& ~~~(1#64 <<< (w - 1))) = BitVec.ofNat 64 (u.toNat % 2 ^ (w - 1)) := by
          apply BitVec.eq_of_toNat_eq
          rw [chunk_data h h' hu, BitVec.toNat_ofNat]
          exact (Nat.mod_eq_of_lt (Nat.lt_of_le_of_lt (Nat.mod_le _ _) u.isLt)).symm
        have hcont := chunk_cont h h' hu
        simp only [readVbrLoop, hr, hdata] at e
        cases hs : shl64 pf (BitVec.ofNat 64 (u.toNat % 2 ^ (w - 1))) shift with
        | none => simp [hs] at e
        | some y =>
          simp only [hs] at e
          by_cases hc : (u &&& (1#64 <<< (w - 1))) ≠ 0
          · rw [if_pos hc] at e
            obtain ⟨xs, hne, hx, hv, hrest', hm'⟩ := ih _ _ hm.on e
            have hge := hcont.1 hc
            have hraw : rawVbr w (u.toNat % 2 ^ (w - 1) :: xs) = bitsOfNat w u.toNat ++ rawVbr w xs := by
              rw [rawVbr_cons hne]
              congr 2
              have : u.toNat % 2 ^ (w - 1) = u.toNat - 2 ^ (w - 1) := by
                rw [Nat.mod_eq_sub_mod hge, Nat.mod_eq_of_lt (by omega)]
              omega
            refine ⟨u.toNat % 2 ^ (w - 1) :: xs, by simp, ?_, ?_, ?_, ?_⟩
            · intro x hxm
              rcases List.mem_cons.1 hxm with rfl | hxm
              · exact Nat.mod_lt _ hp
              · exact hx x hxm
            · simp only [vbrAccum, hs]
              exact hv
            · rw [hraw, hrest, hrest', List.append_assoc]
            · rw [hraw]
              refine ⟨hm'.on, hm.buf.trans hm'.buf, rfl, ?_⟩
              rw [hm'.tell, hm.tell, List.length_append, Nat.add_assoc]
          · rw [if_neg hc] at e
            have hlt : u.toNat < 2 ^ (w - 1) := by
              by_cases hge : 2 ^ (w - 1) ≤ u.toNat
              · exact absurd (hcont.2 hge) hc
              · omega
            cases e
            refine ⟨[u.toNat], by simp, by simpa using hlt, ?_, ?_, ?_⟩
            · rw [Nat.mod_eq_of_lt hlt] at hs
              simp only [vbrAccum, hs]
            · simpa [rawVbr] using hrest
            · simpa [rawVbr] using hm

theorem exact_readVbr (pf : Profile) (w : Nat) : Exact gr (Cursor.readVbr pf w)
    (fun _ b v => 2 ≤ w ∧ w ≤ 32 ∧ IsVbr pf w v b) := by
  constructor
  · intro c v c' hw e
    unfold Cursor.readVbr at e
    by_cases h : 2 ≤ w ∧ w ≤ 32
    · rw [if_neg (by simp [h])] at e
      obtain ⟨xs, hne, hx, hv, hr, hm⟩ := vbrLoop_sound pf h.1 h.2 _ _ _ hw e
      exact ⟨rawVbr w xs, ⟨h.1, h.2, xs, hne, hx, rfl, (vbrAccum_isVbr pf (by omega) hne hx v).1 hv⟩, hr, hm⟩
    · rw [if_pos h] at e
      cases e
  · rintro c tail b v hw ⟨h1, h2, xs, hne, hx, rfl, hv⟩ hr
    have hv' := (vbrAccum_isVbr pf (by omega) hne hx v).2 hv
    have hlen := rawVbr_length w xs
    have hle := congrArg List.length hr
    rw [rest_length (gr.inv hw), List.length_append, hlen] at hle
    have hxs : xs.length ≤ w * xs.length := Nat.le_mul_of_pos_left _ (by omega)
    obtain ⟨c', e, hs, -, hrest, ht, -⟩ := (readVbrLoop_chunks pf h1 h2 xs hne hx (c.bitLen + 1)
      (by simp only [Cursor.bitLen]; omega) 0 0 (gr.inv hw) hr).1 v hv'
    obtain ⟨-, -, -, -, -, hon, -⟩ := vbrLoop_sound pf h1 h2 _ _ _ hw e
    refine ⟨c', ?_, hon, hs, hrest, by rw [hlen]; exact gr.add hw ht⟩
    unfold Cursor.readVbr
    rw [if_neg (by simp [h1, h2])]
    exact e

end Verif
