import Verif.Cursor.Vbr

/-!
Facts that hold of every cursor action on every input: it keeps the invariant, moves forward only,
terminates, and panics only at listed sites.
-/

set_option linter.unusedSimpArgs false

namespace Verif.Cursor
open Spec

variable {ε ε' α β : Type} {A : PanicSite → Prop}

/-- `r` is an acceptable result of an action started in `c` that, if successful, consumes at least
`k` bits. -/
structure Step (A : PanicSite → Prop) (k : Nat) (c : Cursor) (r : Out ε α × Cursor) : Prop where
  same : SameBuf c r.2
  inv : Inv r.2
  mono : c.tellBit ≤ r.2.tellBit
  word : c.byteLen % 4 = 0 → c.bytePos % 4 = 0 → r.2.bytePos % 4 = 0
  nodiv : r.1 ≠ .diverge
  panics : ∀ p, r.1 = .panic p → A p
  eats : ∀ a, r.1 = .ok a → c.tellBit + k ≤ r.2.tellBit

/-- Acceptable action. -/
def Good (A : PanicSite → Prop) (k : Nat) (m : StM Cursor ε α) : Prop := ∀ c, Inv c → Step A k c (m c)

theorem Good.pure (a : α) : Good A 0 (Pure.pure a : StM Cursor ε α) := by
  intro c h
  exact ⟨.rfl', h, Nat.le_refl _, fun _ h => h, by simp [StM.pure_apply], by simp [StM.pure_apply],
    by simp [StM.pure_apply]⟩

theorem Good.throw (e : ε) (k : Nat) : Good A k (StM.throw e : StM Cursor ε α) := by
  intro c h
  exact ⟨.rfl', h, Nat.le_refl _, fun _ h => h, by simp [StM.throw_apply], by simp [StM.throw_apply],
    by simp [StM.throw_apply]⟩

theorem Good.panic {p : PanicSite} (hp : A p) (k : Nat) : Good A k (StM.panic p : StM Cursor ε α) := by
  intro c h
  refine ⟨.rfl', h, Nat.le_refl _, fun _ h => h, by simp [StM.panic_apply], ?_, by simp [StM.panic_apply]⟩
  intro q hq; simp [StM.panic_apply] at hq; exact hq ▸ hp

theorem Good.lift {x : Out ε α} (h1 : x ≠ .diverge) (h2 : ∀ p, x = .panic p → A p) :
    Good A 0 (StM.lift x : StM Cursor ε α) := by
  intro c h
  exact ⟨.rfl', h, Nat.le_refl _, fun _ h => h, h1, h2, fun _ _ => Nat.le_refl _⟩

theorem Good.weaken {k j : Nat} {m : StM Cursor ε α} (h : Good A k m) (hj : j ≤ k) : Good A j m := by
  intro c hc
  obtain ⟨h1, h2, h3, h4, h5, h6, h7⟩ := h c hc
  exact ⟨h1, h2, h3, h4, h5, h6, fun a ha => by have := h7 a ha; omega⟩

theorem Good.bind {k j : Nat} {m : StM Cursor ε α} {f : α → StM Cursor ε β} (hm : Good A k m)
    (hf : ∀ a, Good A j (f a)) : Good A (k + j) (m >>= f) := by
  intro c hc
  obtain ⟨h1, h2, h3, h4, h5, h6, h7⟩ := hm c hc
  match hr : m c with
  | (.ok a, c') =>
    rw [StM.bind_ok hr]
    rw [hr] at h1 h2 h3 h4 h7
    obtain ⟨g1, g2, g3, g4, g5, g6, g7⟩ := hf a c' h2
    have h7' := h7 a rfl
    simp only at h3 h7'
    refine ⟨h1.trans g1, g2, by omega, ?_, g5, g6, ?_⟩
    · intro ha hb; exact g4 (by rw [h1.2]; exact ha) (h4 ha hb)
    · intro b hb; have := g7 b hb; omega
  | (.err e, c') =>
    rw [StM.bind_err hr]; rw [hr] at h1 h2 h3 h4
    exact ⟨h1, h2, h3, h4, by simp, by simp, by simp⟩
  | (.panic p, c') =>
    rw [StM.bind_panic hr]; rw [hr] at h1 h2 h3 h4 h6
    exact ⟨h1, h2, h3, h4, by simp, by simpa using h6, by simp⟩
  | (.diverge, c') => rw [hr] at h5; exact absurd rfl h5

theorem Good.mapErr {k : Nat} {m : StM Cursor ε α} (f : ε → ε') (h : Good A k m) :
    Good A k (StM.mapErr f m) := by
  intro c hc
  obtain ⟨h1, h2, h3, h4, h5, h6, h7⟩ := h c hc
  simp only [StM.mapErr]
  refine ⟨h1, h2, h3, h4, ?_, ?_, ?_⟩
  · cases hr : (m c).1 <;> simp_all
  · intro p hp; cases hr : (m c).1 <;> simp_all
  · intro a ha
    cases hr : (m c).1 <;> rw [hr] at ha <;> simp at ha
    exact h7 _ hr

theorem good_read (n : Nat) (A : PanicSite → Prop) : Good A n (read n) := by
  intro c h
  rcases read_cases h n with ⟨-, hr⟩ | ⟨-, -, -, v, c', hr, hsb, hi, -, -, ht, hm⟩ | ⟨-, -, -, hr⟩ |
    ⟨-, -, -, -, c', hr, hsb, hi, ht, -, -, hm⟩
  · rw [hr]; exact ⟨.rfl', h, Nat.le_refl _, fun _ h => h, by simp, by simp, by simp⟩
  · rw [hr]; exact ⟨hsb, hi, by simp only; omega, hm, by simp, by simp, by intro _ _; simp only; omega⟩
  · rw [hr]; exact ⟨.rfl', h, Nat.le_refl _, fun _ h => h, by simp, by simp, by simp⟩
  · rw [hr]; exact ⟨hsb, hi, by simp only; omega, hm, by simp, by simp, by simp⟩

theorem good_readAs (t : IntTy) (n : Nat) (A : PanicSite → Prop) : Good A n (readAs t n) := by
  intro c h
  obtain ⟨h1, h2, h3, h4, h5, h6, h7⟩ := good_read n A c h
  simp only [readAs]
  match hr : read n c with
  | (.ok v, c') =>
    rw [hr] at h1 h2 h3 h4 h7
    simp only
    split
    · exact ⟨h1, h2, h3, h4, by simp, by simp, fun _ _ => h7 v rfl⟩
    · exact ⟨h1, h2, h3, h4, by simp, by simp, by simp⟩
  | (.err e, c') => rw [hr] at h1 h2 h3 h4; exact ⟨h1, h2, h3, h4, by simp, by simp, by simp⟩
  | (.panic p, c') =>
    rw [hr] at h1 h2 h3 h4 h6; exact ⟨h1, h2, h3, h4, by simp, by simpa using h6, by simp⟩
  | (.diverge, c') => rw [hr] at h5; exact absurd rfl h5

theorem good_readExact (t : IntTy) (A : PanicSite → Prop) : Good A t.bitsize (readExact t) :=
  good_readAs _ _ A

theorem good_align32 (A : PanicSite → Prop) :
    Good A 0 (StM.modify align32 : StM Cursor ε Unit) := by
  intro c h
  obtain ⟨hsb, hi, hm, -, hbp, -⟩ := align32_spec h
  refine ⟨hsb, hi, hm, ?_, by simp [StM.modify], by simp [StM.modify], fun _ _ => hm⟩
  intro _ h4; show c.align32.bytePos % 4 = 0; rw [hbp]; exact h4

theorem good_readVbrLoop (pf : Profile) (w : Nat) (hw : 2 ≤ w) (fuel : Nat) (r : U64) (shift : Nat) {c : Cursor}
    (h : Inv c) (hf : c.rest.length < fuel) (hA : pf = .debug → A .vbrShift) :
    Step A w c (readVbrLoop pf w fuel r shift c) := by
  induction fuel generalizing r shift c with
  | zero => omega
  | succ fuel ih =>
    simp only [readVbrLoop]
    rcases read_cases h w with ⟨-, hr⟩ | ⟨-, -, hlen, v, c', hr, hsb, hi, -, hrest, ht, hm⟩ | ⟨-, -, -, hr⟩ |
      ⟨-, -, -, -, c', hr, hsb, hi, ht, -, -, hm⟩
    · rw [hr]; exact ⟨.rfl', h, Nat.le_refl _, fun _ h => h, by simp, by simp, by simp⟩
    · rw [hr]
      simp only
      split
      · next hshl =>
        refine ⟨hsb, hi, by simp only; omega, hm, by simp, ?_, by simp⟩
        intro p hp; simp at hp; subst hp
        apply hA
        simp only [shl64] at hshl
        split at hshl
        · simp at hshl
        · cases pf with
          | debug => rfl
          | release => simp at hshl
      · split
        · have hl : c'.rest.length < fuel := by rw [hrest, List.length_drop]; omega
          obtain ⟨g1, g2, g3, g4, g5, g6, g7⟩ := ih (r ||| ‹U64›) (shift + (w - 1)) hi hl
          refine ⟨hsb.trans g1, g2, by omega, ?_, g5, g6, ?_⟩
          · intro ha hb; exact g4 (by rw [hsb.2]; exact ha) (hm ha hb)
          · intro a ha; have := g7 a ha; omega
        · exact ⟨hsb, hi, by simp only; omega, hm, by simp, by simp, by intro _ _; simp only; omega⟩
    · rw [hr]; exact ⟨.rfl', h, Nat.le_refl _, fun _ h => h, by simp, by simp, by simp⟩
    · rw [hr]; exact ⟨hsb, hi, by simp only; omega, hm, by simp, by simp, by simp⟩

theorem good_readVbr (pf : Profile) (w : Nat) (hA : pf = .debug → A .vbrShift) :
    Good A w (readVbr pf w) := by
  intro c h
  simp only [readVbr]
  split
  · exact ⟨.rfl', h, Nat.le_refl _, fun _ h => h, by simp, by simp, by simp⟩
  · next hw =>
    simp only [Classical.not_not] at hw
    apply good_readVbrLoop _ _ hw.1 _ _ _ h _ hA
    rw [rest_length h]; simp only [bitLen]; omega

theorem toInt_ushiftRight_one (x : U64) : (x >>> 1).toInt = (x.toNat / 2 : Nat) := by
  have hx := x.isLt
  have hlt : (x >>> 1).toNat = x.toNat / 2 := by
    rw [BitVec.toNat_ushiftRight, Nat.shiftRight_eq_div_pow]
  rw [BitVec.toInt_eq_toNat_of_lt (by omega), hlt]

theorem good_readSvbr (pf : Profile) (w : Nat) (hA : pf = .debug → A .vbrShift) :
    Good A w (readSvbr pf w) := by
  intro c h
  obtain ⟨h1, h2, h3, h4, h5, h6, h7⟩ := good_readVbr pf w hA c h
  simp only [readSvbr]
  match hr : readVbr pf w c with
  | (.ok v, c') =>
    rw [hr] at h1 h2 h3 h4 h7
    simp only
    have : ¬ ((v >>> 1).toInt = -2^63) := by rw [toInt_ushiftRight_one]; omega
    rw [if_neg this]
    split <;> exact ⟨h1, h2, h3, h4, by simp, by simp, fun _ _ => h7 v rfl⟩
  | (.err e, c') => rw [hr] at h1 h2 h3 h4; exact ⟨h1, h2, h3, h4, by simp, by simp, by simp⟩
  | (.panic p, c') =>
    rw [hr] at h1 h2 h3 h4 h6; exact ⟨h1, h2, h3, h4, by simp, by simpa using h6, by simp⟩
  | (.diverge, c') => rw [hr] at h5; exact absurd rfl h5

end Verif.Cursor
