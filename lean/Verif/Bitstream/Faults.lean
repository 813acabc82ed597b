import Verif.Bitstream.FaultSpec
import Verif.Bitstream.Grammar

/-!
Actions on a cursor that fail exactly as specified.
-/

set_option linter.unusedSimpArgs false

namespace Verif
open Spec Cursor

variable {gr : Grid} {α β : Type}

/-- The outcome is this failure. -/
def Out.Failing (o : Out BErr α) : Failure → Prop
  | .error e => o = .err e
  | .panic s => o = .panic s

@[simp] theorem failing_ok {v : α} {f : Failure} : ¬ (Out.ok v : Out BErr α).Failing f := by cases f <;> simp [Out.Failing]
@[simp] theorem failing_div {f : Failure} : ¬ (Out.diverge : Out BErr α).Failing f := by cases f <;> simp [Out.Failing]
@[simp] theorem failing_err {e : BErr} {f : Failure} : (Out.err e : Out BErr α).Failing f ↔ f = .error e := by
  cases f <;> simp [Out.Failing, eq_comm]
@[simp] theorem failing_panic {s : PanicSite} {f : Failure} : (Out.panic s : Out BErr α).Failing f ↔ f = .panic s := by
  cases f <;> simp [Out.Failing, eq_comm]

/-- Failures at a position. -/
abbrev Flaw := Nat → List Bool → Failure → Prop

/-- On the cursors of the grid the action fails exactly so. -/
def Fails (gr : Grid) (m : BM α) (N : Flaw) : Prop := ∀ c, gr.on c → ∀ f, (m c).1.Failing f ↔ N (gr.pos c) c.rest f

theorem Fails.congr {m : BM α} {N N' : Flaw} (h : Fails gr m N) 
    (he : ∀ pos b f, gr.ends (pos + b.length) → (N pos b f ↔ N' pos b f)) :
    Fails gr m N' := fun c hw f => (h c hw f).trans (he _ _ _ (gr.ending hw))

theorem fails_pure (a : α) : Fails gr (Pure.pure a : BM α) (fun _ _ _ => False) := fun c _ f => by
  rw [StM.pure_apply]; simp

theorem fails_throw (e : BErr) : Fails gr (StM.throw e : BM α) (fun _ _ f => f = .error e) := fun c _ f => by
  simp [StM.throw]

theorem fails_panic (s : PanicSite) : Fails gr (StM.panic s : BM α) (fun _ _ f => f = .panic s) := fun c _ f => by
  simp [StM.panic]

theorem Fails.ite {p : Prop} [Decidable p] {m n : BM α} {N N' : Flaw} (h : p → Fails gr m N) (h' : ¬ p → Fails gr n N') :
    Fails gr (if p then m else n) (fun pos b f => p ∧ N pos b f ∨ ¬ p ∧ N' pos b f) := by
  intro c hw f
  by_cases hp : p
  · rw [if_pos hp, h hp c hw f]; simp [hp]
  · rw [if_neg hp, h' hp c hw f]; simp [hp]

/-- The first fails, or it succeeds and the second fails. -/
def Flaw.bind (F : Lang α) (N : Flaw) (M : α → Flaw) : Flaw := fun pos b f =>
  N pos b f ∨ ∃ b₁ x b₂, b = b₁ ++ b₂ ∧ F pos b₁ x ∧ M x (pos + b₁.length) b₂ f

theorem Fails.bind {m : BM α} {g : α → BM β} {F : Lang α} {N : Flaw} {M : α → Flaw} (h : Exact gr m F) (hn : Fails gr m N)
    (hg : ∀ x, Fails gr (g x) (M x)) : Fails gr (m >>= g) (Flaw.bind F N M) := by
  intro c hw f
  have key := hn c hw f
  unfold Flaw.bind
  cases hm : m c with
  | mk o c₁ =>
    rw [hm] at key
    have hno : (∀ v, o ≠ .ok v) → ¬ ∃ b₁ x b₂, c.rest = b₁ ++ b₂ ∧ F (gr.pos c) b₁ x ∧ M x (gr.pos c + b₁.length) b₂ f := by
      rintro hno ⟨b₁, x, b₂, hr, hF, -⟩
      obtain ⟨c', e, -⟩ := h.complete hw hF hr
      rw [hm] at e
      cases e
      exact hno x rfl
    cases o with
    | ok x =>
      rw [StM.bind_ok hm]
      obtain ⟨b₁, hF, hr, hmv⟩ := h.sound hw hm
      rw [hg x c₁ hmv.on f]
      constructor
      · intro hM
        exact .inr ⟨b₁, x, _, hr, hF, hmv.tell ▸ hM⟩
      · rintro (hN | ⟨b', y, b₂, hr', hF', hM⟩)
        · exact absurd (key.2 hN) failing_ok
        · obtain ⟨c', e, m'⟩ := h.complete hw hF' hr'
          rw [hm] at e
          cases e
          rw [m'.tell, m'.rest]
          exact hM
    | err e =>
      have : (m >>= g) c = (.err e, c₁) := StM.bind_err hm
      rw [this]
      have hno := hno (by simp)
      rw [or_iff_left hno, ← key]
      simp
    | panic s =>
      have : (m >>= g) c = (.panic s, c₁) := StM.bind_panic hm
      rw [this]
      have hno := hno (by simp)
      rw [or_iff_left hno, ← key]
      simp
    | diverge =>
      have : (m >>= g) c = (.diverge, c₁) := StM.bind_diverge hm
      rw [this]
      have hno := hno (by simp)
      rw [or_iff_left hno, ← key]
      simp

theorem Fails.map {m : BM α} {F : Lang α} {N : Flaw} (h : Exact gr m F) (hn : Fails gr m N) (g : α → β) :
    Fails gr (m >>= fun x => Pure.pure (g x)) N := by
  refine (Fails.bind h hn fun x => fails_pure (g x)).congr fun pos b f _ => ?_
  unfold Flaw.bind
  constructor
  · rintro (h | ⟨_, _, _, _, _, h⟩)
    · exact h
    · exact h.elim
  · exact .inl

/-! ## Numbers -/

theorem cur_fst {m : CurM α} {c : Cursor} : (cur m c).1 = (m c).1.mapErr .cursor := rfl

theorem fails_read (n : Nat) : Fails gr (cur (Cursor.read n)) (fun _ b f => NoFixed n b f) := by
  intro c hw f
  rw [cur_fst]
  rcases read_cases (gr.inv hw) n with ⟨hn, hr⟩ | ⟨h1, h2, hn, v₁, c₁, hr, -⟩ | ⟨h1, h2, hn, hr⟩ | ⟨h1, h2, hn, hne, c₁, hr, -⟩ <;>
    rw [hr] <;> simp only [Out.mapErr, failing_err, failing_ok, false_iff]
  · constructor
    · rintro rfl; exact .size (by omega)
    · intro h; cases h <;> first | rfl | omega
  · intro h
    cases h
    · omega
    · rename_i h0; rw [h0] at hn; simp at hn; omega
    · omega
  · constructor
    · rintro rfl; exact .missing h1 h2 hn
    · intro h
      cases h
      · omega
      · rfl
      · rename_i h0 _; exact absurd hn h0
  · constructor
    · rintro rfl; exact .cut h1 h2 hne hn
    · intro h
      cases h
      · omega
      · rename_i h0; exact absurd h0 hne
      · rfl

theorem fails_readAs {ty : IntTy} {n : Nat} (h : 2 ^ n ≤ ty.max + 1 ∨ ty.max + 1 = 2 ^ 64) :
    Fails gr (cur (Cursor.readAs ty n)) (fun _ b f => NoFixed n b f) := by
  intro c hw f
  rw [← fails_read n c hw f, cur_fst, cur_fst]
  unfold Cursor.readAs
  cases hr : Cursor.read n c with
  | mk o c₁ =>
    cases o with
    | ok v =>
      have hv : v.toNat ≤ ty.max := by
        obtain ⟨b, ⟨-, -, h3, -⟩, -⟩ := (exact_read n).sound hw hr
        have := v.isLt
        omega
      simp only [hv, if_true]
    | err => rfl
    | panic => rfl
    | diverge => rfl

theorem begun_cons (w x : Nat) (xs : List Nat) : begun w (x :: xs) = bitsOfNat w (2 ^ (w - 1) + x) ++ begun w xs := rfl

/-- `NoVbr` from a shift on. -/
def LoopFlaw (pf : Profile) (w shift : Nat) (b : List Bool) (f : Failure) : Prop :=
  (∃ (xs : List Nat) (tail : List Bool), (∀ x ∈ xs, x < 2 ^ (w - 1)) ∧
    (pf = .debug → xs ≠ [] → shift + (xs.length - 1) * (w - 1) < 64) ∧ b = begun w xs ++ tail ∧ NoFixed w tail f) ∨
  ∃ (xs : List Nat) (last tail : List Bool), (∀ x ∈ xs, x < 2 ^ (w - 1)) ∧ pf = .debug ∧
    (xs ≠ [] → shift + (xs.length - 1) * (w - 1) < 64) ∧ 64 ≤ shift + xs.length * (w - 1) ∧ last.length = w ∧
    b = begun w xs ++ (last ++ tail) ∧ f = .panic .vbrShift

theorem loopFlaw_step (pf : Profile) {w : Nat} (hw : 1 ≤ w) (shift : Nat) (b : List Bool) (f : Failure) :
    LoopFlaw pf w shift b f ↔ NoFixed w b f ∨ ∃ u tail, u < 2 ^ w ∧ b = bitsOfNat w u ++ tail ∧
      ((pf = .debug ∧ 64 ≤ shift) ∧ f = .panic .vbrShift ∨
       ¬ (pf = .debug ∧ 64 ≤ shift) ∧ 2 ^ (w - 1) ≤ u ∧ LoopFlaw pf w (shift + (w - 1)) tail f) := by
  have hpow : (2:Nat) ^ w = 2 ^ (w - 1) * 2 := by rw [← Nat.pow_succ]; congr 1; omega
  have hlen : ∀ {xs : List Nat}, xs ≠ [] → shift + (w - 1) + (xs.length - 1) * (w - 1) = shift + xs.length * (w - 1) := by
    intro xs hne
    cases xs with
    | nil => exact absurd rfl hne
    | cons x xs => simp only [List.length_cons, Nat.add_sub_cancel, Nat.add_mul]; omega
  constructor
  · rintro (⟨xs, tail, hx, hd, rfl, hN⟩ | ⟨xs, last, tail, hx, hd, hs, h64, hl, rfl, rfl⟩)
    · cases xs with
      | nil => exact .inl hN
      | cons x xs =>
        have hx0 := hx x (by simp)
        refine .inr ⟨2 ^ (w - 1) + x, begun w xs ++ tail, by omega, by simp [begun_cons], .inr ⟨?_, by omega, .inl ⟨xs, tail,
          fun y hy => hx y (by simp [hy]), ?_, rfl, hN⟩⟩⟩
        · rintro ⟨h1, h2⟩
          have := hd h1 (by simp)
          omega
        · intro h1 hne
          rw [hlen hne]
          simpa using hd h1 (by simp)
    · cases xs with
      | nil =>
        have := natOfBits_lt last
        rw [hl] at this
        refine .inr ⟨natOfBits last, tail, this, ?_, .inl ⟨⟨hd, by simpa using h64⟩, rfl⟩⟩
        show last ++ tail = _
        congr 1
        exact natOfBits_inj (by simp [hl]) (by rw [natOfBits_bitsOfNat_of_lt this])
      | cons x xs =>
        have hx0 := hx x (by simp)
        have hs' := hs (by simp)
        refine .inr ⟨2 ^ (w - 1) + x, begun w xs ++ (last ++ tail), by omega, by simp [begun_cons], .inr ⟨by omega, by omega,
          .inr ⟨xs, last, tail, fun y hy => hx y (by simp [hy]), hd, ?_, ?_, hl, rfl, rfl⟩⟩⟩
        · intro hne
          rw [hlen hne]
          simpa using hs'
        · have : shift + (x :: xs).length * (w - 1) = shift + (w - 1) + xs.length * (w - 1) := by
            simp only [List.length_cons, Nat.add_mul]; omega
          omega
  · rintro (hN | ⟨u, tail, hu, rfl, ⟨⟨hd, h64⟩, rfl⟩ | ⟨hsh, hu', hL⟩⟩)
    · exact .inl ⟨[], b, by simp, by simp, rfl, hN⟩
    · exact .inr ⟨[], bitsOfNat w u, tail, by simp, hd, by simp, by simpa using h64, by simp, rfl, rfl⟩
    · have hb : ∀ (xs : List Nat) (t : List Bool), bitsOfNat w u ++ (begun w xs ++ t) = begun w ((u - 2 ^ (w - 1)) :: xs) ++ t := by
        intro xs t
        rw [begun_cons, List.append_assoc, Nat.add_sub_cancel' hu']
      have hxs : ∀ {xs : List Nat}, (∀ x ∈ xs, x < 2 ^ (w - 1)) → ∀ x ∈ (u - 2 ^ (w - 1)) :: xs, x < 2 ^ (w - 1) := by
        intro xs hx x hm
        rcases List.mem_cons.1 hm with rfl | hm
        · omega
        · exact hx x hm
      rcases hL with ⟨xs, t, hx, hd, rfl, hN⟩ | ⟨xs, last, t, hx, hd, hs, h64, hl, rfl, rfl⟩
      · refine .inl ⟨_, t, hxs hx, ?_, hb xs t, hN⟩
        intro h1 _
        by_cases hne : xs = []
        · subst hne
          have : ¬ 64 ≤ shift := fun h => hsh ⟨h1, h⟩
          simp; omega
        · have := hd h1 hne
          rw [hlen hne] at this
          simpa using this
      · refine .inr ⟨_, last, t, hxs hx, hd, ?_, ?_, hl, hb xs _, rfl⟩
        · intro _
          by_cases hne : xs = []
          · subst hne
            have : ¬ 64 ≤ shift := fun h => hsh ⟨hd, h⟩
            simp; omega
          · have := hs hne
            rw [hlen hne] at this
            simpa using this
        · simp only [List.length_cons, Nat.add_mul]; omega

theorem fails_vbrLoop (pf : Profile) {w : Nat} (h : 2 ≤ w) (h' : w ≤ 32) (fuel : Nat) (r : U64) (shift : Nat) {c : Cursor}
    (hi : gr.on c) (hf : c.rest.length < fuel) (f : Failure) :
    (cur (readVbrLoop pf w fuel r shift) c).1.Failing f ↔ LoopFlaw pf w shift c.rest f := by
  induction fuel generalizing r shift c with
  | zero => omega
  | succ fuel ih =>
    rw [loopFlaw_step pf (by omega), ← show _ ↔ NoFixed w c.rest f from fails_read w c hi f, cur_fst, cur_fst]
    have hno : (∀ v c', Cursor.read w c ≠ (.ok v, c')) → ∀ u tail, u < 2 ^ w → c.rest ≠ bitsOfNat w u ++ tail := by
      intro hno u tail hu hr
      have h64 : (BitVec.ofNat 64 u).toNat = u := by
        rw [BitVec.toNat_ofNat]
        refine Nat.mod_eq_of_lt (Nat.lt_of_lt_of_le hu (Nat.pow_le_pow_right (by omega) (by omega)))
      obtain ⟨c', e, -⟩ := (exact_read w).complete (v := BitVec.ofNat 64 u) (b := bitsOfNat w u) hi
        ⟨by omega, by omega, by rw [h64]; exact hu, by rw [h64]⟩ hr
      exact hno _ _ e
    cases hr : Cursor.read w c with
    | mk o c₁ =>
      have hno' : (∀ v, o ≠ .ok v) → ¬ ∃ u tail, u < 2 ^ w ∧ c.rest = bitsOfNat w u ++ tail ∧
          ((pf = .debug ∧ 64 ≤ shift) ∧ f = .panic .vbrShift ∨
          ¬ (pf = .debug ∧ 64 ≤ shift) ∧ 2 ^ (w - 1) ≤ u ∧ LoopFlaw pf w (shift + (w - 1)) tail f) := by
        rintro ho ⟨u, tail, hu, hrest, -⟩
        exact hno (by rw [hr]; intro v c' e; cases e; exact ho v rfl) u tail hu hrest
      cases o with
      | err => rw [or_iff_left (hno' (by simp))]; simp only [readVbrLoop, hr, Out.mapErr]
      | panic => rw [or_iff_left (hno' (by simp))]; simp only [readVbrLoop, hr, Out.mapErr]
      | diverge => rw [or_iff_left (hno' (by simp))]; simp only [readVbrLoop, hr, Out.mapErr]
      | ok u =>
        obtain ⟨b, ⟨-, -, hu, rfl⟩, hrest, hm⟩ := (exact_read w).sound hi hr
        have huniq : ∀ {u' tail}, u' < 2 ^ w → c.rest = bitsOfNat w u' ++ tail → u' = u.toNat ∧ tail = c₁.rest := by
          intro u' tail hu' hr'
          rw [hrest] at hr'
          obtain ⟨e1, e2⟩ := List.append_inj hr' (by simp)
          have := congrArg natOfBits e1
          rw [natOfBits_bitsOfNat_of_lt hu, natOfBits_bitsOfNat_of_lt hu'] at this
          exact ⟨this.symm, e2.symm⟩
        have hcont := chunk_cont h h' hu
        have hs : ∀ y : U64, shl64 pf y shift = if pf = .debug ∧ 64 ≤ shift then none else some (y <<< (shift % 64)) := by
          intro y
          unfold shl64
          by_cases h : shift < 64
          · have : ¬ (pf = .debug ∧ 64 ≤ shift) := by omega
            rw [if_pos h, if_neg this, Nat.mod_eq_of_lt h]
          · rw [if_neg h]
            cases pf with
            | debug => rw [if_pos ⟨rfl, by omega⟩]
            | release => rw [if_neg (by simp)]
        have hfl : c₁.rest.length < fuel := by
          have := congrArg List.length hrest
          rw [List.length_append, bitsOfNat_length] at this
          omega
        have hfn : ¬ ((Out.ok u : Out CErr U64).mapErr BErr.cursor).Failing f := by simp [Out.mapErr]
        rw [or_iff_right hfn]
        simp only [readVbrLoop, hr, hs]
        by_cases hd : pf = .debug ∧ 64 ≤ shift
        · simp only [hd, if_pos, and_self, Out.mapErr, failing_panic, not_true, false_and, or_false, true_and]
          constructor
          · rintro rfl
            exact ⟨u.toNat, c₁.rest, hu, hrest, rfl⟩
          · rintro ⟨_, _, _, _, rfl⟩
            rfl
        · rw [if_neg hd]
          simp only
          by_cases hc : (u &&& (1#64 <<< (w - 1))) ≠ 0
          · rw [if_pos hc, ← cur_fst, ih _ _ hm.on hfl]
            constructor
            · exact fun hL => ⟨u.toNat, c₁.rest, hu, hrest, .inr ⟨hd, hcont.1 hc, hL⟩⟩
            · rintro ⟨u', tail, hu', hr', ⟨h1, -⟩ | ⟨-, -, hL⟩⟩
              · exact absurd h1 hd
              · obtain ⟨rfl, rfl⟩ := huniq hu' hr'
                exact hL
          · rw [if_neg hc]
            simp only [Out.mapErr, failing_ok, false_iff]
            rintro ⟨u', tail, hu', hr', ⟨h1, -⟩ | ⟨-, hge, -⟩⟩
            · exact hd h1
            · obtain ⟨rfl, rfl⟩ := huniq hu' hr'
              exact hc (hcont.2 hge)

theorem fails_readVbr (pf : Profile) (w : Nat) : Fails gr (cur (Cursor.readVbr pf w)) (fun _ b f => NoVbr pf w b f) := by
  intro c hw f
  by_cases h : 2 ≤ w ∧ w ≤ 32
  · have hl := rest_length (gr.inv hw)
    have : cur (Cursor.readVbr pf w) c = cur (readVbrLoop pf w (c.bitLen + 1) 0 0) c := by
      unfold cur StM.mapErr Cursor.readVbr
      rw [if_neg (by simp [h])]
    rw [this, fails_vbrLoop pf h.1 h.2 _ _ _ hw (by simp only [Cursor.bitLen]; omega)]
    have hz : ∀ {xs : List Nat}, (xs ≠ [] → 0 + (xs.length - 1) * (w - 1) < 64) ↔ (xs.length - 1) * (w - 1) < 64 := by
      intro xs
      cases xs with
      | nil => simp
      | cons => simp
    constructor
    · rintro (⟨xs, tail, hx, hd, hb, hN⟩ | ⟨xs, last, tail, hx, hd, hs, h64, hl, hb, rfl⟩)
      · exact .cut h.1 h.2 hx (fun h1 => hz.1 (hd h1)) hb hN
      · exact .overlong h.1 h.2 hx hd (hz.1 hs) (by omega) hl hb
    · intro hN
      cases hN with
      | width hn => omega
      | cut _ _ hx hd hb hN => exact .inl ⟨_, _, hx, fun h1 => hz.2 (hd h1), hb, hN⟩
      | overlong _ _ hx hd hs h64 hl hb => exact .inr ⟨_, _, _, hx, hd, hz.2 hs, by omega, hl, hb, rfl⟩
  · have : (cur (Cursor.readVbr pf w) c).1 = .err (.cursor .invalidVbrWidth) := by
      unfold cur StM.mapErr Cursor.readVbr
      rw [if_pos h]
      rfl
    rw [this, failing_err]
    constructor
    · rintro rfl
      exact .width (by omega)
    · intro hN
      cases hN <;> first | rfl | omega

theorem fails_align : Fails gr align (fun _ _ _ => False) := fun c _ f => by
  simp [align, StM.modify]

theorem fails_withCapacity (n : U64) : Fails gr (withCapacity n : BM Unit) (fun _ _ f => 2 ^ 60 ≤ n.toNat ∧ f = .panic .capacity) := by
  unfold withCapacity
  refine (Fails.ite (fun _ => fails_panic _) (fun _ => fails_pure ())).congr fun pos b f _ => ?_
  simp only [and_false, or_false]
  constructor
  · exact fun h => ⟨by omega, h.2⟩
  · exact fun h => ⟨by omega, h.2⟩

/-! ## Values -/

theorem fails_elem (pf : Profile) (e : Elem) : Fails gr (e.op.parse pf) (fun _ b f => e.NoVal pf b f) := by
  cases e with
  | fixed w => exact Fails.map (exact_readAs .u64 w.toNat).cur (fails_readAs (.inr rfl)) _
  | vbr w => exact Fails.map (exact_readVbr pf w.toNat).cur (fails_readVbr pf w.toNat) _
  | char6 =>
    have hd : ∀ c : U64, Fails gr (decodeChar6 c >>= fun v => Pure.pure [v]) (fun _ _ f => 64 ≤ c.toNat ∧ f = .panic .char6Index) := by
      intro c
      unfold decodeChar6
      cases h : char6Alphabet[c.toNat]? with
      | none =>
        have h64 : 64 ≤ c.toNat := by simpa [char6Alphabet] using List.getElem?_eq_none_iff.1 h
        refine (Fails.bind (exact_panic _) (fails_panic _) fun x => fails_pure [x]).congr fun pos b f _ => ?_
        simp [Flaw.bind, h64]
      | some a =>
        have h64 : ¬ 64 ≤ c.toNat := by
          have := (List.getElem?_eq_some_iff.1 h).1
          simp [char6Alphabet] at this; omega
        refine (Fails.map (exact_pure _) (fails_pure _) _).congr fun pos b f _ => ?_
        simp [h64]
    refine (Fails.bind (exact_readAs .u8 6).cur (fails_readAs (.inl (by decide))) hd).congr fun pos b f _ => ?_
    constructor
    · rintro (h | ⟨_, x, _, _, ⟨-, -, hx, -⟩, hx', -⟩)
      · exact h
      · omega
    · exact .inl

theorem stuck_succ {γ : Type} {F : γ → List Bool → Prop} {N : List Bool → Failure → Prop} {n : Nat} {b : List Bool} {f : Failure} :
    Stuck F N (n + 1) b f ↔ N b f ∨ ∃ v b₁ b₂, b = b₁ ++ b₂ ∧ F v b₁ ∧ Stuck F N n b₂ f := by
  constructor
  · rintro ⟨vs, b₁, b₂, rfl, hl, hm, hN⟩
    cases vs with
    | nil =>
      obtain rfl : b₁ = [] := hm
      exact .inl hN
    | cons v vs =>
      obtain ⟨b₃, b₄, rfl, hv, hm⟩ := hm
      exact .inr ⟨v, b₃, b₄ ++ b₂, by simp, hv, vs, b₄, b₂, rfl, by simpa using hl, hm, hN⟩
  · rintro (hN | ⟨v, b₁, b₂, rfl, hv, vs, b₃, b₄, rfl, hl, hm, hN⟩)
    · exact ⟨[], [], b, rfl, by simp, rfl, hN⟩
    · exact ⟨v :: vs, b₁ ++ b₃, b₄, by simp, by simpa using hl, ⟨b₁, b₃, rfl, hv, hm⟩, hN⟩

theorem fails_repeat {body : BM (List U64)} {G : U64 → List Bool → Prop} {N : List Bool → Failure → Prop}
    (h : Exact gr body (fun _ b l => ∃ v, l = [v] ∧ G v b)) (hn : Fails gr body (fun _ b f => N b f)) (n : Nat) :
    Fails gr (repeatFields body n) (fun _ b f => Stuck G N n b f) := by
  induction n with
  | zero =>
    refine (fails_pure []).congr fun pos b f _ => ?_
    simp [Stuck]
  | succ n ih =>
    refine (Fails.bind h hn fun xs => Fails.map (exact_repeat h n) ih fun ys => xs ++ ys).congr fun pos b f _ => ?_
    rw [stuck_succ]
    constructor
    · rintro (h | ⟨b₁, xs, b₂, rfl, ⟨v, rfl, hv⟩, hs⟩)
      · exact .inl h
      · exact .inr ⟨v, b₁, b₂, rfl, hv, hs⟩
    · rintro (h | ⟨v, b₁, b₂, rfl, hv, hs⟩)
      · exact .inl h
      · exact .inr ⟨b₁, [v], b₂, rfl, ⟨v, rfl, hv⟩, hs⟩

theorem fails_byte : Fails gr (do let b ← Verif.cur (Cursor.readExact .u8); Pure.pure [b]) (fun _ b f => NoFixed 8 b f) :=
  Fails.map (exact_readAs .u8 8).cur (fails_readAs (.inl (by decide))) _

theorem fails_array (pf : Profile) (e : Elem) :
    Fails gr ((AbbrevOp.array e.op).parse pf) (fun pos b f => (Tail.array e).NoVal pf gr.pad pos b f) := by
  simp only [AbbrevOp.parse]
  refine (Fails.bind (exact_readVbr pf 6).cur (fails_readVbr pf 6) fun n => Fails.bind (exact_withCapacity n) (fails_withCapacity n)
    fun _ => fails_repeat (exact_elem pf e) (fails_elem pf e) n.toNat).congr fun pos b f _ => ?_
  constructor
  · rintro (h | ⟨b₁, n, b₂, rfl, ⟨-, -, hn⟩, ⟨hc, rfl⟩ | ⟨b₃, _, b₄, rfl, ⟨rfl, hc⟩, hs⟩⟩)
    · exact .count h
    · exact .size rfl hn hc
    · exact .counted rfl hn hc hs
  · intro h
    cases h with
    | count h => exact .inl h
    | size hb hn hc => exact .inr ⟨_, _, _, hb, ⟨by omega, by omega, hn⟩, .inl ⟨hc, rfl⟩⟩
    | counted hb hn hc hs => exact .inr ⟨_, _, _, hb, ⟨by omega, by omega, hn⟩, .inr ⟨[], (), _, rfl, ⟨rfl, hc⟩, hs⟩⟩

theorem exists_pad {pos : Nat} {b : List Bool} (h : gr.ends (pos + b.length)) : ∃ p t, b = p ++ t ∧ IsPad gr.pad pos p := by
  refine ⟨b.take (gr.pad pos), b.drop (gr.pad pos), (List.take_append_drop _ _).symm, ?_⟩
  have := gr.fits h (Nat.le_add_right _ _)
  unfold IsPad
  rw [List.length_take]
  omega

theorem fails_blob (pf : Profile) :
    Fails gr (AbbrevOp.blob.parse pf) (fun pos b f => Tail.blob.NoVal pf gr.pad pos b f) := by
  simp only [AbbrevOp.parse]
  refine (Fails.bind (exact_readVbr pf 6).cur (fails_readVbr pf 6) fun n => Fails.bind exact_align fails_align fun _ =>
    Fails.bind (exact_withCapacity n) (fails_withCapacity n) fun _ =>
    Fails.bind (exact_repeat exact_byte n.toNat) (fails_repeat exact_byte fails_byte n.toNat) fun fields =>
    Fails.map exact_align fails_align fun _ => fields).congr fun pos b f he => ?_
  constructor
  · rintro (h | ⟨b₁, n, b₂, rfl, ⟨-, -, hn⟩, h | ⟨p, _, b₃, rfl, hp, ⟨hc, rfl⟩ | ⟨b₄, _, b₅, rfl, ⟨rfl, hc⟩, hs | ⟨_, _, _, _, _, h⟩⟩⟩⟩)
    · exact .count h
    · exact h.elim
    · exact .size rfl hn hc
    · exact .counted rfl hn hc ⟨p, _, rfl, hp, hs⟩
    · exact h.elim
  · intro h
    cases h with
    | count h => exact .inl h
    | @size v n tail hb hn hc =>
      subst hb
      obtain ⟨p, t, hpt, hp⟩ := exists_pad (pos := pos + n.length) (b := tail) (by
        rw [List.length_append] at he; rw [Nat.add_assoc]; exact he)
      exact .inr ⟨_, _, _, rfl, ⟨by omega, by omega, hn⟩, .inr ⟨p, (), t, hpt, hp, .inl ⟨hc, rfl⟩⟩⟩
    | counted hb hn hc hs =>
      obtain ⟨p, t, hpt, hp, hs⟩ := hs
      exact .inr ⟨_, _, _, hb, ⟨by omega, by omega, hn⟩, .inr ⟨p, (), t, hpt, hp, .inr ⟨[], (), _, rfl, ⟨rfl, hc⟩, .inl hs⟩⟩⟩

theorem fails_vals (pf : Profile) (t : Tail) (ss : List Scalar) :
    Fails gr (parseFields pf (ss.map Scalar.op ++ t.ops)) (fun pos b f => NoVals pf gr.pad t pos ss b f) := by
  induction ss with
  | nil =>
    have one : ∀ (op : AbbrevOp) (F : Lang (List U64)) (N : Flaw), Exact gr (op.parse pf) F → Fails gr (op.parse pf) N →
        Fails gr (parseFields pf [op]) N := by
      intro op F N h hn
      refine (Fails.bind h hn fun xs => Fails.map (exact_pure ([] : List U64)) (fails_pure _) fun ys => xs ++ ys).congr
        fun pos b f _ => ?_
      constructor
      · rintro (h | ⟨_, _, _, _, _, h⟩)
        · exact h
        · exact h.elim
      · exact .inl
    cases t with
    | nothing => exact fails_pure _
    | array e => exact one _ _ _ (exact_array pf e) (fails_array pf e)
    | blob => exact one _ _ _ (exact_blob pf) (fails_blob pf)
  | cons s ss ih =>
    have hs : Exact gr (s.op.parse pf) (fun _ b l => ∃ v, l = [v] ∧ s.IsVal pf v b) := by
      cases s with
      | lit v =>
        refine (exact_pure [v]).congr fun pos b l => ?_
        constructor
        · rintro ⟨rfl, rfl⟩
          exact ⟨v, rfl, rfl, rfl⟩
        · rintro ⟨_, rfl, rfl, rfl⟩
          exact ⟨rfl, rfl⟩
      | enc e => exact exact_elem pf e
    have hn : Fails gr (s.op.parse pf) (fun _ b f => s.NoVal pf b f) := by
      cases s with
      | lit v => exact fails_pure _
      | enc e => exact fails_elem pf e
    refine (Fails.bind hs hn fun xs => Fails.map (exact_vals pf t ss) ih fun ys => xs ++ ys).congr fun pos b f _ => ?_
    constructor
    · rintro (h | ⟨b₁, xs, b₂, rfl, ⟨v, rfl, hv⟩, h⟩)
      · exact .inl h
      · exact .inr ⟨v, b₁, b₂, rfl, hv, h⟩
    · rintro (h | ⟨v, b₁, b₂, rfl, hv, h⟩)
      · exact .inl h
      · exact .inr ⟨b₁, [v], b₂, rfl, ⟨v, rfl, hv⟩, h⟩

theorem fails_abbrevParse (pf : Profile) (d : Def) :
    Fails gr (d.abbrev.parse pf) (fun pos b f => NoVals pf gr.pad d.tail pos d.scalars b f) := fails_vals pf d.tail d.scalars

theorem fails_vbr6s (pf : Profile) (n : Nat) :
    Fails gr (Parser.readVbr6s pf n) (fun _ b f => Stuck (IsVbr pf 6) (NoVbr pf 6) n b f) := by
  induction n with
  | zero =>
    refine (fails_pure []).congr fun pos b f _ => ?_
    simp [Stuck]
  | succ n ih =>
    refine (Fails.bind (exact_readVbr pf 6).cur (fails_readVbr pf 6) fun x => Fails.map (exact_vbr6s pf n) ih fun xs => x :: xs).congr
      fun pos b f _ => ?_
    rw [stuck_succ]
    constructor
    · rintro (h | ⟨b₁, x, b₂, rfl, ⟨-, -, hx⟩, hs⟩)
      · exact .inl h
      · exact .inr ⟨x, b₁, b₂, rfl, hx, hs⟩
    · rintro (h | ⟨x, b₁, b₂, rfl, hx, hs⟩)
      · exact .inl h
      · exact .inr ⟨b₁, x, b₂, rfl, ⟨by omega, by omega, hx⟩, hs⟩

/-! ## Definitions -/

theorem u64_eq_iff {v : U64} {n : Nat} (hn : n < 2 ^ 64) : v = BitVec.ofNat 64 n ↔ v.toNat = n := by
  constructor
  · rintro rfl
    rw [BitVec.toNat_ofNat]; exact Nat.mod_eq_of_lt hn
  · intro h
    apply BitVec.eq_of_toNat_eq
    rw [h, BitVec.toNat_ofNat]; exact (Nat.mod_eq_of_lt hn).symm

theorem fails_tryFrom (v : U64) :
    Fails gr (AbbrevOpEnc.tryFrom v) (fun _ _ f => (v.toNat = 0 ∨ 5 < v.toNat) ∧ f = .error (.badAbbrevOpEnc v)) := by
  have h1 : v = 1 ↔ v.toNat = 1 := u64_eq_iff (n := 1) (by omega)
  have h2 : v = 2 ↔ v.toNat = 2 := u64_eq_iff (n := 2) (by omega)
  have h3 : v = 3 ↔ v.toNat = 3 := u64_eq_iff (n := 3) (by omega)
  have h4 : v = 4 ↔ v.toNat = 4 := u64_eq_iff (n := 4) (by omega)
  have h5 : v = 5 ↔ v.toNat = 5 := u64_eq_iff (n := 5) (by omega)
  unfold AbbrevOpEnc.tryFrom
  simp only [h1, h2, h3, h4, h5]
  refine (Fails.ite (fun _ => fails_pure _) fun _ => Fails.ite (fun _ => fails_pure _) fun _ => Fails.ite (fun _ => fails_pure _)
    fun _ => Fails.ite (fun _ => fails_pure _) fun _ => Fails.ite (fun _ => fails_pure _) fun _ => fails_throw _).congr
    fun pos b f _ => ?_
  simp only [and_false, false_or]
  constructor
  · rintro ⟨a1, a2, a3, a4, a5, rfl⟩
    exact ⟨by omega, rfl⟩
  · rintro ⟨h, rfl⟩
    exact ⟨by omega, by omega, by omega, by omega, by omega, rfl⟩

theorem fails_subU64 (pf : Profile) (site : PanicSite) (a b : U64) :
    Fails gr (subU64 pf site a b : BM U64) (fun _ _ f => a.toNat < b.toNat ∧ pf = .debug ∧ f = .panic site) := by
  unfold subU64
  by_cases h : b.toNat ≤ a.toNat
  · rw [if_pos h]
    refine (fails_pure _).congr fun pos bits v _ => ?_
    simp; omega
  · rw [if_neg h]
    cases pf with
    | debug =>
      refine (fails_panic _).congr fun pos bits v _ => ?_
      simp; omega
    | release =>
      refine (fails_pure _).congr fun pos bits v _ => ?_
      simp

/-- After the flag. -/
theorem fails_encoding (pf : Profile) {g : AbbrevOpEnc → BM β} {others : Nat → List Bool → Failure → Prop}
    (hf : Fails gr (g .fixed) (fun _ b f => NoVbr pf 5 b f)) (hv : Fails gr (g .vbr) (fun _ b f => NoVbr pf 5 b f))
    (hc : Fails gr (g .char6) (fun _ _ _ => False)) (ha : Fails gr (g .array) (fun _ b f => others 3 b f))
    (hb : Fails gr (g .blob) (fun _ b f => others 5 b f)) :
    Fails gr (cur (Cursor.read 3) >>= fun e => AbbrevOpEnc.tryFrom e >>= g) (fun _ b f => NoEncoding pf others b f) := by
  refine (Fails.bind (exact_read 3).cur (fails_read 3) fun v => Fails.bind (exact_tryFrom v) (fails_tryFrom v)
    (M := fun x => match x with
      | .fixed => fun _ b f => NoVbr pf 5 b f
      | .vbr => fun _ b f => NoVbr pf 5 b f
      | .char6 => fun _ _ _ => False
      | .array => fun _ b f => others 3 b f
      | .blob => fun _ b f => others 5 b f) fun x => ?_).congr fun pos b f _ => ?_
  · cases x <;> assumption
  · constructor
    · rintro (h | ⟨b₁, v, b₂, rfl, ⟨-, -, hlt, rfl⟩, ⟨hbad, rfl⟩ | ⟨b₃, x, b₄, rfl, ⟨rfl, hx⟩, h⟩⟩)
      · exact .missing h
      · have := NoEncoding.unknown (pf := pf) (others := others) (tail := b₂) rfl hlt hbad
        rwa [show BitVec.ofNat 64 v.toNat = v by simp] at this
      · cases x with
        | fixed => exact .width rfl (.inl hx) h
        | vbr => exact .width rfl (.inr hx) h
        | char6 => exact h.elim
        | array => exact .other rfl (.inl hx) (by rw [hx]; exact h)
        | blob => exact .other rfl (.inr hx) (by rw [hx]; exact h)
    · have key : ∀ {n : Nat} {tail : List Bool}, n < 8 → ∃ v : U64, v.toNat = n ∧ v.toNat < 2 ^ 3 ∧
          bitsOfNat 3 n = bitsOfNat 3 v.toNat := by
        intro n tail hn
        have : (BitVec.ofNat 64 n).toNat = n := by
          rw [BitVec.toNat_ofNat]; exact Nat.mod_eq_of_lt (by omega)
        exact ⟨BitVec.ofNat 64 n, this, by rw [this]; omega, by rw [this]⟩
      intro h
      cases h with
      | missing h => exact .inl h
      | @unknown n tail hb hn hbad =>
        obtain ⟨v, rfl, hlt, e⟩ := key (tail := tail) hn
        exact .inr ⟨_, v, tail, hb, ⟨by omega, by omega, hlt, e⟩, .inl ⟨hbad, by simp⟩⟩
      | @width n tail f hb hn h =>
        obtain ⟨v, rfl, hlt, e⟩ := key (n := n) (tail := tail) (by omega)
        rcases hn with hn | hn
        · exact .inr ⟨_, v, tail, hb, ⟨by omega, by omega, hlt, e⟩, .inr ⟨[], .fixed, tail, rfl, ⟨rfl, hn⟩, h⟩⟩
        · exact .inr ⟨_, v, tail, hb, ⟨by omega, by omega, hlt, e⟩, .inr ⟨[], .vbr, tail, rfl, ⟨rfl, hn⟩, h⟩⟩
      | @other n tail f hb hn h =>
        obtain ⟨v, rfl, hlt, e⟩ := key (n := n) (tail := tail) (by omega)
        rcases hn with hn | hn <;> rw [hn] at h
        · exact .inr ⟨_, v, tail, hb, ⟨by omega, by omega, hlt, e⟩, .inr ⟨[], .array, tail, rfl, ⟨rfl, hn⟩, h⟩⟩
        · exact .inr ⟨_, v, tail, hb, ⟨by omega, by omega, hlt, e⟩, .inr ⟨[], .blob, tail, rfl, ⟨rfl, hn⟩, h⟩⟩

theorem flag_iff {b : List Bool} {f : U64} : (1 ≤ 1 ∧ 1 ≤ 63 ∧ f.toNat < 2 ^ 1 ∧ b = bitsOfNat 1 f.toNat) ↔
    (f = 1 ∧ b = [true] ∨ f = 0 ∧ b = [false]) := by
  constructor
  · rintro ⟨-, -, hf, rfl⟩
    have h : f.toNat = 0 ∨ f.toNat = 1 := by omega
    rcases h with h | h
    · exact .inr ⟨BitVec.eq_of_toNat_eq h, by rw [h]; rfl⟩
    · exact .inl ⟨BitVec.eq_of_toNat_eq h, by rw [h]; rfl⟩
  · rintro (⟨rfl, rfl⟩ | ⟨rfl, rfl⟩)
    · exact ⟨by omega, by omega, by decide, rfl⟩
    · exact ⟨by omega, by omega, by decide, rfl⟩

theorem fails_arrayElem (pf : Profile) : Fails gr (parseArrayElem pf) (fun _ b f => NoElement pf b f) := by
  unfold parseArrayElem
  refine (Fails.bind (exact_read 1).cur (fails_read 1) (M := fun _ _ b f => NoEncoding pf (fun n _ f => n = 3 ∧ f = .error (.abbrevParse (.arrayElement .array)) ∨
      n = 5 ∧ f = .error (.abbrevParse (.arrayElement .blob))) b f)
    fun _ => ?_).congr fun pos b f _ => ?_
  · refine fails_encoding pf ?_ ?_ ?_ ?_ ?_
    · exact Fails.map (exact_readVbr pf 5).cur (fails_readVbr pf 5) _
    · exact Fails.map (exact_readVbr pf 5).cur (fails_readVbr pf 5) _
    · exact fails_pure _
    · exact (fails_throw _).congr fun _ _ _ _ => by simp
    · exact (fails_throw _).congr fun _ _ _ _ => by simp
  constructor
  · rintro (h | ⟨b₁, v, b₂, rfl, hv, h⟩)
    · exact .missing h
    · rcases flag_iff.1 hv with ⟨-, rfl⟩ | ⟨-, rfl⟩
      · exact .encoding rfl h
      · exact .encoding rfl h
  · intro h
    cases h with
    | missing h => exact .inl h
    | @encoding flag tail f hb h =>
      cases flag with
      | true => exact .inr ⟨[true], 1, tail, hb, flag_iff.2 (.inl ⟨rfl, rfl⟩), h⟩
      | false => exact .inr ⟨[false], 0, tail, hb, flag_iff.2 (.inr ⟨rfl, rfl⟩), h⟩

/-- What `NoOperand` says about arrays and blobs. -/
def OpFlaw (pf : Profile) (num i : Nat) (n : Nat) (tail : List Bool) (f : Failure) : Prop :=
  n = 3 ∧ (num = 1 ∧ pf = .debug ∧ f = .panic .abbrevArraySub ∨
    (num = 1 → pf = .release) ∧ i + 2 ≠ num ∧ f = .error (.abbrevParse .arrayIndex) ∨ i + 2 = num ∧ NoElement pf tail f) ∨
  n = 5 ∧ i + 1 ≠ num ∧ f = .error (.abbrevParse .blobIndex)

theorem fails_encoded (pf : Profile) (num : U64) (rem : Nat) (hrem : rem + 1 ≤ num.toNat) :
    Fails gr (parseEncodedOperand pf num (num - BitVec.ofNat 64 (rem + 1)))
      (fun _ b f => NoEncoding pf (OpFlaw pf num.toNat (num.toNat - (rem + 1))) b f) := by
  have hlt := num.isLt
  have hidx : (num - BitVec.ofNat 64 (rem + 1)).toNat = num.toNat - (rem + 1) := by
    rw [BitVec.toNat_sub_of_le]
    · rw [BitVec.toNat_ofNat, Nat.mod_eq_of_lt (by omega)]
    · rw [BitVec.le_def, BitVec.toNat_ofNat, Nat.mod_eq_of_lt (by omega)]; exact hrem
  have h2 : (2 : U64).toNat = 2 := rfl
  have h1 : (1 : U64).toNat = 1 := rfl
  have harr : num - BitVec.ofNat 64 (rem + 1) = num - 2 ↔ num.toNat - (rem + 1) + 2 = num.toNat := by
    rw [← BitVec.toNat_inj, hidx]
    by_cases h : 2 ≤ num.toNat
    · rw [BitVec.toNat_sub_of_le (by rw [BitVec.le_def]; omega), h2]; omega
    · rw [BitVec.toNat_sub, h2]
      rw [Nat.mod_eq_of_lt (b := 2 ^ 64) (by omega)]; omega
  have hblob : num - BitVec.ofNat 64 (rem + 1) = num - 1 ↔ num.toNat - (rem + 1) + 1 = num.toNat := by
    rw [← BitVec.toNat_inj, hidx, BitVec.toNat_sub_of_le (by rw [BitVec.le_def]; omega), h1]; omega
  generalize num - BitVec.ofNat 64 (rem + 1) = idx at harr hblob
  generalize num.toNat - (rem + 1) = i at harr hblob
  unfold parseEncodedOperand
  refine fails_encoding pf (Fails.map (exact_readVbr pf 5).cur (fails_readVbr pf 5) _)
    (Fails.map (exact_readVbr pf 5).cur (fails_readVbr pf 5) _) (fails_pure _) ?_ ?_
  · refine (Fails.bind (exact_subU64 pf _ num 2) (fails_subU64 pf _ num 2) fun last2 => Fails.ite (fun _ => fails_throw _) fun _ =>
        Fails.map (exact_arrayElem pf) (fails_arrayElem pf) _).congr fun pos b f _ => ?_
    rw [h2]
    constructor
    · rintro (⟨hl, hp, rfl⟩ | ⟨b₁, x, b₂, rfl, ⟨rfl, rfl, hp⟩, ⟨he, rfl⟩ | ⟨he, h⟩⟩)
      · exact .inl ⟨rfl, .inl ⟨by omega, hp, rfl⟩⟩
      · refine .inl ⟨rfl, .inr (.inl ⟨fun h => ?_, fun h => he (harr.2 h), rfl⟩)⟩
        rcases hp with hp | hp
        · omega
        · exact hp
      · exact .inl ⟨rfl, .inr (.inr ⟨harr.1 (by simpa using he), h⟩)⟩
    · rintro (⟨-, ⟨hl, hp, rfl⟩ | ⟨hp, he, rfl⟩ | ⟨he, h⟩⟩ | ⟨h, -⟩)
      · exact .inl ⟨by omega, hp, rfl⟩
      · refine .inr ⟨[], _, b, rfl, ⟨rfl, rfl, ?_⟩, .inl ⟨fun h => he (harr.1 h), rfl⟩⟩
        by_cases h : 2 ≤ num.toNat
        · exact .inl h
        · exact .inr (hp (by omega))
      · exact .inr ⟨[], _, b, rfl, ⟨rfl, rfl, .inl (by omega)⟩, .inr ⟨by simpa using harr.2 he, h⟩⟩
      · cases h
  · refine (Fails.bind (exact_subU64 pf _ num 1) (fails_subU64 pf _ num 1) fun last => Fails.ite (fun _ => fails_throw _) fun _ =>
        fails_pure _).congr fun pos b f _ => ?_
    rw [h1]
    constructor
    · rintro (⟨hl, hp, rfl⟩ | ⟨b₁, x, b₂, rfl, ⟨rfl, rfl, hp⟩, ⟨he, rfl⟩ | ⟨he, h⟩⟩)
      · omega
      · exact .inr ⟨rfl, fun h => he (hblob.2 h), rfl⟩
      · exact h.elim
    · rintro (⟨h, -⟩ | ⟨-, he, rfl⟩)
      · cases h
      · exact .inr ⟨[], _, b, rfl, ⟨rfl, rfl, .inl (by omega)⟩, .inl ⟨fun h => he (hblob.1 h), rfl⟩⟩

/-- Failures in the last `n` of `num` operands. -/
def OpsFlaw (pf : Profile) (num n : Nat) (b : List Bool) (f : Failure) : Prop :=
  ∃ (ss : List Scalar) (s tail : List Bool), b = s ++ tail ∧ Many (Scalar.IsDef pf) ss s ∧ ss.length < n ∧
    NoOperand pf num (num - n + ss.length) tail f

theorem opsFlaw_succ {pf : Profile} {num n : Nat} (h : n + 1 ≤ num) {b : List Bool} {f : Failure} :
    OpsFlaw pf num (n + 1) b f ↔ NoOperand pf num (num - (n + 1)) b f ∨
      ∃ sc b₁ b₂, b = b₁ ++ b₂ ∧ Scalar.IsDef pf sc b₁ ∧ OpsFlaw pf num n b₂ f := by
  constructor
  · rintro ⟨ss, s, tail, rfl, hs, hl, hN⟩
    cases ss with
    | nil =>
      obtain rfl : s = [] := hs
      exact .inl hN
    | cons sc ss =>
      obtain ⟨b₁, b₂, rfl, hsc, hs⟩ := hs
      refine .inr ⟨sc, b₁, b₂ ++ tail, by simp, hsc, ss, b₂, tail, rfl, hs, by simpa using hl, ?_⟩
      rw [show num - n + ss.length = num - (n + 1) + (sc :: ss).length by simp only [List.length_cons]; omega]
      exact hN
  · rintro (hN | ⟨sc, b₁, b₂, rfl, hsc, ss, s, tail, rfl, hs, hl, hN⟩)
    · exact ⟨[], [], b, rfl, rfl, by simp, hN⟩
    · refine ⟨sc :: ss, b₁ ++ s, tail, by simp, ⟨b₁, s, rfl, hsc, hs⟩, by simpa using hl, ?_⟩
      rw [show num - (n + 1) + (sc :: ss).length = num - n + ss.length by simp only [List.length_cons]; omega]
      exact hN

theorem fails_operands (pf : Profile) (num : U64) (n : Nat) (hn : n ≤ num.toNat) :
    Fails gr (parseOperands pf num n) (fun _ b f => OpsFlaw pf num.toNat n b f) := by
  induction n with
  | zero =>
    refine (fails_pure []).congr fun pos b f _ => ?_
    simp [OpsFlaw]
  | succ n ih =>
    have ih := ih (by omega)
    have hex := exact_operands (gr := gr) pf num n (by omega)
    simp only [parseOperands]
    refine (Fails.bind (exact_read 1).cur (fails_read 1) fun kind => Fails.ite
      (fun _ => Fails.bind (exact_readVbr pf 8).cur (fails_readVbr pf 8) fun val => Fails.map hex ih fun ops => .literal val :: ops)
      (fun _ => Fails.bind (exact_encoded pf num n hn) (fails_encoded pf num n hn) (M := fun r => fun pos b f =>
          r.2 = false ∧ OpsFlaw pf num.toNat n b f) fun r => ?_)).congr
      fun pos b f _ => ?_
    · cases r with
      | mk op d =>
        cases d with
        | true => exact (fails_pure _).congr fun pos b f _ => by simp
        | false => exact (Fails.map hex ih _).congr fun pos b f _ => by simp
    · rw [opsFlaw_succ hn]
      have h01 : (0 : U64) ≠ 1 := by decide
      constructor
      · rintro (h | ⟨b₁, kind, b₂, rfl, hk, h⟩)
        · exact .inl (.missing h)
        · rcases flag_iff.1 hk with ⟨rfl, rfl⟩ | ⟨rfl, rfl⟩
          · rcases h with ⟨-, h | ⟨b₃, val, b₄, rfl, ⟨-, -, hv⟩, h⟩⟩ | ⟨h, -⟩
            · exact .inl (.literal rfl h)
            · exact .inr ⟨.lit val, true :: b₃, b₄, rfl, ⟨b₃, rfl, hv⟩, h⟩
            · exact absurd rfl h
          · rcases h with ⟨h, -⟩ | ⟨-, h | ⟨b₃, r, b₄, rfl, hr, hr2, h⟩⟩
            · exact absurd h h01
            · exact .inl (.encoding rfl h)
            · rcases hr with ⟨e, rfl, he⟩ | ⟨hrem, e, flag, b', rfl, rfl, he⟩ | ⟨hrem, rfl, rfl⟩
              · exact .inr ⟨.enc e, false :: b₃, b₄, rfl, ⟨b₃, rfl, he⟩, h⟩
              · cases hr2
              · obtain ⟨ss, _, _, _, _, hl, _⟩ := h
                omega
      · rintro (h | ⟨sc, b₁, b₂, rfl, hsc, h⟩)
        · cases h with
          | missing h => exact .inl h
          | literal hb h => exact .inr ⟨[true], 1, _, hb, flag_iff.2 (.inl ⟨rfl, rfl⟩), .inl ⟨rfl, .inl h⟩⟩
          | encoding hb h => exact .inr ⟨[false], 0, _, hb, flag_iff.2 (.inr ⟨rfl, rfl⟩), .inr ⟨h01, .inl h⟩⟩
        · cases sc with
          | lit v =>
            obtain ⟨b', rfl, hv⟩ := hsc
            exact .inr ⟨[true], 1, b' ++ b₂, rfl, flag_iff.2 (.inl ⟨rfl, rfl⟩), .inl ⟨rfl, .inr ⟨b', v, b₂, rfl,
              ⟨by omega, by omega, hv⟩, h⟩⟩⟩
          | enc e =>
            obtain ⟨b', rfl, hv⟩ := hsc
            exact .inr ⟨[false], 0, b' ++ b₂, rfl, flag_iff.2 (.inr ⟨rfl, rfl⟩), .inr ⟨h01, .inr ⟨b', (e.op, false), b₂, rfl,
              .inl ⟨e, rfl, hv⟩, rfl, h⟩⟩⟩

theorem fails_abbrevNew (pf : Profile) : Fails gr (Abbrev.new pf) (fun _ b f => NoDef pf b f) := by
  unfold Abbrev.new
  refine (Fails.bind (exact_readVbr pf 5).cur (fails_readVbr pf 5) fun num => Fails.ite (fun _ => fails_throw _) fun _ =>
    Fails.map (exact_operands pf num num.toNat (Nat.le_refl _)) (fails_operands pf num num.toNat (Nat.le_refl _))
      fun ops => ({ operands := ops } : Abbrev)).congr fun pos b f _ => ?_
  constructor
  · rintro (h | ⟨b₁, num, b₂, rfl, ⟨-, -, hv⟩, ⟨h0, rfl⟩ | ⟨-, ss, s, tail, rfl, hs, hl, hN⟩⟩)
    · exact .count h
    · rw [lt_one_iff] at h0
      subst h0
      exact .empty rfl hv
    · rw [Nat.sub_self, Nat.zero_add] at hN
      exact .operand rfl hv hs hl hN
  · intro h
    cases h with
    | count h => exact .inl h
    | empty hb hv => exact .inr ⟨_, _, _, hb, ⟨by omega, by omega, hv⟩, .inl ⟨by decide, rfl⟩⟩
    | @operand num n s tail ss f hb hv hs hl hN =>
      refine .inr ⟨_, _, _, hb, ⟨by omega, by omega, hv⟩, .inr ⟨?_, ss, s, tail, rfl, hs, hl, ?_⟩⟩
      · rw [lt_one_iff]
        rintro rfl
        have : (0 : U64).toNat = 0 := rfl
        omega
      · rw [Nat.sub_self, Nat.zero_add]
        exact hN

end Verif
