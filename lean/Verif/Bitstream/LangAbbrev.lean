import Verif.Bitstream.Lang

/-!
The languages of abbreviation definitions and of the values under them.
-/

set_option linter.unusedSimpArgs false

namespace Verif
open Spec Cursor

variable {gr : Grid} {ε ε' α β : Type}

theorem Exact.map {m : StM Cursor ε α} {F : Lang α} (h : Exact gr m F) (f : α → β) :
    Exact gr (m >>= fun x => Pure.pure (f x)) (fun pos b v => ∃ x, F pos b x ∧ v = f x) := by
  refine (h.bind fun x => exact_pure (f x)).congr fun pos b v => ?_
  constructor
  · rintro ⟨b₁, x, b₂, rfl, h₁, rfl, rfl⟩
    exact ⟨x, by simpa using h₁, rfl⟩
  · rintro ⟨x, h₁, rfl⟩
    exact ⟨b, x, [], by simp, h₁, rfl, rfl⟩

/-! ## Values -/

theorem char6_exact (i : Nat) (hi : i < 64) : ∃ a : U8, char6Alphabet[i]? = some a ∧
    ∀ v : Nat, char6Code v = some i ↔ v = a.toNat := by
  have h : ∀ i : Fin 64, ∃ a : U8, char6Alphabet[i.val]? = some a ∧ char6Code a.toNat = some i.val := by decide +kernel
  obtain ⟨a, ha, hc⟩ := h ⟨i, hi⟩
  refine ⟨a, ha, fun v => ⟨fun hv => ?_, fun hv => hv ▸ hc⟩⟩
  obtain ⟨u, hu⟩ : ∃ u : Nat, u = a.toNat := ⟨_, rfl⟩
  rw [← hu] at hc ⊢
  simp only [char6Code] at hv hc
  revert hv hc
  repeat' split
  all_goals
    intro hv hc
    simp only [Option.some.injEq, reduceCtorEq] at hv hc
  all_goals omega

theorem exact_elem (pf : Profile) (e : Elem) :
    Exact gr (e.op.parse pf) (fun _ b l => ∃ v, l = [v] ∧ e.IsVal pf v b) := by
  cases e with
  | fixed w =>
    refine ((exact_readAs .u64 w.toNat).cur.map (fun v => [v])).congr fun pos b l => ?_
    constructor
    · rintro ⟨v, ⟨h1, h2, h3, -, h4⟩, rfl⟩
      exact ⟨v, rfl, h1, h2, h3, h4⟩
    · rintro ⟨v, rfl, h1, h2, h3, h4⟩
      refine ⟨v, ⟨h1, h2, h3, ?_, h4⟩, rfl⟩
      have := v.isLt
      simp only [IntTy.max]; omega
  | vbr w =>
    refine ((exact_readVbr pf w.toNat).cur.map (fun v => [v])).congr fun pos b l => ?_
    constructor
    · rintro ⟨v, h, rfl⟩
      exact ⟨v, rfl, h⟩
    · rintro ⟨v, rfl, h⟩
      exact ⟨v, h, rfl⟩
  | char6 =>
    have hd : ∀ c : U64, Exact gr (decodeChar6 c >>= fun v => Pure.pure [v])
        (fun _ b l => b = [] ∧ ∃ a, char6Alphabet[c.toNat]? = some a ∧ l = [a.setWidth 64]) := by
      intro c
      unfold decodeChar6
      cases h : char6Alphabet[c.toNat]? with
      | none =>
        refine ((exact_panic _).bind fun x => exact_pure [x]).congr fun pos b l => ?_
        simp [Lang.bind, Lang.none]
      | some a =>
        refine ((exact_pure _).map fun v => [v]).congr fun pos b l => ?_
        constructor
        · rintro ⟨x, ⟨rfl, rfl⟩, rfl⟩
          exact ⟨rfl, a, rfl, rfl⟩
        · rintro ⟨rfl, a', ha, rfl⟩
          cases ha
          exact ⟨_, ⟨rfl, rfl⟩, rfl⟩
    refine ((exact_readAs .u8 6).cur.bind hd).congr fun pos b l => ?_
    constructor
    · rintro ⟨b₁, c, b₂, rfl, ⟨-, -, h3, -, rfl⟩, rfl, a, ha, rfl⟩
      obtain ⟨a', ha', hc⟩ := char6_exact c.toNat h3
      rw [ha] at ha'
      cases ha'
      exact ⟨_, rfl, c.toNat, (hc _).2 (by have := a.isLt; simp; omega), by simp⟩
    · rintro ⟨v, rfl, i, hi, rfl⟩
      have hi64 : i < 64 := by
        simp only [char6Code] at hi
        repeat' split at hi
        all_goals simp only [Option.some.injEq, reduceCtorEq] at hi
        all_goals omega
      obtain ⟨a, ha, hc⟩ := char6_exact i hi64
      have hv := (hc _).1 hi
      have hin : (BitVec.ofNat 64 i).toNat = i := by
        rw [BitVec.toNat_ofNat]; exact Nat.mod_eq_of_lt (by omega)
      refine ⟨bitsOfNat 6 i, BitVec.ofNat 64 i, [], by simp, ⟨by omega, by omega, by rw [hin]; omega, ?_, by rw [hin]⟩, rfl, a,
        by rw [hin]; exact ha, ?_⟩
      · rw [hin]; simp only [IntTy.max]; omega
      · congr 1
        apply BitVec.eq_of_toNat_eq
        rw [hv]
        have := a.isLt
        simp
        omega

theorem exact_repeat {body : BM (List U64)} {G : U64 → List Bool → Prop}
    (h : Exact gr body (fun _ b l => ∃ v, l = [v] ∧ G v b)) (n : Nat) :
    Exact gr (repeatFields body n) (fun _ b l => l.length = n ∧ Many G l b) := by
  induction n with
  | zero =>
    refine (exact_pure []).congr fun pos b l => ?_
    constructor
    · rintro ⟨rfl, rfl⟩
      exact ⟨rfl, rfl⟩
    · rintro ⟨hl, hm⟩
      obtain rfl := List.length_eq_zero_iff.1 hl
      exact ⟨hm, rfl⟩
  | succ n ih =>
    refine (h.bind fun xs => ih.map fun ys => xs ++ ys).congr fun pos b l => ?_
    constructor
    · rintro ⟨b₁, xs, b₂, rfl, ⟨v, rfl, hv⟩, ys, ⟨rfl, hm⟩, rfl⟩
      exact ⟨by simp, b₁, b₂, rfl, hv, hm⟩
    · rintro ⟨hl, hm⟩
      cases l with
      | nil => simp at hl
      | cons v vs =>
        obtain ⟨b₁, b₂, rfl, hv, hm⟩ := hm
        exact ⟨b₁, [v], b₂, rfl, ⟨v, rfl, hv⟩, vs, ⟨by simpa using hl, hm⟩, rfl⟩

theorem exact_byte : Exact gr (do let b ← Verif.cur (Cursor.readExact .u8); Pure.pure [b])
    (fun _ b l => ∃ v, l = [v] ∧ IsByte v b) := by
  refine ((exact_readAs .u8 8).cur.map (fun v => [v])).congr fun pos b l => ?_
  constructor
  · rintro ⟨v, ⟨-, -, h, -, h'⟩, rfl⟩
    exact ⟨v, rfl, by omega, h'⟩
  · rintro ⟨v, rfl, h, h'⟩
    exact ⟨v, ⟨by omega, by omega, by omega, by simp only [IntTy.max]; omega, h'⟩, rfl⟩

/-- A count, followed by as many things. -/
theorem count_iff (pf : Profile) {n : U64} {l : List U64} {b : List Bool} (hl : l.length = n.toNat) :
    (IsVbr pf 6 n b ∧ n.toNat < 2 ^ 60) ↔ IsCount pf l.length b := by
  have : BitVec.ofNat 64 l.length = n := by rw [hl]; simp
  unfold IsCount
  rw [this, hl, and_comm]

theorem count_toNat {n : Nat} (h : n < 2 ^ 60) : (BitVec.ofNat 64 n).toNat = n := by
  rw [BitVec.toNat_ofNat]; exact Nat.mod_eq_of_lt (by omega)

theorem exact_array (pf : Profile) (e : Elem) :
    Exact gr ((AbbrevOp.array e.op).parse pf) (fun pos b l => (Tail.array e).IsVal pf gr.pad pos l b) := by
  simp only [AbbrevOp.parse]
  refine ((exact_readVbr pf 6).cur.bind fun n => (exact_withCapacity n).bind fun _ => exact_repeat (exact_elem pf e) n.toNat).congr
    fun pos b l => ?_
  constructor
  · rintro ⟨b₁, n, b₂, rfl, ⟨-, -, hn⟩, b₃, _, b₄, rfl, ⟨rfl, hc⟩, hl, hm⟩
    exact ⟨b₁, b₄, by simp, (count_iff pf hl).1 ⟨hn, hc⟩, hm⟩
  · rintro ⟨b₁, b₂, rfl, ⟨hc, hn⟩, hm⟩
    have := count_toNat hc
    exact ⟨b₁, _, b₂, rfl, ⟨by omega, by omega, hn⟩, [], (), b₂, rfl, ⟨rfl, by rw [this]; exact hc⟩, this.symm, hm⟩

theorem exact_blob (pf : Profile) :
    Exact gr (AbbrevOp.blob.parse pf) (fun pos b l => Tail.blob.IsVal pf gr.pad pos l b) := by
  simp only [AbbrevOp.parse]
  refine ((exact_readVbr pf 6).cur.bind fun n => exact_align.bind fun _ => (exact_withCapacity n).bind fun _ =>
    (exact_repeat exact_byte n.toNat).bind fun fields => exact_align.map fun _ => fields).congr fun pos b l => ?_
  constructor
  · rintro ⟨b₁, n, b₂, rfl, ⟨-, -, hn⟩, p, _, b₃, rfl, hp, b₄, _, b₅, rfl, ⟨rfl, hc⟩, bs, vs, q, rfl, ⟨hl, hm⟩, _, hq, rfl⟩
    refine ⟨b₁, p, bs, q, by simp, (count_iff pf hl).1 ⟨hn, hc⟩, hp, hm, ?_⟩
    simpa using hq
  · rintro ⟨b₁, p, bs, q, rfl, ⟨hc, hn⟩, hp, hm, hq⟩
    have := count_toNat hc
    exact ⟨b₁, _, _, rfl, ⟨by omega, by omega, hn⟩, p, (), _, rfl, hp, [], (), _, rfl, ⟨rfl, by rw [this]; exact hc⟩, bs, l, q, rfl,
      ⟨this.symm, hm⟩, (), by simpa using hq, rfl⟩

theorem exact_vals (pf : Profile) (t : Tail) (ss : List Scalar) :
    Exact gr (parseFields pf (ss.map Scalar.op ++ t.ops)) (fun pos b l => IsVals pf gr.pad t pos ss l b) := by
  induction ss with
  | nil =>
    have one : ∀ (op : AbbrevOp) (F : Lang (List U64)), Exact gr (op.parse pf) F → Exact gr (parseFields pf [op]) F := by
      intro op F h
      refine (h.bind fun xs => (exact_pure ([] : List U64)).map fun ys => xs ++ ys).congr fun pos b l => ?_
      constructor
      · rintro ⟨b₁, x, b₂, rfl, h₁, y, ⟨rfl, rfl⟩, rfl⟩
        simpa using h₁
      · exact fun h => ⟨b, l, [], by simp, h, [], ⟨rfl, rfl⟩, by simp⟩
    cases t with
    | nothing =>
      refine (exact_pure []).congr fun pos b l => ?_
      exact and_comm
    | array e => exact one _ _ (exact_array pf e)
    | blob => exact one _ _ (exact_blob pf)
  | cons s ss ih =>
    have hs : Exact gr (s.op.parse pf) (fun _ b l => ∃ v, l = [v] ∧ s.IsVal pf v b) := by
      cases s with
      | lit v =>
        refine (exact_pure [v]).congr fun pos b l => ?_
        constructor
        · rintro ⟨rfl, rfl⟩
          exact ⟨v, rfl, rfl, rfl⟩
        · rintro ⟨_, rfl, rfl, rfl⟩
          exact ⟨rfl, rfl⟩
      | enc e => exact exact_elem pf e
    refine (hs.bind fun xs => ih.map fun ys => xs ++ ys).congr fun pos b l => ?_
    constructor
    · rintro ⟨b₁, xs, b₂, rfl, ⟨v, rfl, hv⟩, ys, h, rfl⟩
      exact ⟨b₁, b₂, rfl, hv, h⟩
    · intro h
      cases l with
      | nil => exact h.elim
      | cons v vs =>
        obtain ⟨b₁, b₂, rfl, hv, h⟩ := h
        exact ⟨b₁, [v], b₂, rfl, ⟨v, rfl, hv⟩, vs, h, rfl⟩

theorem exact_abbrevParse (pf : Profile) (d : Def) :
    Exact gr (d.abbrev.parse pf) (fun pos b l => IsVals pf gr.pad d.tail pos d.scalars l b) := exact_vals pf d.tail d.scalars

/-- The operands of an unabbreviated record. -/
theorem exact_vbr6s (pf : Profile) (n : Nat) :
    Exact gr (Parser.readVbr6s pf n) (fun _ b l => l.length = n ∧ Many (IsVbr pf 6) l b) := by
  induction n with
  | zero =>
    refine (exact_pure []).congr fun pos b l => ?_
    constructor
    · rintro ⟨rfl, rfl⟩
      exact ⟨rfl, rfl⟩
    · rintro ⟨hl, hm⟩
      obtain rfl := List.length_eq_zero_iff.1 hl
      exact ⟨hm, rfl⟩
  | succ n ih =>
    refine ((exact_readVbr pf 6).cur.bind fun x => ih.map fun xs => x :: xs).congr fun pos b l => ?_
    constructor
    · rintro ⟨b₁, x, b₂, rfl, ⟨-, -, hx⟩, xs, ⟨rfl, hm⟩, rfl⟩
      exact ⟨by simp, b₁, b₂, rfl, hx, hm⟩
    · rintro ⟨hl, hm⟩
      cases l with
      | nil => simp at hl
      | cons v vs =>
        obtain ⟨b₁, b₂, rfl, hv, hm⟩ := hm
        exact ⟨b₁, v, b₂, rfl, ⟨by omega, by omega, hv⟩, vs, ⟨by simpa using hl, hm⟩, rfl⟩

/-! ## Definitions -/

/-- The number of an encoding. -/
def encNum : AbbrevOpEnc → Nat
  | .fixed => 1
  | .vbr => 2
  | .array => 3
  | .char6 => 4
  | .blob => 5

theorem exact_tryFrom (v : U64) : Exact gr (AbbrevOpEnc.tryFrom v) (fun _ b x => b = [] ∧ v.toNat = encNum x) := by
  have key : ∀ n : Nat, n < 2 ^ 64 → (v = BitVec.ofNat 64 n ↔ v.toNat = n) := by
    intro n hn
    constructor
    · rintro rfl
      rw [BitVec.toNat_ofNat]; exact Nat.mod_eq_of_lt hn
    · intro h
      apply BitVec.eq_of_toNat_eq
      rw [h, BitVec.toNat_ofNat]; exact (Nat.mod_eq_of_lt hn).symm
  have h1 : v = 1 ↔ v.toNat = 1 := key 1 (by omega)
  have h2 : v = 2 ↔ v.toNat = 2 := key 2 (by omega)
  have h3 : v = 3 ↔ v.toNat = 3 := key 3 (by omega)
  have h4 : v = 4 ↔ v.toNat = 4 := key 4 (by omega)
  have h5 : v = 5 ↔ v.toNat = 5 := key 5 (by omega)
  unfold AbbrevOpEnc.tryFrom
  simp only [h1, h2, h3, h4, h5]
  refine (Exact.ite (fun _ => exact_pure _) fun _ => Exact.ite (fun _ => exact_pure _) fun _ => Exact.ite (fun _ => exact_pure _)
    fun _ => Exact.ite (fun _ => exact_pure _) fun _ => Exact.ite (fun _ => exact_pure _) fun _ => exact_throw _).congr
    fun pos b x => ?_
  repeat' split
  all_goals
    simp only [Lang.pure, Lang.none]
    cases x <;> simp [encNum] <;> omega

theorem exact_subU64 (pf : Profile) (site : PanicSite) (a b : U64) :
    Exact gr (subU64 pf site a b : BM U64) (fun _ bits v => bits = [] ∧ v = a - b ∧ (b.toNat ≤ a.toNat ∨ pf = .release)) := by
  unfold subU64
  by_cases h : b.toNat ≤ a.toNat
  · rw [if_pos h]
    refine (exact_pure _).congr fun pos bits v => ?_
    simp [Lang.pure, h]
  · rw [if_neg h]
    cases pf with
    | debug =>
      refine (exact_panic _).congr fun pos bits v => ?_
      simp [Lang.none, h]
    | release =>
      refine (exact_pure _).congr fun pos bits v => ?_
      simp [Lang.pure]

theorem exact_arrayElem (pf : Profile) :
    Exact gr (parseArrayElem pf) (fun _ b op => ∃ (flag : Bool) (b' : List Bool) (e : Elem), b = flag :: b' ∧ op = e.op ∧ e.IsDef pf b') := by
  unfold parseArrayElem
  refine ((exact_read 1).cur.bind fun _ => (exact_read 3).cur.bind fun v => (exact_tryFrom v).bind
    (G := fun x => match x with
      | .fixed => fun _ b op => ∃ w, (2 ≤ 5 ∧ 5 ≤ 32 ∧ IsVbr pf 5 w b) ∧ op = .fixed w
      | .vbr => fun _ b op => ∃ w, (2 ≤ 5 ∧ 5 ≤ 32 ∧ IsVbr pf 5 w b) ∧ op = .vbr w
      | .char6 => Lang.pure .char6
      | _ => Lang.none) fun x => ?_).congr fun pos b op => ?_
  · cases x with
    | fixed => exact (exact_readVbr pf 5).cur.map _
    | vbr => exact (exact_readVbr pf 5).cur.map _
    | char6 => exact exact_pure _
    | array => exact exact_throw _
    | blob => exact exact_throw _
  · constructor
    · rintro ⟨b₁, f, b₂, rfl, ⟨-, -, -, rfl⟩, b₃, v, b₄, rfl, ⟨-, -, -, rfl⟩, b₅, x, b₆, rfl, ⟨rfl, hx⟩, h⟩
      refine ⟨(f.toNat % 2 == 1), bitsOfNat 3 v.toNat ++ b₆, ?_⟩
      rw [hx]
      cases x with
      | fixed =>
        obtain ⟨w, ⟨-, -, h⟩, rfl⟩ := h
        exact ⟨.fixed w, rfl, rfl, _, rfl, h⟩
      | vbr =>
        obtain ⟨w, ⟨-, -, h⟩, rfl⟩ := h
        exact ⟨.vbr w, rfl, rfl, _, rfl, h⟩
      | char6 =>
        obtain ⟨rfl, rfl⟩ := h
        exact ⟨.char6, rfl, rfl, by simp [Elem.IsDef, encNum]⟩
      | array => exact h.elim
      | blob => exact h.elim
    · rintro ⟨flag, b', e, rfl, rfl, h⟩
      have hf : ∃ f : U64, f.toNat < 2 ^ 1 ∧ [flag] = bitsOfNat 1 f.toNat := by
        cases flag
        · exact ⟨0, by decide, by decide⟩
        · exact ⟨1, by decide, by decide⟩
      obtain ⟨f, hf, hfb⟩ := hf
      cases e with
      | fixed w =>
        obtain ⟨b'', rfl, h⟩ := h
        exact ⟨[flag], f, _, rfl, ⟨by omega, by omega, hf, hfb⟩, bitsOfNat 3 1, 1, b'', rfl, ⟨by omega, by omega, by decide, rfl⟩, [],
          .fixed, b'', rfl, ⟨rfl, rfl⟩, w, ⟨by omega, by omega, h⟩, rfl⟩
      | vbr w =>
        obtain ⟨b'', rfl, h⟩ := h
        exact ⟨[flag], f, _, rfl, ⟨by omega, by omega, hf, hfb⟩, bitsOfNat 3 2, 2, b'', rfl, ⟨by omega, by omega, by decide, rfl⟩, [],
          .vbr, b'', rfl, ⟨rfl, rfl⟩, w, ⟨by omega, by omega, h⟩, rfl⟩
      | char6 =>
        obtain rfl : b' = bitsOfNat 3 4 := h
        exact ⟨[flag], f, _, rfl, ⟨by omega, by omega, hf, hfb⟩, bitsOfNat 3 4, 4, [], rfl, ⟨by omega, by omega, by decide, rfl⟩, [],
          .char6, [], rfl, ⟨rfl, rfl⟩, rfl, rfl⟩

/-- What may follow the flag of an operand that is not a literal, with `rem` operands after it. -/
def IsEncoded (pf : Profile) (rem : Nat) (b : List Bool) (r : AbbrevOp × Bool) : Prop :=
  (∃ e : Elem, r = (e.op, false) ∧ e.IsDef pf b) ∨
  (rem = 1 ∧ ∃ (e : Elem) (flag : Bool) (b' : List Bool), r = (.array e.op, true) ∧ b = bitsOfNat 3 3 ++ flag :: b' ∧ e.IsDef pf b') ∨
  (rem = 0 ∧ r = (.blob, false) ∧ b = bitsOfNat 3 5)

theorem exact_encoded (pf : Profile) (num : U64) (rem : Nat) (hrem : rem + 1 ≤ num.toNat) :
    Exact gr (parseEncodedOperand pf num (num - BitVec.ofNat 64 (rem + 1))) (fun _ b r => IsEncoded pf rem b r) := by
  have hlt := num.isLt
  have hidx : (num - BitVec.ofNat 64 (rem + 1)).toNat = num.toNat - (rem + 1) := by
    rw [BitVec.toNat_sub_of_le]
    · rw [BitVec.toNat_ofNat, Nat.mod_eq_of_lt (by omega)]
    · rw [BitVec.le_def, BitVec.toNat_ofNat, Nat.mod_eq_of_lt (by omega)]; exact hrem
  have hsub : ∀ k : Nat, k < 2 ^ 64 → k ≤ num.toNat → (num - BitVec.ofNat 64 k).toNat = num.toNat - k := by
    intro k hk hk'
    rw [BitVec.toNat_sub_of_le]
    · rw [BitVec.toNat_ofNat, Nat.mod_eq_of_lt hk]
    · rw [BitVec.le_def, BitVec.toNat_ofNat, Nat.mod_eq_of_lt hk]; exact hk'
  have hpos : ∀ k : Nat, k < 2 ^ 63 → num.toNat < k → num.toNat - (rem + 1) ≠ (num - BitVec.ofNat 64 k).toNat := by
    intro k hk hk'
    rw [BitVec.toNat_sub, BitVec.toNat_ofNat, Nat.mod_eq_of_lt (by omega)]
    rw [Nat.mod_eq_of_lt (by omega)]
    omega
  have harr : (num - BitVec.ofNat 64 (rem + 1) = num - 2 ∧ ((2 : U64).toNat ≤ num.toNat ∨ pf = .release)) ↔ rem = 1 := by
    constructor
    · rintro ⟨h, -⟩
      have h := congrArg BitVec.toNat h
      rw [hidx] at h
      by_cases h2 : 2 ≤ num.toNat
      · have : (num - 2).toNat = num.toNat - 2 := hsub 2 (by omega) h2
        omega
      · exact absurd h (hpos 2 (by omega) (by omega))
    · rintro rfl
      exact ⟨rfl, .inl (by have : (2 : U64).toNat = 2 := rfl; omega)⟩
  have hblob : (num - BitVec.ofNat 64 (rem + 1) = num - 1 ∧ ((1 : U64).toNat ≤ num.toNat ∨ pf = .release)) ↔ rem = 0 := by
    constructor
    · rintro ⟨h, -⟩
      have h := congrArg BitVec.toNat h
      rw [hidx] at h
      have : (num - 1).toNat = num.toNat - 1 := hsub 1 (by omega) (by omega)
      omega
    · rintro rfl
      exact ⟨rfl, .inl (by have : (1 : U64).toNat = 1 := rfl; omega)⟩
  generalize num - BitVec.ofNat 64 (rem + 1) = idx at harr hblob
  unfold parseEncodedOperand
  refine ((exact_read 3).cur.bind fun v => (exact_tryFrom v).bind
    (G := fun x => match x with
      | .fixed => fun _ b r => ∃ w, (2 ≤ 5 ∧ 5 ≤ 32 ∧ IsVbr pf 5 w b) ∧ r = (.fixed w, false)
      | .vbr => fun _ b r => ∃ w, (2 ≤ 5 ∧ 5 ≤ 32 ∧ IsVbr pf 5 w b) ∧ r = (.vbr w, false)
      | .char6 => Lang.pure (.char6, false)
      | .array => fun _ b r => rem = 1 ∧ ∃ op, (∃ (flag : Bool) (b' : List Bool) (e : Elem), b = flag :: b' ∧ op = e.op ∧ e.IsDef pf b') ∧
          r = (.array op, true)
      | .blob => fun _ b r => rem = 0 ∧ b = [] ∧ r = (.blob, false)) fun x => ?_).congr fun pos b r => ?_
  · cases x with
    | fixed => exact (exact_readVbr pf 5).cur.map _
    | vbr => exact (exact_readVbr pf 5).cur.map _
    | char6 => exact exact_pure _
    | array =>
      refine ((exact_subU64 pf _ num 2).bind fun last2 => Exact.ite (fun _ => exact_throw _) fun _ =>
        (exact_arrayElem pf).map _).congr fun pos b r => ?_
      constructor
      · rintro ⟨b₁, x, b₂, rfl, ⟨rfl, rfl, hp⟩, h⟩
        by_cases he : idx ≠ num - 2
        · rw [if_pos he] at h
          exact h.elim
        · rw [if_neg he] at h
          exact ⟨harr.1 ⟨by simpa using he, hp⟩, h⟩
      · rintro ⟨hr, h⟩
        obtain ⟨he, hp⟩ := harr.2 hr
        exact ⟨[], _, b, rfl, ⟨rfl, rfl, hp⟩, by dsimp only; rw [if_neg (by simpa using he)]; exact h⟩
    | blob =>
      refine ((exact_subU64 pf _ num 1).bind fun last => Exact.ite (fun _ => exact_throw _) fun _ =>
        exact_pure _).congr fun pos b r => ?_
      constructor
      · rintro ⟨b₁, x, b₂, rfl, ⟨rfl, rfl, hp⟩, h⟩
        by_cases he : idx ≠ num - 1
        · rw [if_pos he] at h
          exact h.elim
        · rw [if_neg he] at h
          exact ⟨hblob.1 ⟨by simpa using he, hp⟩, h⟩
      · rintro ⟨hr, h⟩
        obtain ⟨he, hp⟩ := hblob.2 hr
        exact ⟨[], _, b, rfl, ⟨rfl, rfl, hp⟩, by dsimp only; rw [if_neg (by simpa using he)]; exact h⟩
  · constructor
    · rintro ⟨b₃, v, b₄, rfl, ⟨-, -, -, rfl⟩, b₅, x, b₆, rfl, ⟨rfl, hx⟩, h⟩
      rw [hx]
      cases x with
      | fixed =>
        obtain ⟨w, ⟨-, -, h⟩, rfl⟩ := h
        exact .inl ⟨.fixed w, rfl, _, rfl, h⟩
      | vbr =>
        obtain ⟨w, ⟨-, -, h⟩, rfl⟩ := h
        exact .inl ⟨.vbr w, rfl, _, rfl, h⟩
      | char6 =>
        obtain ⟨rfl, rfl⟩ := h
        exact .inl ⟨.char6, rfl, by simp [Elem.IsDef, encNum]⟩
      | array =>
        obtain ⟨hr, op, ⟨flag, b', e, rfl, rfl, h⟩, rfl⟩ := h
        exact .inr (.inl ⟨hr, e, flag, b', rfl, rfl, h⟩)
      | blob =>
        obtain ⟨hr, rfl, rfl⟩ := h
        exact .inr (.inr ⟨hr, rfl, by simp [encNum]⟩)
    · rintro (⟨e, rfl, h⟩ | ⟨hr, e, flag, b', rfl, rfl, h⟩ | ⟨hr, rfl, rfl⟩)
      · cases e with
        | fixed w =>
          obtain ⟨b'', rfl, h⟩ := h
          exact ⟨bitsOfNat 3 1, 1, b'', rfl, ⟨by omega, by omega, by decide, rfl⟩, [],
            .fixed, b'', rfl, ⟨rfl, rfl⟩, w, ⟨by omega, by omega, h⟩, rfl⟩
        | vbr w =>
          obtain ⟨b'', rfl, h⟩ := h
          exact ⟨bitsOfNat 3 2, 2, b'', rfl, ⟨by omega, by omega, by decide, rfl⟩, [],
            .vbr, b'', rfl, ⟨rfl, rfl⟩, w, ⟨by omega, by omega, h⟩, rfl⟩
        | char6 =>
          obtain rfl : b = bitsOfNat 3 4 := h
          exact ⟨bitsOfNat 3 4, 4, [], rfl, ⟨by omega, by omega, by decide, rfl⟩, [],
            .char6, [], rfl, ⟨rfl, rfl⟩, rfl, rfl⟩
      · exact ⟨bitsOfNat 3 3, 3, _, rfl, ⟨by omega, by omega, by decide, rfl⟩, [], .array, _, rfl, ⟨rfl, rfl⟩, hr, _,
          ⟨flag, b', e, rfl, rfl, h⟩, rfl⟩
      · exact ⟨bitsOfNat 3 5, 5, [], by simp, ⟨by omega, by omega, by decide, rfl⟩, [], .blob, [], rfl, ⟨rfl, rfl⟩, hr, rfl, rfl⟩

/-- `n` operands of a definition. -/
def IsOps (pf : Profile) (n : Nat) (b : List Bool) (ops : List AbbrevOp) : Prop :=
  ∃ (ss : List Scalar) (t : Tail) (s tb : List Bool), b = s ++ tb ∧ ops = ss.map Scalar.op ++ t.ops ∧
    Many (Scalar.IsDef pf) ss s ∧ t.IsDef pf tb ∧ ss.length + t.numOps = n

theorem exact_operands (pf : Profile) (num : U64) (n : Nat) (hn : n ≤ num.toNat) :
    Exact gr (parseOperands pf num n) (fun _ b ops => IsOps pf n b ops) := by
  induction n with
  | zero =>
    refine (exact_pure []).congr fun pos b ops => ?_
    constructor
    · rintro ⟨rfl, rfl⟩
      exact ⟨[], .nothing, [], [], rfl, rfl, rfl, rfl, rfl⟩
    · rintro ⟨ss, t, s, tb, rfl, rfl, hs, ht, hl⟩
      have hss : ss.length = 0 := by omega
      obtain rfl := List.length_eq_zero_iff.1 hss
      cases t with
      | nothing => exact ⟨by rw [show s = [] from hs, show tb = [] from ht]; rfl, rfl⟩
      | array => simp [Tail.numOps] at hl
      | blob => simp [Tail.numOps] at hl
  | succ n ih =>
    have ih := ih (by omega)
    simp only [parseOperands]
    refine ((exact_read 1).cur.bind fun kind => Exact.ite
      (fun _ => (exact_readVbr pf 8).cur.bind fun val => ih.map fun ops => .literal val :: ops)
      (fun _ => (exact_encoded pf num n hn).bind (G := fun r => fun pos b ops =>
          if r.2 = true then Lang.pure [r.1] pos b ops else ∃ ops', IsOps pf n b ops' ∧ ops = r.1 :: ops') fun r => ?_)).congr
      fun pos b ops => ?_
    · cases r with
      | mk op d =>
        cases d with
        | true => exact exact_pure _
        | false => exact ih.map _
    · constructor
      · rintro ⟨b₁, kind, b₂, rfl, ⟨-, -, hk, rfl⟩, h⟩
        by_cases h1 : kind = 1
        · subst h1
          rw [if_pos rfl] at h
          obtain ⟨b₃, val, b₄, rfl, ⟨-, -, hv⟩, ops', ⟨ss, t, s, tb, rfl, rfl, hs, ht, hl⟩, rfl⟩ := h
          exact ⟨.lit val :: ss, t, true :: b₃ ++ s, tb, by simp [bitsOfNat], rfl, ⟨true :: b₃, s, rfl, ⟨b₃, rfl, hv⟩, hs⟩, ht,
            by simp only [List.length_cons]; omega⟩
        · rw [if_neg h1] at h
          have hk0 : kind.toNat = 0 := by
            rcases Nat.lt_or_ge kind.toNat 1 with h | h
            · omega
            · exact absurd (BitVec.eq_of_toNat_eq (show kind.toNat = (1 : U64).toNat by have : (1 : U64).toNat = 1 := rfl; omega)) h1
          rw [hk0]
          obtain ⟨b₃, r, b₄, rfl, hr, h⟩ := h
          rcases hr with ⟨e, rfl, he⟩ | ⟨hrem, e, flag, b', rfl, rfl, he⟩ | ⟨hrem, rfl, rfl⟩
          · obtain ⟨ops', ⟨ss, t, s, tb, rfl, rfl, hs, ht, hl⟩, rfl⟩ := h
            exact ⟨.enc e :: ss, t, false :: b₃ ++ s, tb, by simp [bitsOfNat], rfl, ⟨false :: b₃, s, rfl, ⟨b₃, rfl, he⟩, hs⟩, ht,
              by simp only [List.length_cons]; omega⟩
          · obtain ⟨rfl, rfl⟩ := h
            exact ⟨[], .array e, [], _, rfl, rfl, rfl, ⟨flag, b', by simp [bitsOfNat], he⟩, by simp [Tail.numOps, hrem]⟩
          · subst hrem
            obtain ⟨ops', ⟨ss, t, s, tb, rfl, rfl, hs, ht, hl⟩, rfl⟩ := h
            have hss : ss.length = 0 := by omega
            obtain rfl := List.length_eq_zero_iff.1 hss
            cases t with
            | nothing =>
              obtain rfl : s = [] := hs
              obtain rfl : tb = [] := ht
              exact ⟨[], .blob, [], _, rfl, rfl, rfl, by simp [bitsOfNat, Tail.IsDef], rfl⟩
            | array => simp [Tail.numOps] at hl
            | blob => simp [Tail.numOps] at hl
      · rintro ⟨ss, t, s, tb, rfl, rfl, hs, ht, hl⟩
        have h01 : (0 : U64) ≠ 1 := by decide
        cases ss with
        | nil =>
          obtain rfl : s = [] := hs
          cases t with
          | nothing => simp [Tail.numOps] at hl
          | array e =>
            obtain ⟨flag, b', rfl, he⟩ := ht
            have hn1 : n = 1 := by simp [Tail.numOps] at hl; omega
            refine ⟨[false], 0, _, rfl, ⟨by omega, by omega, by decide, rfl⟩, ?_⟩
            dsimp only
            rw [if_neg h01]
            exact ⟨_, (.array e.op, true), [], by simp [bitsOfNat], .inr (.inl ⟨hn1, e, flag, b', rfl, rfl, he⟩), rfl, rfl⟩
          | blob =>
            obtain rfl : tb = false :: bitsOfNat 3 5 := ht
            have hn0 : n = 0 := by simp [Tail.numOps] at hl; omega
            refine ⟨[false], 0, _, rfl, ⟨by omega, by omega, by decide, rfl⟩, ?_⟩
            dsimp only
            rw [if_neg h01]
            exact ⟨_, (.blob, false), [], by simp [bitsOfNat], .inr (.inr ⟨hn0, rfl, rfl⟩), [],
              ⟨[], .nothing, [], [], rfl, rfl, rfl, rfl, by simp [Tail.numOps, hn0]⟩, rfl⟩
        | cons sc ss =>
          obtain ⟨s₁, s₂, rfl, hsc, hs⟩ := hs
          have hl' : ss.length + t.numOps = n := by simp at hl; omega
          cases sc with
          | lit v =>
            obtain ⟨b', rfl, hv⟩ := hsc
            refine ⟨[true], 1, b' ++ s₂ ++ tb, by simp, ⟨by omega, by omega, by decide, rfl⟩, ?_⟩
            dsimp only
            rw [if_pos rfl]
            exact ⟨b', v, s₂ ++ tb, by simp, ⟨by omega, by omega, hv⟩, _, ⟨ss, t, s₂, tb, rfl, rfl, hs, ht, hl'⟩, rfl⟩
          | enc e =>
            obtain ⟨b', rfl, hv⟩ := hsc
            refine ⟨[false], 0, b' ++ s₂ ++ tb, by simp, ⟨by omega, by omega, by decide, rfl⟩, ?_⟩
            dsimp only
            rw [if_neg h01]
            exact ⟨b', (e.op, false), s₂ ++ tb, by simp, .inl ⟨e, rfl, hv⟩, _, ⟨ss, t, s₂, tb, rfl, rfl, hs, ht, hl'⟩, rfl⟩

theorem exact_abbrevNew (pf : Profile) :
    Exact gr (Abbrev.new pf) (fun _ b a => ∃ d : Def, a = d.abbrev ∧ d.IsDef pf b) := by
  unfold Abbrev.new
  refine ((exact_readVbr pf 5).cur.bind fun num => Exact.ite (fun _ => exact_throw _) fun _ =>
    (exact_operands pf num num.toNat (Nat.le_refl _)).map fun ops => ({ operands := ops } : Abbrev)).congr fun pos b a => ?_
  have hnum : ∀ num : U64, num < 1 ↔ num.toNat = 0 := by
    intro num
    rw [BitVec.lt_def]
    have : (1 : U64).toNat = 1 := rfl
    omega
  constructor
  · rintro ⟨b₁, num, b₂, rfl, ⟨-, -, hv⟩, h⟩
    by_cases h0 : num < 1
    · rw [if_pos h0] at h
      exact h.elim
    · rw [if_neg h0] at h
      rw [hnum] at h0
      obtain ⟨ops, ⟨ss, t, s, tb, rfl, rfl, hs, ht, hl⟩, rfl⟩ := h
      have hl' : (Def.mk ss t).numOps = num.toNat := hl
      refine ⟨⟨ss, t⟩, rfl, ⟨by omega, by have := num.isLt; omega⟩, b₁, s, tb, rfl, ?_, hs, ht⟩
      rw [hl']
      simpa using hv
  · rintro ⟨d, rfl, ⟨hd1, hd2⟩, n, s, t, rfl, hn, hs, ht⟩
    have hto : (BitVec.ofNat 64 d.numOps).toNat = d.numOps := by
      rw [BitVec.toNat_ofNat]; exact Nat.mod_eq_of_lt hd2
    refine ⟨n, BitVec.ofNat 64 d.numOps, s ++ t, rfl, ⟨by omega, by omega, hn⟩, ?_⟩
    dsimp only
    rw [if_neg (by rw [hnum, hto]; omega)]
    exact ⟨_, ⟨d.scalars, d.tail, s, t, rfl, rfl, hs, ht, hto.symm⟩, rfl⟩

end Verif
