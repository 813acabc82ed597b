import Verif.Support.Text

/-! UTF-8, as checked by `String::from_utf8` / `str::from_utf8` of the Rust standard library, which
`llvm-mapper/src/unroll.rs:48`, `llvm-mapper/src/block/strtab.rs:87` and `llvm-mapper/src/block/attributes.rs` call.
The encoding is the specification (RFC 3629); the decoder is the model; they are proved to agree below. -/

namespace Verif

namespace Spec

/-- RFC 3629, section 3: the bytes of one character, as numbers. -/
def utf8Char (v : Nat) : List Nat :=
  if v < 0x80 then [v]
  else if v < 0x800 then [0xC0 + v / 64, 0x80 + v % 64]
  else if v < 0x10000 then [0xE0 + v / 4096, 0x80 + v / 64 % 64, 0x80 + v % 64]
  else [0xF0 + v / 262144, 0x80 + v / 4096 % 64, 0x80 + v / 64 % 64, 0x80 + v % 64]

/-- The UTF-8 bytes of a text. -/
def utf8 (cs : Str) : List U8 := cs.flatMap fun c => (utf8Char c.toNat).map (BitVec.ofNat 8)

end Spec

/-- The character with a given scalar value. -/
def charOf (n : Nat) : Option Char := if n.isValidChar then some (Char.ofNat n) else none

/-- A continuation byte `10xxxxxx`. -/
def isCont (b : U8) : Bool := 0x80 ≤ b.toNat && b.toNat < 0xC0

/-- The standard library's `from_utf8`, as a function on bytes: decodes one character after the other and rejects
overlong forms, surrogates, values over 0x10FFFF, stray continuation bytes and truncated sequences. -/
def utf8Decode : List U8 → Option Str
  | [] => some []
  | b0 :: rest =>
    if b0.toNat < 0x80 then do
      let c ← charOf b0.toNat
      let cs ← utf8Decode rest
      some (c :: cs)
    else match rest with
    | [] => none
    | b1 :: rest =>
      if 0xC0 ≤ b0.toNat ∧ b0.toNat < 0xE0 ∧ isCont b1 then
        let v := (b0.toNat - 0xC0) * 64 + (b1.toNat - 0x80)
        if v < 0x80 then none
        else do
          let c ← charOf v
          let cs ← utf8Decode rest
          some (c :: cs)
      else match rest with
      | [] => none
      | b2 :: rest =>
        if 0xE0 ≤ b0.toNat ∧ b0.toNat < 0xF0 ∧ isCont b1 ∧ isCont b2 then
          let v := (b0.toNat - 0xE0) * 4096 + (b1.toNat - 0x80) * 64 + (b2.toNat - 0x80)
          if v < 0x800 then none
          else do
            let c ← charOf v
            let cs ← utf8Decode rest
            some (c :: cs)
        else match rest with
        | [] => none
        | b3 :: rest =>
          if 0xF0 ≤ b0.toNat ∧ b0.toNat < 0xF8 ∧ isCont b1 ∧ isCont b2 ∧ isCont b3 then
            let v := (b0.toNat - 0xF0) * 262144 + (b1.toNat - 0x80) * 4096 + (b2.toNat - 0x80) * 64 + (b3.toNat - 0x80)
            if v < 0x10000 then none
            else do
              let c ← charOf v
              let cs ← utf8Decode rest
              some (c :: cs)
          else none

theorem charOf_eq_some {n : Nat} {c : Char} : charOf n = some c ↔ c.toNat = n := by
  unfold charOf
  constructor
  · intro h
    split at h
    · next hv => simp at h; subst h; simp [Char.ofNat, hv, Char.ofNatAux, Char.toNat]
    · simp at h
  · intro h
    subst h
    have : c.toNat.isValidChar := c.valid
    rw [if_pos this]; simp

theorem ofNat_toNat8 (b : U8) : BitVec.ofNat 8 b.toNat = b := by simp

theorem utf8Decode_sound {bs : List U8} {cs : Str} (h : utf8Decode bs = some cs) : Spec.utf8 cs = bs := by
  fun_induction utf8Decode bs generalizing cs <;>
    simp only [Option.bind_eq_bind, Option.bind_eq_some_iff, Option.some.injEq, reduceCtorEq] at h
  case case1 => subst h; rfl
  case case2 b0 rest h0 ih =>
    obtain ⟨c, hc, ds, hd, rfl⟩ := h
    rw [charOf_eq_some] at hc
    show (Spec.utf8Char c.toNat).map (BitVec.ofNat 8) ++ Spec.utf8 ds = _
    rw [ih hd, hc]
    simp [Spec.utf8Char, h0]
  case case5 b0 h0 b1 rest h1 v hv ih =>
    obtain ⟨c, hc, ds, hd, rfl⟩ := h
    rw [charOf_eq_some] at hc
    show (Spec.utf8Char c.toNat).map (BitVec.ofNat 8) ++ Spec.utf8 ds = _
    have hlt := b0.isLt
    simp [isCont] at h1
    rw [ih hd, hc]
    simp only [Spec.utf8Char]
    rw [if_neg (by omega), if_pos (by omega)]
    simp
    constructor <;> refine BitVec.eq_of_toNat_eq ?_ <;> simp <;> omega
  case case8 b0 h0 b1 _ b2 rest h1 v hv ih =>
    obtain ⟨c, hc, ds, hd, rfl⟩ := h
    rw [charOf_eq_some] at hc
    show (Spec.utf8Char c.toNat).map (BitVec.ofNat 8) ++ Spec.utf8 ds = _
    have hlt := b0.isLt
    simp [isCont] at h1
    rw [ih hd, hc]
    simp only [Spec.utf8Char]
    rw [if_neg (by omega), if_neg (by omega), if_pos (by omega)]
    simp
    refine ⟨?_, ?_, ?_⟩ <;> refine BitVec.eq_of_toNat_eq ?_ <;> simp <;> omega
  case case11 b0 h0 b1 _ b2 _ b3 rest h1 v hv ih =>
    obtain ⟨c, hc, ds, hd, rfl⟩ := h
    rw [charOf_eq_some] at hc
    show (Spec.utf8Char c.toNat).map (BitVec.ofNat 8) ++ Spec.utf8 ds = _
    have hlt := b0.isLt
    simp [isCont] at h1
    rw [ih hd, hc]
    simp only [Spec.utf8Char]
    rw [if_neg (by omega), if_neg (by omega), if_neg (by omega)]
    simp
    refine ⟨?_, ?_, ?_, ?_⟩ <;> refine BitVec.eq_of_toNat_eq ?_ <;> simp <;> omega

theorem utf8Decode_complete (cs : Str) : utf8Decode (Spec.utf8 cs) = some cs := by
  induction cs with
  | nil => rfl
  | cons c cs ih =>
    show utf8Decode ((Spec.utf8Char c.toNat).map (BitVec.ofNat 8) ++ Spec.utf8 cs) = _
    have hc : charOf c.toNat = some c := charOf_eq_some.2 rfl
    have hv : c.toNat < 0x110000 := by
      have : c.toNat.isValidChar := c.valid
      rcases this with h | h <;> omega
    generalize hn : c.toNat = n at *
    unfold Spec.utf8Char
    split
    · next h0 =>
      simp only [List.map_cons, List.map_nil, List.cons_append, List.nil_append]
      rw [utf8Decode.eq_def]; dsimp only; rw [if_pos (by simp; omega)]
      rw [show (BitVec.ofNat 8 n).toNat = n by simp; omega, hc, ih]; rfl
    · split
      · next h0 h1 =>
        simp only [List.map_cons, List.map_nil, List.cons_append, List.nil_append]
        rw [utf8Decode.eq_def]; dsimp only; rw [if_neg (by simp; omega)]
        have e0 : (BitVec.ofNat 8 (0xC0 + n / 64)).toNat = 0xC0 + n / 64 := by simp; omega
        have e1 : (BitVec.ofNat 8 (0x80 + n % 64)).toNat = 0x80 + n % 64 := by simp; omega
        rw [if_pos (by simp only [isCont, e0, e1]; simp; omega)]
        simp only [e0, e1]
        rw [if_neg (by omega), show (0xC0 + n / 64 - 0xC0) * 64 + (0x80 + n % 64 - 0x80) = n by omega, hc, ih]; rfl
      · split
        · next h0 h1 h2 =>
          simp only [List.map_cons, List.map_nil, List.cons_append, List.nil_append]
          rw [utf8Decode.eq_def]; dsimp only; rw [if_neg (by simp; omega)]
          have e0 : (BitVec.ofNat 8 (0xE0 + n / 4096)).toNat = 0xE0 + n / 4096 := by simp; omega
          have e1 : (BitVec.ofNat 8 (0x80 + n / 64 % 64)).toNat = 0x80 + n / 64 % 64 := by simp; omega
          have e2 : (BitVec.ofNat 8 (0x80 + n % 64)).toNat = 0x80 + n % 64 := by simp; omega
          rw [if_neg (by simp only [e0]; omega), if_pos (by simp only [isCont, e0, e1, e2]; simp; omega)]
          simp only [e0, e1, e2]
          rw [if_neg (by omega), show (0xE0 + n / 4096 - 0xE0) * 4096 + (0x80 + n / 64 % 64 - 0x80) * 64 +
            (0x80 + n % 64 - 0x80) = n by omega, hc, ih]; rfl
        · next h0 h1 h2 =>
          simp only [List.map_cons, List.map_nil, List.cons_append, List.nil_append]
          rw [utf8Decode.eq_def]; dsimp only; rw [if_neg (by simp; omega)]
          have e0 : (BitVec.ofNat 8 (0xF0 + n / 262144)).toNat = 0xF0 + n / 262144 := by simp; omega
          have e1 : (BitVec.ofNat 8 (0x80 + n / 4096 % 64)).toNat = 0x80 + n / 4096 % 64 := by simp; omega
          have e2 : (BitVec.ofNat 8 (0x80 + n / 64 % 64)).toNat = 0x80 + n / 64 % 64 := by simp; omega
          have e3 : (BitVec.ofNat 8 (0x80 + n % 64)).toNat = 0x80 + n % 64 := by simp; omega
          rw [if_neg (by simp only [e0]; omega), if_neg (by simp only [e0]; omega),
            if_pos (by simp only [isCont, e0, e1, e2, e3]; simp; omega)]
          simp only [e0, e1, e2, e3]
          rw [if_neg (by omega), show (0xF0 + n / 262144 - 0xF0) * 262144 + (0x80 + n / 4096 % 64 - 0x80) * 4096 +
            (0x80 + n / 64 % 64 - 0x80) * 64 + (0x80 + n % 64 - 0x80) = n by omega, hc, ih]; rfl

/-- Decoding succeeds exactly on the encodings of texts, and gives the text back. -/
theorem utf8Decode_eq_some {bs : List U8} {cs : Str} : utf8Decode bs = some cs ↔ Spec.utf8 cs = bs :=
  ⟨utf8Decode_sound, fun h => h ▸ utf8Decode_complete cs⟩

theorem utf8_append (a b : Str) : Spec.utf8 (a ++ b) = Spec.utf8 a ++ Spec.utf8 b := by
  simp [Spec.utf8]

/-- The specification's encoder is Lean's own. -/
theorem utf8Char_eq_core (c : Char) :
    (Spec.utf8Char c.toNat).map (BitVec.ofNat 8) = (String.utf8EncodeChar c).map UInt8.toBitVec := by
  have hv : c.toNat < 0x110000 := by
    have : c.toNat.isValidChar := c.valid
    rcases this with h | h <;> omega
  unfold String.utf8EncodeChar Spec.utf8Char
  change c.val.toNat < 0x110000 at hv
  rw [show c.toNat = c.val.toNat from rfl]
  generalize c.val.toNat = n at *
  dsimp only
  have ext : ∀ a b : Nat, a = b → BitVec.ofNat 8 a = (UInt8.ofNat b).toBitVec := by
    rintro a _ rfl; rfl
  by_cases h0 : n < 0x80
  · rw [if_pos h0, if_pos (show n ≤ 127 by omega)]; simp only [List.map_cons, List.map_nil]
    rw [ext _ _ rfl]
  rw [if_neg h0, if_neg (show ¬ n ≤ 127 by omega)]
  by_cases h1 : n < 0x800
  · rw [if_pos h1, if_pos (show n ≤ 2047 by omega)]; simp only [List.map_cons, List.map_nil]
    rw [ext _ _ (show 0xC0 + n / 64 = n / 64 % 32 + 192 by omega), ext _ _ (show 0x80 + n % 64 = n % 64 + 128 by omega)]
  rw [if_neg h1, if_neg (show ¬ n ≤ 2047 by omega)]
  by_cases h2 : n < 0x10000
  · rw [if_pos h2, if_pos (show n ≤ 65535 by omega)]; simp only [List.map_cons, List.map_nil]
    rw [ext _ _ (show 0xE0 + n / 4096 = n / 4096 % 16 + 224 by omega),
      ext _ _ (show 0x80 + n / 64 % 64 = n / 64 % 64 + 128 by omega),
      ext _ _ (show 0x80 + n % 64 = n % 64 + 128 by omega)]
  rw [if_neg h2, if_neg (show ¬ n ≤ 65535 by omega)]; simp only [List.map_cons, List.map_nil]
  rw [ext _ _ (show 0xF0 + n / 262144 = n / 262144 % 8 + 240 by omega),
    ext _ _ (show 0x80 + n / 4096 % 64 = n / 4096 % 64 + 128 by omega),
    ext _ _ (show 0x80 + n / 64 % 64 = n / 64 % 64 + 128 by omega),
    ext _ _ (show 0x80 + n % 64 = n % 64 + 128 by omega)]

/-- "é€😀" has two, three and four bytes. An overlong form, a surrogate and a truncated character are rejected. -/
example : utf8Decode (Spec.utf8 "aé€😀".toList) = some "aé€😀".toList := by decide +kernel

example : utf8Decode [0xC0, 0x80] = none ∧ utf8Decode [0xED, 0xA0, 0x80] = none ∧ utf8Decode [0xE2, 0x82] = none ∧
    utf8Decode [0xF4, 0x90, 0x80, 0x80] = none ∧ utf8Decode [0x80] = none := by decide +kernel

end Verif
