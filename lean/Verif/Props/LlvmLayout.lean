import Verif.Props.Layout
import Verif.Props.DataLayout
import Verif.Mapper.LlvmLayoutSpec

/-!
# C93: datalayouts that LLVM allows
-/

namespace Verif.Props

open Spec DataLayout

namespace LlvmSpec

/-- The exponent of an alignment. -/
def lg (n : Nat) : Nat := Nat.log2 (n / 8)

theorem lg_bits (k : Nat) : lg (8 * 2 ^ k) = k := by
  rw [lg, Nat.mul_div_cancel_left _ (by decide), Nat.log2_two_pow]

theorem lg_align {n : Nat} (h : Spec.LlvmSpec.IsAlign n) : 8 * 2 ^ lg n = n ∧ lg n < 29 := by
  obtain ⟨k, rfl, hk⟩ := h
  rw [lg_bits]; exact ⟨rfl, hk⟩

theorem lg_type {n : Nat} (h : Spec.LlvmSpec.IsTypeAlign n) : 8 * 2 ^ lg n = n ∧ lg n ≤ 15 := by
  obtain ⟨k, rfl, hk⟩ := h
  rw [lg_bits]; exact ⟨rfl, hk⟩

theorem lg_mono {n m : Nat} (hn : 8 * 2 ^ lg n = n) (hm : 8 * 2 ^ lg m = m) (h : n ≤ m) : lg n ≤ lg m := by
  rw [← hn, ← hm] at h
  exact (Nat.pow_le_pow_iff_right (by decide)).1 (Nat.le_of_mul_le_mul_left h (by decide))

/-- The mangling of a letter. -/
def style : Char → Mangling
  | 'e' => .elf | 'm' => .mips | 'o' => .macho | 'x' => .windowsX86Coff | 'w' => .windowsCoff | _ => .xCoff

/-- A spec of the manual in the terms of C38. -/
def ours : Spec.LlvmSpec → LSpec
  | .little => .little
  | .big => .big
  | .stack a => .stack (lg a)
  | .program n => .program n
  | .globals n => .global n
  | .alloca n => .alloca n
  | .pointer n size abi none => .pointer n size (lg abi)
  | .pointer n size abi (some (pref, none)) => .pointerPref n size (lg abi) (lg pref)
  | .pointer n size abi (some (pref, some idx)) => .pointerIndex n size (lg abi) (lg pref) idx
  | .integer w abi pref => .integer w (lg abi) (pref.map lg)
  | .vector w abi pref => .vector w (lg abi) (pref.map lg)
  | .float w abi pref => .float w (lg abi) (pref.map lg)
  | .aggregate abi pref => .aggregate (lg abi) (pref.map lg)
  | .functionIndependent a => .functionIndependent (lg a)
  | .functionMultiple a => .functionMultiple (lg a)
  | .mangling c => .mangling (style c)
  | .native w ws => .native w ws
  | .nonIntegral a as => .nonIntegral a as

theorem bits_lg {n : Nat} (h : 8 * 2 ^ lg n = n) : LSpec.bits (lg n) = decimal n := by rw [LSpec.bits, h]

theorem pref_lg {pref : Option Nat} (h : ∀ p, pref = some p → 8 * 2 ^ lg p = p) :
    LSpec.prefText (pref.map lg) = Spec.LlvmSpec.maybe pref := by
  cases pref with
  | none => rfl
  | some p => simp only [Option.map, LSpec.prefText, Spec.LlvmSpec.maybe, bits_lg (h p rfl)]

/-- A usual spec of the manual is a meaningful one in the terms of C38, with the same text. -/
theorem ours_ok {s : Spec.LlvmSpec} (h : s.Allowed) (hu : s.Usual) : (ours s).Ok ∧ (ours s).text = s.text := by
  have sized : ∀ {w abi : Nat} {pref : Option Nat}, (0 < w ∧ w < 2 ^ 24 ∧ Spec.LlvmSpec.IsTypeAlign abi ∧
      ∀ p, pref = some p → Spec.LlvmSpec.IsTypeAlign p ∧ abi ≤ p) →
      (lg abi ≤ (pref.map lg).getD (lg abi) ∧ (pref.map lg).getD (lg abi) ≤ 15) ∧
        LSpec.bits (lg abi) = decimal abi ∧ LSpec.prefText (pref.map lg) = Spec.LlvmSpec.maybe pref := by
    rintro w abi pref ⟨-, -, ha, hp⟩
    refine ⟨?_, bits_lg (lg_type ha).1, pref_lg fun p e => (lg_type (hp p e).1).1⟩
    cases pref with
    | none => exact ⟨Nat.le_refl _, (lg_type ha).2⟩
    | some p => exact ⟨lg_mono (lg_type ha).1 (lg_type (hp p rfl).1).1 (hp p rfl).2, (lg_type (hp p rfl).1).2⟩
  cases s with
  | little => exact ⟨trivial, rfl⟩
  | big => exact ⟨trivial, rfl⟩
  | stack a =>
    have ha := lg_align (h.resolve_left hu)
    exact ⟨show lg a ≤ 60 by omega, by simp only [ours, LSpec.text, Spec.LlvmSpec.text, bits_lg ha.1]⟩
  | program n => exact ⟨hu, rfl⟩
  | globals n => exact ⟨hu, rfl⟩
  | alloca n => exact ⟨hu, rfl⟩
  | pointer n size abi more =>
    obtain ⟨-, h1, h2, h3, ha, hm⟩ := h
    have ha := lg_align ha
    have hu : n.getD 0 < 2 ^ 23 := hu
    match more with
    | none =>
      refine ⟨⟨hu, by omega, by omega⟩, ?_⟩
      cases n <;> simp only [ours, LSpec.text, Spec.LlvmSpec.text, bits_lg ha.1] <;> rfl
    | some (pref, none) =>
      obtain ⟨hp, hle, -⟩ := hm pref none rfl
      have hp := lg_align hp
      refine ⟨⟨hu, by omega, by omega, lg_mono ha.1 hp.1 hle, by omega⟩, ?_⟩
      cases n <;> simp only [ours, LSpec.text, Spec.LlvmSpec.text, bits_lg ha.1, bits_lg hp.1] <;> rfl
    | some (pref, some idx) =>
      obtain ⟨hp, hle, hi⟩ := hm pref (some idx) rfl
      have hp := lg_align hp
      have := hi idx rfl
      refine ⟨⟨hu, by omega, by omega, lg_mono ha.1 hp.1 hle, by omega, by omega⟩, ?_⟩
      cases n <;> simp only [ours, LSpec.text, Spec.LlvmSpec.text, bits_lg ha.1, bits_lg hp.1] <;> rfl
  | integer w abi pref =>
    obtain ⟨h1, h2, h3⟩ := sized h
    exact ⟨⟨h.1, hu, h1⟩, by simp only [ours, LSpec.text, Spec.LlvmSpec.text, h2, h3]; rfl⟩
  | vector w abi pref =>
    obtain ⟨h1, h2, h3⟩ := sized h
    exact ⟨⟨h.1, hu, h1⟩, by simp only [ours, LSpec.text, Spec.LlvmSpec.text, h2, h3]; rfl⟩
  | float w abi pref =>
    obtain ⟨h1, h2, h3⟩ := sized h
    exact ⟨⟨h.1, hu, h1⟩, by simp only [ours, LSpec.text, Spec.LlvmSpec.text, h2, h3]; rfl⟩
  | aggregate abi pref =>
    have hu : abi ≠ 0 := hu
    have hp : ∀ p, pref = some p → Spec.LlvmSpec.IsTypeAlign p ∧ abi ≤ p := fun p e =>
      ⟨(h.2 p e).1.resolve_left (by have := (h.2 p e).2; omega), (h.2 p e).2⟩
    obtain ⟨h1, h2, h3⟩ := sized (w := 1) ⟨by decide, by decide, h.1.resolve_left hu, hp⟩
    exact ⟨h1, by simp only [ours, LSpec.text, Spec.LlvmSpec.text, h2, h3]; rfl⟩
  | functionIndependent a =>
    have ha := lg_align (h.resolve_left hu)
    exact ⟨show lg a ≤ 60 by omega, by simp only [ours, LSpec.text, Spec.LlvmSpec.text, bits_lg ha.1]⟩
  | functionMultiple a =>
    have ha := lg_align (h.resolve_left hu)
    exact ⟨show lg a ≤ 60 by omega, by simp only [ours, LSpec.text, Spec.LlvmSpec.text, bits_lg ha.1]⟩
  | mangling c =>
    refine ⟨trivial, ?_⟩
    have h : c ∈ ['e', 'l', 'm', 'o', 'w', 'x', 'a'] := h
    have hu : c ≠ 'l' := hu
    simp only [List.mem_cons, List.not_mem_nil, or_false] at h
    rcases h with rfl | rfl | rfl | rfl | rfl | rfl | rfl
    · rfl
    · exact absurd rfl hu
    all_goals rfl
  | native w ws => exact ⟨fun x hx => by have := h x hx; omega, rfl⟩
  | nonIntegral a as => exact ⟨fun x hx => ⟨(h x hx).1, hu x hx⟩, rfl⟩

/-! ## What is not accepted -/

theorem numeral_decimal {n : Nat} (h : n < 2 ^ 64) : Numeral (decimal n) n := by
  have h1 := (parseU64_iff _ _).1 (parseU64_decimal n h)
  rw [NumberText, BitVec.toNat_ofNat, Nat.mod_eq_of_lt h] at h1
  exact h1

theorem not_alignText_zero {a : Align} : ¬ AlignText (decimal 0) a := by
  rintro ⟨h, -⟩
  have := numeral_unique h (numeral_decimal (by decide))
  have := Nat.two_pow_pos a.shift.toNat
  omega

theorem spaceText_lt {n : Nat} {a : AddressSpace} (hn : n < 2 ^ 24) (h : SpaceText (decimal n) a) : n < 2 ^ 23 := by
  have := numeral_unique h.1 (numeral_decimal (by omega))
  have := h.2
  omega

theorem no_pointer {c : Char} {t : Str} {s : PointerAlignSpec} (h : PointerText (c :: t) s) : c = 'p' := by
  obtain ⟨_, _, _, _, _, h, -⟩ := h
  exact (List.cons.inj h).1

theorem no_type {c : Char} {t : Str} {s : TypeAlignSpec} (h : TypeText (c :: t) s) : c = 'a' ∨ c = 'i' ∨ c = 'v' ∨ c = 'f' := by
  obtain ⟨_, _, _, h, -⟩ := h
  cases h with
  | aggregate _ => exact .inl rfl
  | sized h _ => exact .inr h

theorem colon_free (n : Nat) : ':' ∉ decimal n := decimal_not_mem n ':' (by decide)

theorem maybe_free (o : Option Nat) : ∀ p ∈ Spec.LlvmSpec.maybe o, ':' ∉ p := by
  intro p hp
  cases o with
  | none => cases hp
  | some n => rw [List.mem_singleton.1 hp]; exact colon_free n

theorem colons_split {ps qs : List Str} (hne : ps ≠ []) (h : ∀ p ∈ ps, ':' ∉ p)
    (hq : Pieces ':' (Spec.LlvmSpec.colons ps) qs) : qs = ps := by
  have h1 := (pieces_iff _ _ _).1 hq
  have h2 := (pieces_iff _ _ _).1 (⟨hne, h, rfl⟩ : Pieces ':' (Spec.LlvmSpec.colons ps) ps)
  rw [← h1, h2]

theorem sized_lt {c : Char} {w abi : Nat} {pref : Option Nat} {s : TypeAlignSpec} (hc : c ≠ 'a') (hw : w < 2 ^ 24)
    (h : TypeText (c :: Spec.LlvmSpec.colons ([decimal w, decimal abi] ++ Spec.LlvmSpec.maybe pref)) s) : w < 2 ^ 23 := by
  obtain ⟨kind, a, p, hp, hk, -⟩ := h
  generalize ht : Spec.LlvmSpec.colons ([decimal w, decimal abi] ++ Spec.LlvmSpec.maybe pref) = t at hp
  cases hp with
  | aggregate => exact absurd rfl hc
  | sized _ hps =>
    rw [← ht] at hps
    have := colons_split (by simp) (by
      intro p hp
      simp only [List.cons_append, List.nil_append, List.mem_cons] at hp
      rcases hp with rfl | rfl | hp
      · exact colon_free _
      · exact colon_free _
      · exact maybe_free _ p hp) hps
    simp only [List.cons_append, List.nil_append, List.cons.injEq] at this
    obtain ⟨rfl, -⟩ := this
    have key : ∀ {x : AlignedTypeWidth}, WidthText (decimal w) x → w < 2 ^ 23 := by
      intro x hx
      have := numeral_unique hx.1 (numeral_decimal (by omega))
      have := hx.2.2
      omega
    generalize s.alignedType = ty at hk
    cases hk with
    | integer h => exact key h
    | vector h => exact key h
    | float h => exact key h

theorem allSay_mem {α : Type} {P : Str → α → Prop} {ss : List Str} {as : List α} (h : AllSay P ss as) {s : Str} (hs : s ∈ ss) :
    ∃ a, P s a := by
  induction h with
  | nil => cases hs
  | cons hp _ ih =>
    rcases List.mem_cons.1 hs with rfl | hs
    · exact ⟨_, hp⟩
    · exact ih hs

theorem usual_of_says {s : Spec.LlvmSpec} (h : s.Allowed) {d d' : DataLayout} (hs : SpecSays s.text d d') : s.Usual := by
  have hnp : ∀ {c : Char} {t : Str} {x : PointerAlignSpec}, c ≠ 'p' → PointerText (c :: t) x → False :=
    fun hc h => hc (no_pointer h)
  have hnt : ∀ {c : Char} {t : Str} {x : TypeAlignSpec}, c ≠ 'a' ∧ c ≠ 'i' ∧ c ≠ 'v' ∧ c ≠ 'f' → TypeText (c :: t) x → False := by
    intro c t x hc h
    rcases no_type h with e | e | e | e
    · exact hc.1 e
    · exact hc.2.1 e
    · exact hc.2.2.1 e
    · exact hc.2.2.2 e
  cases s with
  | little => trivial
  | big => trivial
  | native => trivial
  | stack a =>
    rintro rfl
    cases hs with
    | stack h => exact not_alignText_zero h
    | pointer h _ => exact hnp (by decide) h
    | type h _ => exact hnt (by decide) h
  | program n =>
    cases hs with
    | program h' => exact spaceText_lt h h'
    | pointer h _ => exact (hnp (by decide) h).elim
    | type h _ => exact (hnt (by decide) h).elim
  | globals n =>
    cases hs with
    | globals h' => exact spaceText_lt h h'
    | pointer h _ => exact (hnp (by decide) h).elim
    | type h _ => exact (hnt (by decide) h).elim
  | alloca n =>
    cases hs with
    | alloca h' => exact spaceText_lt h h'
    | pointer h _ => exact (hnp (by decide) h).elim
    | type h _ => exact (hnt (by decide) h).elim
  | pointer n size abi more =>
    cases n with
    | none => show 0 < 2 ^ 23; decide
    | some n =>
      have key : ∀ ps : List Str, (∀ p ∈ ps, ':' ∉ p) →
          SpecSays ('p' :: Spec.LlvmSpec.colons (decimal n :: ps)) d d' → n < 2 ^ 23 := by
        intro ps hps hs
        cases hs with
        | type h _ => exact (hnt (by decide) h).elim
        | pointer hp _ =>
          obtain ⟨t, space, size, abi, more, e, hpc, hsp, -⟩ := hp
          obtain ⟨-, rfl⟩ := List.cons.inj e
          have := colons_split (by simp) (by
            intro p hp
            rcases List.mem_cons.1 hp with rfl | hp
            · exact colon_free _
            · exact hps p hp) hpc
          obtain ⟨rfl, -⟩ := List.cons.inj this
          rcases hsp with ⟨e, -⟩ | ⟨-, h'⟩
          · exact absurd e (decimal_ne_nil n)
          · exact spaceText_lt h.1 h'
      cases more with
      | none =>
        refine key [decimal size, decimal abi] ?_ hs
        intro p hp
        simp only [List.mem_cons, List.not_mem_nil, or_false] at hp
        rcases hp with rfl | rfl <;> exact colon_free _
      | some m =>
        refine key ([decimal size, decimal abi, decimal m.1] ++ Spec.LlvmSpec.maybe m.2) ?_ hs
        intro p hp
        simp only [List.cons_append, List.nil_append, List.mem_cons] at hp
        rcases hp with rfl | rfl | rfl | hp
        · exact colon_free _
        · exact colon_free _
        · exact colon_free _
        · exact maybe_free _ p hp
  | integer w abi pref =>
    cases hs with
    | pointer h _ => exact (hnp (by decide) h).elim
    | type h' _ => exact sized_lt (by decide) h.2.1 h'
  | vector w abi pref =>
    cases hs with
    | pointer h _ => exact (hnp (by decide) h).elim
    | type h' _ => exact sized_lt (by decide) h.2.1 h'
  | float w abi pref =>
    cases hs with
    | pointer h _ => exact (hnp (by decide) h).elim
    | type h' _ => exact sized_lt (by decide) h.2.1 h'
  | aggregate abi pref =>
    rintro rfl
    cases hs with
    | pointer h _ => exact (hnp (by decide) h).elim
    | type h' _ =>
      obtain ⟨kind, a, p, hp, -, ha, -⟩ := h'
      cases hp with
      | sized hc => rcases hc with e | e | e <;> exact absurd e (by decide)
      | aggregate hps =>
        have := colons_split (by simp) (by
          intro p hp
          rcases List.mem_cons.1 hp with rfl | hp
          · exact colon_free _
          · exact maybe_free _ p hp) hps
        obtain ⟨rfl, -⟩ := List.cons.inj this
        exact not_alignText_zero ha
  | functionIndependent a =>
    rintro rfl
    cases hs with
    | functionIndependent h => exact not_alignText_zero h
    | pointer h _ => exact hnp (by decide) h
    | type h _ => exact hnt (by decide) h
  | functionMultiple a =>
    rintro rfl
    cases hs with
    | functionMultiple h => exact not_alignText_zero h
    | pointer h _ => exact hnp (by decide) h
    | type h _ => exact hnt (by decide) h
  | mangling c =>
    rintro rfl
    cases hs with
    | mangling h => cases h
    | pointer h _ => exact hnp (by decide) h
    | type h _ => exact hnt (by decide) h
  | nonIntegral a as =>
    intro x hx
    cases hs with
    | pointer h _ => exact (hnp (by decide) h).elim
    | type h _ => exact (hnt (by decide) h).elim
    | nativeWidths h => exact absurd rfl h
    | nonIntegral hps hall =>
      have := colons_split (by simp) (by
        intro p hp
        obtain ⟨y, -, rfl⟩ := List.mem_map.1 hp
        exact colon_free _) hps
      subst this
      obtain ⟨y, hy, -⟩ := allSay_mem hall (List.mem_map_of_mem (f := decimal) hx)
      exact spaceText_lt (h x hx).2 hy

/-! ## Texts -/

/-- Without characters that end a spec or are not ASCII. -/
def Plain (s : Str) : Prop := ∀ c ∈ s, c.toNat < 128 ∧ c ≠ '-'

theorem plain_nil : Plain [] := by intro c hc; cases hc

theorem plain_cons {c : Char} {s : Str} (hc : c.toNat < 128 ∧ c ≠ '-') (h : Plain s) : Plain (c :: s) := by
  intro x hx
  rcases List.mem_cons.1 hx with rfl | hx
  · exact hc
  · exact h x hx

theorem plain_decimal (n : Nat) : Plain (decimal n) := by
  intro c hc
  have := decimal_digit hc
  refine ⟨by omega, ?_⟩
  rintro rfl
  exact absurd this (by decide)

theorem plain_colons {ps : List Str} (h : ∀ p ∈ ps, Plain p) : Plain (Spec.LlvmSpec.colons ps) := by
  unfold Spec.LlvmSpec.colons
  induction ps with
  | nil => exact plain_nil
  | cons p ps ih =>
    cases ps with
    | nil => rw [List.intercalate_singleton]; exact h p (by simp)
    | cons q qs =>
      rw [List.intercalate_cons_cons]
      intro c hc
      rcases List.mem_append.1 hc with hc | hc
      · rcases List.mem_append.1 hc with hc | hc
        · exact h p (by simp) c hc
        · rw [List.mem_singleton.1 hc]; decide
      · exact ih (fun s hs => h s (List.mem_cons_of_mem _ hs)) c hc

theorem plain_maybe (o : Option Nat) : ∀ p ∈ Spec.LlvmSpec.maybe o, Plain p := by
  intro p hp
  cases o with
  | none => cases hp
  | some n => rw [List.mem_singleton.1 hp]; exact plain_decimal n

theorem plain_all {a : Str} {l : List Str} (ha : Plain a) (hl : ∀ p ∈ l, Plain p) : ∀ p ∈ a :: l, Plain p := by
  intro p hp
  rcases List.mem_cons.1 hp with rfl | hp
  · exact ha
  · exact hl p hp

theorem plain_text {s : Spec.LlvmSpec} (h : s.Allowed) : Plain s.text := by
  have hmap : ∀ l : List Nat, ∀ p ∈ l.map decimal, Plain p := by
    intro l p hp
    obtain ⟨y, _, rfl⟩ := List.mem_map.1 hp
    exact plain_decimal y
  have hn : ∀ p ∈ ([] : List Str), Plain p := by intro p hp; cases hp
  have dd := plain_decimal
  cases s with
  | little => exact plain_cons (by decide) plain_nil
  | big => exact plain_cons (by decide) plain_nil
  | stack a => exact plain_cons (by decide) (dd _)
  | program n => exact plain_cons (by decide) (dd _)
  | globals n => exact plain_cons (by decide) (dd _)
  | alloca n => exact plain_cons (by decide) (dd _)
  | pointer n size abi more =>
    cases n <;> cases more
    · exact plain_cons (by decide) (plain_colons (plain_all plain_nil (plain_all (dd _) (plain_all (dd _) hn))))
    · exact plain_cons (by decide)
        (plain_colons (plain_all plain_nil (plain_all (dd _) (plain_all (dd _) (plain_all (dd _) (plain_maybe _))))))
    · exact plain_cons (by decide) (plain_colons (plain_all (dd _) (plain_all (dd _) (plain_all (dd _) hn))))
    · exact plain_cons (by decide)
        (plain_colons (plain_all (dd _) (plain_all (dd _) (plain_all (dd _) (plain_all (dd _) (plain_maybe _))))))
  | integer w abi pref => exact plain_cons (by decide) (plain_colons (plain_all (dd _) (plain_all (dd _) (plain_maybe _))))
  | vector w abi pref => exact plain_cons (by decide) (plain_colons (plain_all (dd _) (plain_all (dd _) (plain_maybe _))))
  | float w abi pref => exact plain_cons (by decide) (plain_colons (plain_all (dd _) (plain_all (dd _) (plain_maybe _))))
  | aggregate abi pref => exact plain_cons (by decide) (plain_cons (by decide) (plain_colons (plain_all (dd _) (plain_maybe _))))
  | functionIndependent a => exact plain_cons (by decide) (plain_cons (by decide) (dd _))
  | functionMultiple a => exact plain_cons (by decide) (plain_cons (by decide) (dd _))
  | mangling c =>
    refine plain_cons (by decide) (plain_cons (by decide) (plain_cons ?_ plain_nil))
    have h : c ∈ ['e', 'l', 'm', 'o', 'w', 'x', 'a'] := h
    simp only [List.mem_cons, List.not_mem_nil, or_false] at h
    rcases h with rfl | rfl | rfl | rfl | rfl | rfl | rfl <;> decide
  | native w ws => exact plain_cons (by decide) (plain_colons (hmap _))
  | nonIntegral a as => exact plain_cons (by decide) (plain_cons (by decide) (plain_cons (by decide) (plain_colons (hmap _))))

theorem says_of_mem {l : List Str} {d d' : DataLayout} (h : SpecsSay l d d') {s : Str} (hs : s ∈ l) : ∃ e e', SpecSays s e e' := by
  induction h with
  | nil => cases hs
  | cons h1 _ ih =>
    rcases List.mem_cons.1 hs with rfl | hs
    · exact ⟨_, _, h1⟩
    · exact ih hs

/-- The usual specs parse, to their meaning. -/
theorem parses {specs : List Spec.LlvmSpec} (hne : specs ≠ []) (h : ∀ s ∈ specs, s.Allowed) (hu : ∀ s ∈ specs, s.Usual) :
    DataLayout.fromStr (llvmText specs) = .ok (specs.foldl (fun d s => (ours s).meaning d) DataLayout.default) := by
  have := C38_round_trip (specs.map ours) (by simpa using hne) (by
    intro l hl
    obtain ⟨s, hs, rfl⟩ := List.mem_map.1 hl
    exact (ours_ok (h s hs) (hu s hs)).1)
  rw [List.foldl_map, List.map_map] at this
  rw [llvmText, ← this]
  congr 2
  exact List.map_congr_left fun s hs => (ours_ok (h s hs) (hu s hs)).2.symm

end LlvmSpec

open LlvmSpec

/-- C93, as far as it holds: of the datalayouts that LLVM allows, exactly those parse that consist of usual specs: without an alignment of 0,
an address space or a width of `2 ^ 23` or more, or GOFF mangling. The others are refused with an error. -/
theorem C93_parses_partial (specs : List Spec.LlvmSpec) (hne : specs ≠ []) (h : ∀ s ∈ specs, s.Allowed) :
    ((∃ d, DataLayout.fromStr (llvmText specs) = .ok d) ↔ ∀ s ∈ specs, s.Usual) ∧
    ((¬ ∀ s ∈ specs, s.Usual) → ∃ e, DataLayout.fromStr (llvmText specs) = .err e) := by
  have key : (∃ d, DataLayout.fromStr (llvmText specs) = .ok d) ↔ ∀ s ∈ specs, s.Usual := by
    refine ⟨?_, fun hu => ⟨_, parses hne h hu⟩⟩
    rintro ⟨d, hd⟩ s hs
    obtain ⟨-, ps, hp, hsay⟩ := (C59_accepts _ _).1 hd
    have h1 : Pieces '-' (llvmText specs) (specs.map Spec.LlvmSpec.text) := by
      refine ⟨by simpa using hne, ?_, rfl⟩
      intro p hp hm
      obtain ⟨s, hs, rfl⟩ := List.mem_map.1 hp
      exact (plain_text (h s hs) _ hm).2 rfl
    have h2 := ((pieces_iff _ _ _).1 hp).symm.trans ((pieces_iff _ _ _).1 h1)
    subst h2
    obtain ⟨e, e', he⟩ := says_of_mem hsay (List.mem_map_of_mem (f := Spec.LlvmSpec.text) hs)
    exact usual_of_says (h s hs) he
  refine ⟨key, fun hn => ?_⟩
  rcases C59_decides (llvmText specs) with ⟨d, -, hd, -⟩ | ⟨e, -, he, -⟩
  · exact absurd (key.1 ⟨d, hd⟩) hn
  · exact ⟨e, he⟩

/-- The datalayout of 64-bit Linux on x86. -/
def exLinux : List Spec.LlvmSpec :=
  [.little, .mangling 'e', .pointer (some 270) 32 32 none, .pointer (some 271) 32 32 none, .pointer (some 272) 64 64 none,
   .integer 64 64 none, .float 80 128 none, .native 8 [16, 32, 64], .stack 128]

/-- The datalayout of 32-bit Linux on ARM. -/
def exArm : List Spec.LlvmSpec :=
  [.little, .mangling 'e', .pointer none 32 32 none, .functionIndependent 8, .integer 64 64 none, .vector 128 64 (some 128),
   .aggregate 0 (some 32), .native 32 [], .stack 64]

theorem exLinux_allowed : ∀ s ∈ exLinux, s.Allowed ∧ s.Usual := by
  have no : ∀ {n : Nat} {P : Prop}, (none : Option Nat) = some n → P := fun h => by cases h
  have no2 : ∀ {n : Nat × Option Nat} {P : Prop}, (none : Option (Nat × Option Nat)) = some n → P := fun h => by cases h
  intro s hs
  simp only [exLinux, List.mem_cons, List.not_mem_nil, or_false] at hs
  rcases hs with rfl | rfl | rfl | rfl | rfl | rfl | rfl | rfl | rfl
  · exact ⟨trivial, trivial⟩
  · exact ⟨by simp [Spec.LlvmSpec.Allowed], by simp [Spec.LlvmSpec.Usual]⟩
  · exact ⟨⟨by decide, by decide, by decide, by decide, ⟨2, by decide⟩, fun _ _ h => no2 h⟩, by simp [Spec.LlvmSpec.Usual]⟩
  · exact ⟨⟨by decide, by decide, by decide, by decide, ⟨2, by decide⟩, fun _ _ h => no2 h⟩, by simp [Spec.LlvmSpec.Usual]⟩
  · exact ⟨⟨by decide, by decide, by decide, by decide, ⟨3, by decide⟩, fun _ _ h => no2 h⟩, by simp [Spec.LlvmSpec.Usual]⟩
  · exact ⟨⟨by decide, by decide, ⟨3, by decide⟩, fun _ h => no h⟩, by simp [Spec.LlvmSpec.Usual]⟩
  · exact ⟨⟨by decide, by decide, ⟨4, by decide⟩, fun _ h => no h⟩, by simp [Spec.LlvmSpec.Usual]⟩
  · refine ⟨?_, trivial⟩
    show ∀ x ∈ [8, 16, 32, 64], 0 < x ∧ x < 2 ^ 24
    decide
  · exact ⟨.inr ⟨4, by decide⟩, by simp [Spec.LlvmSpec.Usual]⟩

theorem exArm_allowed : ∀ s ∈ exArm, s.Allowed := by
  have no : ∀ {n : Nat} {P : Prop}, (none : Option Nat) = some n → P := fun h => by cases h
  have no2 : ∀ {n : Nat × Option Nat} {P : Prop}, (none : Option (Nat × Option Nat)) = some n → P := fun h => by cases h
  intro s hs
  simp only [exArm, List.mem_cons, List.not_mem_nil, or_false] at hs
  rcases hs with rfl | rfl | rfl | rfl | rfl | rfl | rfl | rfl | rfl
  · trivial
  · simp [Spec.LlvmSpec.Allowed]
  · exact ⟨by decide, by decide, by decide, by decide, ⟨2, by decide⟩, fun _ _ h => no2 h⟩
  · exact .inr ⟨0, by decide⟩
  · exact ⟨by decide, by decide, ⟨3, by decide⟩, fun _ h => no h⟩
  · exact ⟨by decide, by decide, ⟨3, by decide⟩, fun p h => by cases h; exact ⟨⟨4, by decide⟩, by decide⟩⟩
  · exact ⟨.inl rfl, fun p h => by cases h; exact ⟨.inr ⟨2, by decide⟩, by decide⟩⟩
  · show ∀ x ∈ [32], 0 < x ∧ x < 2 ^ 24
    decide
  · exact .inr ⟨3, by decide⟩

/-- A layout that parses, and the text it has. -/
example : llvmText exLinux = "e-m:e-p270:32:32-p271:32:32-p272:64:64-i64:64-f80:128-n8:16:32:64-S128".toList ∧
    ∃ d, DataLayout.fromStr (llvmText exLinux) = .ok d :=
  ⟨by decide +kernel, (C93_parses_partial exLinux (by simp [exLinux]) fun s hs => (exLinux_allowed s hs).1).1.2
    fun s hs => (exLinux_allowed s hs).2⟩

/-- C93 is false: the datalayout of 32-bit ARM is refused, for `a:0:32`. So is the empty datalayout, which LLVM allows too. -/
theorem C93_refuted :
    (∀ s ∈ exArm, s.Allowed) ∧ llvmText exArm = "e-m:e-p:32:32-Fi8-i64:64-v128:64:128-a:0:32-n32-S64".toList ∧
    (∃ e, DataLayout.fromStr (llvmText exArm) = .err e) ∧ DataLayout.fromStr (llvmText []) = .err .emptySpec := by
  refine ⟨exArm_allowed, by decide +kernel, ?_, by decide +kernel⟩
  refine (C93_parses_partial exArm (by simp [exArm]) exArm_allowed).2 fun h => ?_
  exact h (.aggregate 0 (some 32)) (by simp [exArm]) rfl

end Verif.Props
