import Verif.Props.Align
import Verif.Support.TextLemmas
import Verif.Mapper.DataLayout

/-!
# Datalayout strings (`llvm-mapper/src/record/datalayout.rs`): C37, C38
-/

namespace Verif.Props
open Verif.DataLayout

/-! ## C37: parsing is a left-to-right fold and never panics -/

private theorem collect_returns {α β ε : Type} (f : α → Out ε β) (l : List α) (h : ∀ a ∈ l, (f a).Returns) :
    (collect f l).Returns := by
  induction l with
  | nil => trivial
  | cons a l ih =>
    exact (h a (by simp)).bind fun _ _ => (ih fun b hb => h b (List.mem_cons_of_mem _ hb)).bind fun _ _ => trivial

private theorem parseAS_returns (s : Str) : (parseAS s).Returns :=
  (parseU32_returns s).mapErr.bind fun _ _ => (asTryFromU32_returns _).mapErr

private theorem parseBitAlign_returns (s : Str) : (parseBitAlign s).Returns :=
  (parseU64_returns s).mapErr.bind fun _ _ => (fromBitAlign_returns _).mapErr

private theorem specF_returns (d : DataLayout) (s : Str) (h : ∀ c ∈ s, c.toNat < 128) : (specF d s).Returns := by
  unfold specF
  split
  · trivial
  · rename_i c cs
    rw [sliceFrom1_ascii _ _ (utf8Size_ascii c (h c (by simp)))]
    refine (parseBitAlign_returns _).bind fun _ _ => ?_
    split
    · trivial
    · split <;> trivial

private theorem specM_returns (d : DataLayout) (s : Str) : (specM d s).Returns := by
  unfold specM
  split
  · trivial
  · split
    · split
      · trivial
      · refine Out.Returns.bind ?_ fun _ _ => trivial
        unfold manglingKind
        repeat' split
        all_goals trivial
    · trivial

private theorem specN_returns (d : DataLayout) (s : Str) (h : ∀ c ∈ s, c.toNat < 128) : (specN d s).Returns := by
  unfold specN
  split
  · trivial
  · rename_i c cs
    split
    · cases cs with
      | nil => trivial
      | cons c' cs =>
        dsimp only
        rw [sliceFrom1_ascii _ _ (utf8Size_ascii c' (h c' (by simp)))]
        refine (collect_returns _ _ fun p _ => ?_).bind fun _ _ => trivial
        refine (parseAS_returns p).bind fun a _ => ?_
        split <;> trivial
    · exact (collect_returns _ _ fun p _ => (parseU32_returns p).mapErr).bind fun _ _ => trivial

private theorem applySpec_returns (d : DataLayout) (s : Str) (h : ∀ c ∈ s, c.toNat < 128) :
    (applySpec d s).Returns := by
  unfold applySpec
  split
  · trivial
  · rename_i c cs
    have hh : ∀ x ∈ (c :: cs).head?, x.utf8Size = 1 := by
      intro x hx
      simp at hx
      subst hx
      exact utf8Size_ascii _ (h _ (by simp))
    have hcs : ∀ x ∈ cs, x.toNat < 128 := fun x hx => h x (List.mem_cons_of_mem _ hx)
    rw [sliceFrom1_ascii _ _ (hh c (by simp))]
    rw [Out.ok_bind]
    repeat' (split; rotate_left)
    · trivial
    · exact specN_returns d cs hcs
    · exact specM_returns d cs
    · exact specF_returns d cs hcs
    · exact (typeFromStr_returns _ hh).mapErr.bind fun _ _ => trivial
    · exact (pointerFromStr_returns _ hh).mapErr.bind fun _ _ => trivial
    · exact (parseAS_returns _).bind fun _ _ => trivial
    · exact (parseAS_returns _).bind fun _ _ => trivial
    · exact (parseAS_returns _).bind fun _ _ => trivial
    · exact (parseBitAlign_returns _).bind fun _ _ => trivial
    · trivial
    · trivial

/-- Parsing any text as a datalayout returns a layout or an error; it does not panic. -/
theorem C37_returns (text : Str) : (fromStr text).Returns := by
  unfold fromStr
  split
  · rename_i h
    have h : ∀ c ∈ text, c.toNat < 128 := by simpa [isAscii] using h
    have hall : ∀ p ∈ split '-' text, ∀ c ∈ p, c.toNat < 128 :=
      fun p hp c hc => h c ((split_mem _ _ p hp).2 c hc)
    generalize split '-' text = l at hall
    generalize DataLayout.default = d
    induction l generalizing d with
    | nil => trivial
    | cons p ps ih =>
      exact (applySpec_returns d p (hall p (by simp))).bind fun d' _ => ih (fun q hq => hall q (List.mem_cons_of_mem _ hq)) d'
  · trivial

/-- A text with a character outside ASCII is rejected as such. -/
theorem C37_non_ascii (text : Str) (c : Char) (hc : c ∈ text) (h : 128 ≤ c.toNat) :
    fromStr text = .err .badEncoding := by
  unfold fromStr
  rw [if_neg]
  intro ha
  have : ∀ c ∈ text, c.toNat < 128 := by simpa [isAscii] using ha
  have := this c hc
  omega

example : fromStr "e-m:é".toList = .err .badEncoding := C37_non_ascii _ 'é' (by decide) (by decide)

private theorem applySpecs_foldlM (d : DataLayout) (l : List Str) : applySpecs d l = l.foldlM applySpec d := by
  induction l generalizing d with
  | nil => rfl
  | cons p ps ih =>
    rw [List.foldlM_cons, applySpecs]
    congr
    funext d'
    exact ih d'

/-- Parsing the specs of a non-empty list, joined by `-`, starts from the default layout and applies the specs in
order, stopping at the first error. Every text is such a join, see `C37_every_text`. -/
theorem C37_left_to_right (specs : List Str) (hne : specs ≠ [])
    (h : ∀ s ∈ specs, ∀ c ∈ s, c.toNat < 128 ∧ c ≠ '-') :
    fromStr (['-'].intercalate specs) = specs.foldlM applySpec default := by
  have hs : split '-' (['-'].intercalate specs) = specs :=
    split_intercalate _ _ hne fun p hp hm => (h p hp _ hm).2 rfl
  unfold fromStr
  rw [if_pos, hs, applySpecs_foldlM]
  simp only [isAscii, List.all_eq_true, decide_eq_true_iff]
  intro c hc
  clear hs hne
  induction specs with
  | nil => cases hc
  | cons p ps ih =>
    cases ps with
    | nil =>
      rw [List.intercalate_singleton] at hc
      exact (h p (by simp) c hc).1
    | cons q qs =>
      rw [List.intercalate_cons_cons] at hc
      rcases List.mem_append.1 hc with hc | hc
      · rcases List.mem_append.1 hc with hc | hc
        · exact (h p (by simp) c hc).1
        · rw [List.mem_singleton.1 hc]
          decide
      · exact ih (fun s hs => h s (List.mem_cons_of_mem _ hs)) hc

theorem C37_every_text (text : Str) :
    ∃ specs : List Str, specs ≠ [] ∧ (∀ s ∈ specs, '-' ∉ s ∧ ∀ c ∈ s, c ∈ text) ∧ ['-'].intercalate specs = text :=
  ⟨split '-' text, split_ne_nil _ _, fun s hs => split_mem _ _ s hs, intercalate_split _ _⟩

/-- Parsing `a-b` is parsing `a` and applying the specs of `b` to the result. -/
theorem C37_compose (a b : Str) (ha : ∀ c ∈ a, c.toNat < 128) (hb : ∀ c ∈ b, c.toNat < 128) :
    fromStr (a ++ '-' :: b) = (fromStr a >>= fun d => (split '-' b).foldlM applySpec d) := by
  unfold fromStr
  rw [if_pos, if_pos, split_append_any, applySpecs_foldlM, applySpecs_foldlM, List.foldlM_append]
  · simpa [isAscii] using ha
  · simp only [isAscii, List.all_eq_true, decide_eq_true_iff]
    intro c hc
    rcases List.mem_append.1 hc with hc | hc
    · exact ha c hc
    · rcases List.mem_cons.1 hc with rfl | hc
      · decide
      · exact hb c hc

example : (fromStr "e-m:e-p270:32:32-i64:64-f80:128-n8:16:32:64-S128".toList >>= fun d =>
    (split '-' "P1-n32".toList).foldlM applySpec d) =
    fromStr "e-m:e-p270:32:32-i64:64-f80:128-n8:16:32:64-S128-P1-n32".toList := by decide +kernel

/-- The properties a datalayout has. -/
inductive Field where
  | endian | stack | program | global | alloca | types | pointers | aggregate | function | mangling | native | nonIntegral
deriving DecidableEq

/-- Two layouts have the same value for a property. -/
def agreeOn : Field → DataLayout → DataLayout → Prop
  | .endian, d, d' => d.endianness = d'.endianness
  | .stack, d, d' => d.naturalStackAlignment = d'.naturalStackAlignment
  | .program, d, d' => d.programAddressSpace = d'.programAddressSpace
  | .global, d, d' => d.globalVariableAddressSpace = d'.globalVariableAddressSpace
  | .alloca, d, d' => d.allocaAddressSpace = d'.allocaAddressSpace
  | .types, d, d' => d.typeAlignments = d'.typeAlignments
  | .pointers, d, d' => d.pointerAlignments = d'.pointerAlignments
  | .aggregate, d, d' => d.aggregateAlignment = d'.aggregateAlignment
  | .function, d, d' => d.functionPointerAlignment = d'.functionPointerAlignment
  | .mangling, d, d' => d.mangling = d'.mangling
  | .native, d, d' => d.nativeIntegerWidths = d'.nativeIntegerWidths
  | .nonIntegral, d, d' => d.nonIntegralAddressSpaces = d'.nonIntegralAddressSpaces

/-- The property a spec is about, from the language reference: the first letter tells. -/
def about : Str → Option Field
  | [] => none
  | 'e' :: _ => some .endian
  | 'E' :: _ => some .endian
  | 'S' :: _ => some .stack
  | 'P' :: _ => some .program
  | 'G' :: _ => some .global
  | 'A' :: _ => some .alloca
  | 'p' :: _ => some .pointers
  | 'i' :: _ => some .types
  | 'v' :: _ => some .types
  | 'f' :: _ => some .types
  | 'a' :: _ => some .types
  | 'F' :: _ => some .function
  | 'm' :: _ => some .mangling
  | 'n' :: 'i' :: _ => some .nonIntegral
  | 'n' :: _ => some .native
  | _ => none

private def Effect (spec : Str) : Prop :=
  ∀ d d' : DataLayout, applySpec d spec = .ok d' →
    ∃ f, about spec = some f ∧ (∀ g, g ≠ f → agreeOn g d d') ∧
      ∀ d2, ∃ d2', applySpec d2 spec = .ok d2' ∧ (f ≠ .types → f ≠ .pointers → agreeOn f d' d2')

private theorem effect_of {α : Type} {spec : Str} (x : Out DataLayoutError α) (upd : DataLayout → α → DataLayout)
    (f : Field) (hab : about spec = some f)
    (hspec : ∀ d, applySpec d spec = (x >>= fun a => .ok (upd d a)))
    (hframe : ∀ d a g, g ≠ f → agreeOn g d (upd d a))
    (hval : f ≠ .types → f ≠ .pointers → ∀ d d2 a, agreeOn f (upd d a) (upd d2 a)) : Effect spec := by
  intro d d' h
  rw [hspec] at h
  obtain ⟨a, ha, h⟩ := Out.bind_eq_ok.1 h
  obtain rfl := Out.ok.inj h
  refine ⟨f, hab, hframe d a, fun d2 => ⟨upd d2 a, ?_, fun h1 h2 => hval h1 h2 d d2 a⟩⟩
  rw [hspec, ha]
  rfl

private theorem effect_err {spec : Str} (h : ∀ d d', applySpec d spec ≠ .ok d') : Effect spec :=
  fun d d' hd => absurd hd (h d d')

private theorem effect_n (cs : Str) : Effect ('n' :: cs) := by
  cases cs with
  | nil => exact effect_err fun d d' h => by cases h
  | cons c cs =>
    by_cases hc : c = 'i'
    · subst hc
      cases cs with
      | nil => exact effect_err fun d d' h => by cases h
      | cons c cs =>
        refine effect_of (sliceFrom1 (c :: cs) >>= fun rest => collect parseNonIntegral (split ':' rest))
          (fun d l => { d with nonIntegralAddressSpaces := l }) .nonIntegral rfl (fun d => ?_) ?_ ?_
        · rw [bind_assoc]
          rfl
        · intro d a g hg
          cases g <;> first | exact absurd rfl hg | rfl
        · intro _ _ d d2 a
          rfl
    · refine effect_of (collect parseWidth (split ':' (c :: cs))) (fun d l => { d with nativeIntegerWidths := l })
        .native ?_ (fun d => ?_) ?_ ?_
      · unfold about
        split <;> simp_all
      · show specN d (c :: cs) = _
        unfold specN
        dsimp only
        rw [if_neg hc]
        rfl
      · intro d a g hg
        cases g <;> first | exact absurd rfl hg | rfl
      · intro _ _ d d2 a
        rfl

private theorem effect_m (cs : Str) : Effect ('m' :: cs) := by
  match cs with
  | [] => exact effect_err fun d d' h => by cases h
  | [c] =>
    refine effect_err fun d d' h => ?_
    change specM d [c] = _ at h
    unfold specM at h
    split at h
    · cases h
    · split at h
      · split at h
        · cases h
        · rename_i h1 _ _ _ h2
          simp_all
      · cases h
  | c :: k :: rest =>
    by_cases hc : c = ':'
    · subst hc
      refine effect_of (manglingKind k) (fun d l => { d with mangling := some l }) .mangling rfl (fun d => rfl) ?_ ?_
      · intro d a g hg
        cases g <;> first | exact absurd rfl hg | rfl
      · intro _ _ d d2 a
        rfl
    · refine effect_err fun d d' h => ?_
      change specM d (c :: k :: rest) = _ at h
      unfold specM at h
      dsimp only at h
      rw [if_neg hc] at h
      cases h

private theorem effect_F (cs : Str) : Effect ('F' :: cs) := by
  cases cs with
  | nil => exact effect_err fun d d' h => by cases h
  | cons c cs =>
    refine effect_of
      (do
        let rest ← sliceFrom1 (c :: cs)
        let align ← parseBitAlign rest
        if c = 'i' then pure (FunctionPointerAlign.independent align)
        else if c = 'n' then pure (.multipleOfFunctionAlign align)
        else .err (.badSpecParse ("unknown function pointer alignment specifier: ".toList ++ [c])))
      (fun d l => { d with functionPointerAlignment := some l }) .function rfl (fun d => ?_) ?_ ?_
    · show specF d (c :: cs) = _
      unfold specF
      rw [bind_assoc]
      refine bind_congr fun rest => ?_
      rw [bind_assoc]
      refine bind_congr fun align => ?_
      split
      · rfl
      · split <;> rfl
    · intro d a g hg
      cases g <;> first | exact absurd rfl hg | rfl
    · intro _ _ d d2 a
      rfl

/-- What a spec does depends on the layout only through the property it is about. -/
private theorem effect (spec : Str) : Effect spec := by
  match spec with
  | [] => exact effect_err fun d d' h => by cases h
  | c :: cs =>
    by_cases hs : c.utf8Size = 1
    rotate_left
    · refine effect_err fun d d' h => ?_
      simp [applySpec, sliceFrom1, hs] at h
    have frame : ∀ {f g : Field} {P : Prop}, g ≠ f → g = f → P := fun h h' => absurd h' h
    have hslice : ∀ d : DataLayout, applySpec d (c :: cs) = applySpec d (c :: cs) := fun _ => rfl
    by_cases h1 : c = 'e'
    · subst h1
      exact effect_of (.ok ()) (fun d _ => { d with endianness := .little }) .endian rfl (fun d => rfl)
        (by intro d a g hg; cases g <;> first | exact absurd rfl hg | rfl) (fun _ _ _ _ _ => rfl)
    by_cases h2 : c = 'E'
    · subst h2
      exact effect_of (.ok ()) (fun d _ => { d with endianness := .big }) .endian rfl (fun d => rfl)
        (by intro d a g hg; cases g <;> first | exact absurd rfl hg | rfl) (fun _ _ _ _ _ => rfl)
    by_cases h3 : c = 'S'
    · subst h3
      exact effect_of (parseBitAlign cs) (fun d a => { d with naturalStackAlignment := some a }) .stack rfl
        (fun d => rfl)
        (by intro d a g hg; cases g <;> first | exact absurd rfl hg | rfl) (fun _ _ _ _ _ => rfl)
    by_cases h4 : c = 'P'
    · subst h4
      exact effect_of (parseAS cs) (fun d a => { d with programAddressSpace := a }) .program rfl (fun d => rfl)
        (by intro d a g hg; cases g <;> first | exact absurd rfl hg | rfl) (fun _ _ _ _ _ => rfl)
    by_cases h5 : c = 'G'
    · subst h5
      exact effect_of (parseAS cs) (fun d a => { d with globalVariableAddressSpace := a }) .global rfl (fun d => rfl)
        (by intro d a g hg; cases g <;> first | exact absurd rfl hg | rfl) (fun _ _ _ _ _ => rfl)
    by_cases h6 : c = 'A'
    · subst h6
      exact effect_of (parseAS cs) (fun d a => { d with allocaAddressSpace := a }) .alloca rfl (fun d => rfl)
        (by intro d a g hg; cases g <;> first | exact absurd rfl hg | rfl) (fun _ _ _ _ _ => rfl)
    by_cases h7 : c = 'p'
    · subst h7
      exact effect_of ((PointerAlignSpec.fromStr ('p' :: cs)).mapErr .badAlignSpec)
        (fun d a => { d with pointerAlignments := d.pointerAlignments.update a }) .pointers rfl (fun d => rfl)
        (by intro d a g hg; cases g <;> first | exact absurd rfl hg | rfl) (fun _ h => absurd rfl h)
    by_cases h8 : c = 'i' ∨ c = 'v' ∨ c = 'f' ∨ c = 'a'
    · have hab : about (c :: cs) = some .types := by
        rcases h8 with rfl | rfl | rfl | rfl <;> rfl
      have hap : ∀ d, applySpec d (c :: cs) = ((TypeAlignSpec.fromStr (c :: cs)).mapErr .badAlignSpec >>= fun s =>
          pure { d with typeAlignments := d.typeAlignments.update s }) := by
        intro d
        rcases h8 with rfl | rfl | rfl | rfl <;> rfl
      exact effect_of ((TypeAlignSpec.fromStr (c :: cs)).mapErr .badAlignSpec)
        (fun d a => { d with typeAlignments := d.typeAlignments.update a }) .types hab hap
        (by intro d a g hg; cases g <;> first | exact absurd rfl hg | rfl) (fun h => absurd rfl h)
    by_cases h9 : c = 'F'
    · subst h9
      exact effect_F cs
    by_cases h10 : c = 'm'
    · subst h10
      exact effect_m cs
    by_cases h11 : c = 'n'
    · subst h11
      exact effect_n cs
    refine effect_err fun d d' h => ?_
    unfold applySpec at h
    dsimp only at h
    rw [sliceFrom1_ascii _ _ hs, Out.ok_bind, if_neg h1, if_neg h2, if_neg h3, if_neg h4, if_neg h5, if_neg h6,
      if_neg h7, if_neg h8, if_neg h9, if_neg h10, if_neg h11] at h
    cases h

/-- A spec that is accepted is about one property and changes no other. -/
theorem C37_changes_only (spec : Str) (d d' : DataLayout) (h : applySpec d spec = .ok d') :
    ∃ f, about spec = some f ∧ ∀ g, g ≠ f → agreeOn g d d' := by
  obtain ⟨f, hf, hg, _⟩ := effect spec d d' h
  exact ⟨f, hf, hg⟩

private theorem agreeOn_refl (f : Field) (d : DataLayout) : agreeOn f d d := by cases f <;> rfl
private theorem agreeOn_symm {f : Field} {d d' : DataLayout} (h : agreeOn f d d') : agreeOn f d' d := by
  cases f <;> exact Eq.symm h
private theorem agreeOn_trans {f : Field} {d d' d'' : DataLayout} (h : agreeOn f d d') (h' : agreeOn f d' d'') :
    agreeOn f d d'' := by
  cases f <;> exact Eq.trans h h'

private theorem foldlM_frame (f : Field) (l : List Str) (hl : ∀ s ∈ l, about s ≠ some f) (d d' : DataLayout)
    (h : l.foldlM applySpec d = .ok d') : agreeOn f d d' := by
  induction l generalizing d with
  | nil =>
    obtain rfl := Out.ok.inj h
    exact agreeOn_refl f d
  | cons s l ih =>
    rw [List.foldlM_cons] at h
    obtain ⟨d1, h1, h⟩ := Out.bind_eq_ok.1 h
    obtain ⟨g, hg, hfr⟩ := C37_changes_only s d d1 h1
    refine agreeOn_trans (hfr f ?_) (ih (fun s hs => hl s (List.mem_cons_of_mem _ hs)) d1 h)
    rintro rfl
    exact hl s (by simp) hg

/-- The last spec about a property wins: what stands before it does not matter, and neither do later specs about other
properties. The value is the one that spec has on its own. The two tables are excluded here, as they collect all specs
about them (`C37_tables`). -/
theorem C37_last_wins (before later : List Str) (spec : Str) (f : Field) (d : DataLayout)
    (h : (before ++ spec :: later).foldlM applySpec DataLayout.default = .ok d) (hf : about spec = some f)
    (htable : f ≠ .types ∧ f ≠ .pointers) (hlater : ∀ s ∈ later, about s ≠ some f) :
    ∃ alone, applySpec DataLayout.default spec = .ok alone ∧ agreeOn f d alone := by
  rw [List.foldlM_append] at h
  obtain ⟨d1, _, h⟩ := Out.bind_eq_ok.1 h
  rw [List.foldlM_cons] at h
  obtain ⟨d2, h2, h⟩ := Out.bind_eq_ok.1 h
  obtain ⟨g, hg, _, hall⟩ := effect spec d1 d2 h2
  obtain rfl : g = f := by rw [hg] at hf; exact Option.some.inj hf
  obtain ⟨d3, h3, hag⟩ := hall DataLayout.default
  exact ⟨d3, h3, agreeOn_trans (agreeOn_symm (foldlM_frame g later hlater d2 d h)) (hag htable.1 htable.2)⟩

/-- Two stack alignments and two lists of native widths. -/
example : fromStr "S64-n8-e-S128-n16:32-P3".toList =
    .ok { DataLayout.default with
      naturalStackAlignment := some .align128, nativeIntegerWidths := [16, 32], programAddressSpace := ⟨3⟩,
      endianness := .little } := by
  decide +kernel

/-- A property no spec is about keeps its default. -/
theorem C37_default (specs : List Str) (d : DataLayout) (h : specs.foldlM applySpec DataLayout.default = .ok d)
    (f : Field) (hf : ∀ s ∈ specs, about s ≠ some f) : agreeOn f DataLayout.default d :=
  foldlM_frame f specs hf _ d h

/-- The defaults, in the notation of datalayout strings: stating them changes nothing, and there are no others. -/
theorem C37_default_text :
    fromStr ("E-P0-G0-A0-p:64:64:64:64-a:64:64-f16:16:16-f32:32:32-f64:64:64-f128:128:128-" ++
      "i1:8:8-i8:8:8-i16:16:16-i32:32:32-i64:64:64").toList = .ok DataLayout.default ∧
    DataLayout.default.typeAlignments.length = 10 ∧ DataLayout.default.pointerAlignments.length = 1 ∧
    DataLayout.default.naturalStackAlignment = none ∧ DataLayout.default.functionPointerAlignment = none ∧
    DataLayout.default.mangling = none ∧ DataLayout.default.nativeIntegerWidths = [] ∧
    DataLayout.default.nonIntegralAddressSpaces = [] := by
  decide +kernel

private theorem about_aggregate (s : Str) : about s ≠ some .aggregate := by
  unfold about
  split <;> simp

/-- No text changes the aggregate alignment from its default, although `a` specs exist; they only go into the table. -/
theorem C37_aggregate_constant (text : Str) (d : DataLayout) (h : fromStr text = .ok d) :
    d.aggregateAlignment = .align8 := by
  unfold fromStr at h
  split at h
  · rw [applySpecs_foldlM] at h
    exact (C37_default _ d h .aggregate fun s _ => about_aggregate s).symm
  · cases h

example : ∃ d, fromStr "a:64:64".toList = .ok d ∧ d.aggregateAlignment = .align8 :=
  ⟨{ DataLayout.default with typeAlignments := TypeAlignSpecs.default }, by decide +kernel, by decide +kernel⟩

/-- The type (pointer) alignment a spec states, if it is about the type (pointer) table. -/
def typeSpec? (s : Str) : Option TypeAlignSpec :=
  match about s, TypeAlignSpec.fromStr s with
  | some .types, .ok t => some t
  | _, _ => none

def pointerSpec? (s : Str) : Option PointerAlignSpec :=
  match about s, PointerAlignSpec.fromStr s with
  | some .pointers, .ok t => some t
  | _, _ => none

private theorem applySpec_types (s : Str) (d d' : DataLayout) (h : applySpec d s = .ok d') :
    d'.typeAlignments = (typeSpec? s).toList.foldl TypeAlignSpecs.update d.typeAlignments ∧
      d'.pointerAlignments = (pointerSpec? s).toList.foldl PointerAlignSpecs.update d.pointerAlignments := by
  obtain ⟨f, hf, hfr⟩ := C37_changes_only s d d' h
  by_cases ht : f = .types
  · subst ht
    refine ⟨?_, ?_⟩
    · match s with
      | [] => cases h
      | c :: cs =>
        have hc : c = 'i' ∨ c = 'v' ∨ c = 'f' ∨ c = 'a' := by
          unfold about at hf
          split at hf <;> simp_all
        have hap : applySpec d (c :: cs) = ((TypeAlignSpec.fromStr (c :: cs)).mapErr .badAlignSpec >>= fun s =>
            pure { d with typeAlignments := d.typeAlignments.update s }) := by
          rcases hc with rfl | rfl | rfl | rfl <;> rfl
        rw [hap] at h
        obtain ⟨t, h1, h2⟩ := Out.bind_eq_ok.1 h
        obtain rfl := Out.ok.inj h2
        unfold typeSpec?
        rw [hf, Out.mapErr_eq_ok.1 h1]
        rfl
    · have : pointerSpec? s = none := by unfold pointerSpec?; rw [hf]
      rw [this]
      exact (hfr .pointers (by simp)).symm
  · by_cases hp : f = .pointers
    · subst hp
      refine ⟨?_, ?_⟩
      · have : typeSpec? s = none := by unfold typeSpec?; rw [hf]
        rw [this]
        exact (hfr .types (by simp)).symm
      · match s with
        | [] => cases h
        | c :: cs =>
          have hc : c = 'p' := by
            unfold about at hf
            split at hf <;> simp_all
          subst hc
          change ((PointerAlignSpec.fromStr ('p' :: cs)).mapErr DataLayoutError.badAlignSpec >>= fun s =>
              pure { d with pointerAlignments := d.pointerAlignments.update s }) = _ at h
          obtain ⟨t, h1, h2⟩ := Out.bind_eq_ok.1 h
          obtain rfl := Out.ok.inj h2
          unfold pointerSpec?
          rw [hf, Out.mapErr_eq_ok.1 h1]
          rfl
    · have h1 : typeSpec? s = none := by
        unfold typeSpec?
        rw [hf]
        split <;> simp_all
      have h2 : pointerSpec? s = none := by
        unfold pointerSpec?
        rw [hf]
        split <;> simp_all
      rw [h1, h2]
      exact ⟨(hfr .types (fun h => ht h.symm)).symm, (hfr .pointers (fun h => hp h.symm)).symm⟩

/-- The two tables of the result are the default tables updated, in order, by all the alignments the text states. What
that means for lookups is C34 and C35. -/
theorem C37_tables (specs : List Str) (d : DataLayout) (h : specs.foldlM applySpec DataLayout.default = .ok d) :
    d.typeAlignments = (specs.filterMap typeSpec?).foldl TypeAlignSpecs.update TypeAlignSpecs.default ∧
      d.pointerAlignments =
        (specs.filterMap pointerSpec?).foldl PointerAlignSpecs.update PointerAlignSpecs.default := by
  change d.typeAlignments = (specs.filterMap typeSpec?).foldl TypeAlignSpecs.update DataLayout.default.typeAlignments ∧
      d.pointerAlignments =
        (specs.filterMap pointerSpec?).foldl PointerAlignSpecs.update DataLayout.default.pointerAlignments
  generalize DataLayout.default = d0 at h
  induction specs generalizing d0 with
  | nil =>
    obtain rfl := Out.ok.inj h
    exact ⟨rfl, rfl⟩
  | cons s l ih =>
    rw [List.foldlM_cons] at h
    obtain ⟨d1, h1, h⟩ := Out.bind_eq_ok.1 h
    obtain ⟨h2, h3⟩ := ih d1 h
    obtain ⟨h4, h5⟩ := applySpec_types s d0 d1 h1
    rw [h2, h3, h4, h5]
    constructor
    · cases hs : typeSpec? s <;> simp [hs]
    · cases hs : pointerSpec? s <;> simp [hs]

/-- A typical datalayout ends up with two entries for address space 0 (see C35). -/
theorem C37_duplicate_pointer_entry :
    ∃ d e e', fromStr "e-p:32:32".toList = .ok d ∧ d.pointerAlignments = [e, e'] ∧
      e.addressSpace = e'.addressSpace ∧ e ≠ e' :=
  ⟨{ DataLayout.default with
      endianness := .little, pointerAlignments := [.default, ⟨⟨0⟩, .align32, .align32, 32, 32⟩] },
    .default, ⟨⟨0⟩, .align32, .align32, 32, 32⟩, by decide +kernel, by decide +kernel, rfl, by decide +kernel⟩

/-! ## C38: documented specs are read back -/

/-- The datalayout specs of the language reference. Alignments are given as the base-two logarithm of the bytes. -/
inductive LSpec where
  | little
  | big
  | stack (align : Nat)
  | program (space : Nat)
  | global (space : Nat)
  | alloca (space : Nat)
  | pointer (space : Option Nat) (size abi : Nat)
  | pointerPref (space : Option Nat) (size abi pref : Nat)
  | pointerIndex (space : Option Nat) (size abi pref index : Nat)
  | integer (size abi : Nat) (pref : Option Nat)
  | float (size abi : Nat) (pref : Option Nat)
  | vector (size abi : Nat) (pref : Option Nat)
  | aggregate (abi : Nat) (pref : Option Nat)
  | functionIndependent (abi : Nat)
  | functionMultiple (abi : Nat)
  | mangling (m : Mangling)
  | native (first : Nat) (others : List Nat)
  | nonIntegral (first : Nat) (others : List Nat)

namespace LSpec

def bits (align : Nat) : Str := decimal (8 * 2 ^ align)

def colons (parts : List Str) : Str := [':'].intercalate parts

def manglingLetter : Mangling → Char
  | .elf => 'e' | .mips => 'm' | .macho => 'o' | .windowsX86Coff => 'x' | .windowsCoff => 'w' | .xCoff => 'a'

def spaceText : Option Nat → Str
  | none => []
  | some n => decimal n

def prefText : Option Nat → List Str
  | none => []
  | some p => [bits p]

/-- The text of a spec, as documented. -/
def text : LSpec → Str
  | little => ['e']
  | big => ['E']
  | stack a => 'S' :: bits a
  | program n => 'P' :: decimal n
  | global n => 'G' :: decimal n
  | alloca n => 'A' :: decimal n
  | pointer n size abi => 'p' :: colons [spaceText n, decimal size, bits abi]
  | pointerPref n size abi pref => 'p' :: colons [spaceText n, decimal size, bits abi, bits pref]
  | pointerIndex n size abi pref idx => 'p' :: colons [spaceText n, decimal size, bits abi, bits pref, decimal idx]
  | integer size abi pref => 'i' :: colons ([decimal size, bits abi] ++ prefText pref)
  | float size abi pref => 'f' :: colons ([decimal size, bits abi] ++ prefText pref)
  | vector size abi pref => 'v' :: colons ([decimal size, bits abi] ++ prefText pref)
  | aggregate abi pref => 'a' :: ':' :: colons ([bits abi] ++ prefText pref)
  | functionIndependent abi => 'F' :: 'i' :: bits abi
  | functionMultiple abi => 'F' :: 'n' :: bits abi
  | mangling m => ['m', ':', manglingLetter m]
  | native w ws => 'n' :: colons ((w :: ws).map decimal)
  | nonIntegral a as => 'n' :: 'i' :: ':' :: colons ((a :: as).map decimal)

/-- Which specs are meaningful: numbers fit their types, address spaces and type widths are below 2^23, preferred
alignments are at least the ABI alignment, type alignments are at most 2^15 bytes, and address space 0 is integral. -/
def Ok : LSpec → Prop
  | little => True
  | big => True
  | stack a => a ≤ 60
  | program n => n < 2 ^ 23
  | global n => n < 2 ^ 23
  | alloca n => n < 2 ^ 23
  | pointer n size abi => n.getD 0 < 2 ^ 23 ∧ size < 2 ^ 64 ∧ abi ≤ 60
  | pointerPref n size abi pref => n.getD 0 < 2 ^ 23 ∧ size < 2 ^ 64 ∧ abi ≤ 60 ∧ abi ≤ pref ∧ pref ≤ 60
  | pointerIndex n size abi pref idx =>
    n.getD 0 < 2 ^ 23 ∧ size < 2 ^ 64 ∧ abi ≤ 60 ∧ abi ≤ pref ∧ pref ≤ 60 ∧ idx < 2 ^ 64
  | integer size abi pref => 0 < size ∧ size < 2 ^ 23 ∧ abi ≤ pref.getD abi ∧ pref.getD abi ≤ 15
  | float size abi pref => 0 < size ∧ size < 2 ^ 23 ∧ abi ≤ pref.getD abi ∧ pref.getD abi ≤ 15
  | vector size abi pref => 0 < size ∧ size < 2 ^ 23 ∧ abi ≤ pref.getD abi ∧ pref.getD abi ≤ 15
  | aggregate abi pref => abi ≤ pref.getD abi ∧ pref.getD abi ≤ 15
  | functionIndependent abi => abi ≤ 60
  | functionMultiple abi => abi ≤ 60
  | mangling _ => True
  | native w ws => ∀ x ∈ w :: ws, x < 2 ^ 32
  | nonIntegral a as => ∀ x ∈ a :: as, 0 < x ∧ x < 2 ^ 23

def al (a : Nat) : Align := ⟨BitVec.ofNat 8 a⟩
def as (n : Nat) : AddressSpace := ⟨BitVec.ofNat 32 n⟩
def w (n : Nat) : AlignedTypeWidth := ⟨BitVec.ofNat 32 n⟩

/-- What a spec means. -/
def meaning : LSpec → DataLayout → DataLayout
  | little, d => { d with endianness := .little }
  | big, d => { d with endianness := .big }
  | stack a, d => { d with naturalStackAlignment := some (al a) }
  | program n, d => { d with programAddressSpace := as n }
  | global n, d => { d with globalVariableAddressSpace := as n }
  | alloca n, d => { d with allocaAddressSpace := as n }
  | pointer n size abi, d =>
    { d with pointerAlignments := d.pointerAlignments.update
              ⟨as (n.getD 0), al abi, al abi, BitVec.ofNat 64 size, BitVec.ofNat 64 size⟩ }
  | pointerPref n size abi pref, d =>
    { d with pointerAlignments := d.pointerAlignments.update
              ⟨as (n.getD 0), al abi, al pref, BitVec.ofNat 64 size, BitVec.ofNat 64 size⟩ }
  | pointerIndex n size abi pref idx, d =>
    { d with pointerAlignments := d.pointerAlignments.update
              ⟨as (n.getD 0), al abi, al pref, BitVec.ofNat 64 size, BitVec.ofNat 64 idx⟩ }
  | integer size abi pref, d =>
    { d with typeAlignments := d.typeAlignments.update ⟨.integer (w size), al abi, al (pref.getD abi)⟩ }
  | float size abi pref, d =>
    { d with typeAlignments := d.typeAlignments.update ⟨.float (w size), al abi, al (pref.getD abi)⟩ }
  | vector size abi pref, d =>
    { d with typeAlignments := d.typeAlignments.update ⟨.vector (w size), al abi, al (pref.getD abi)⟩ }
  | aggregate abi pref, d =>
    { d with typeAlignments := d.typeAlignments.update ⟨.aggregate, al abi, al (pref.getD abi)⟩ }
  | functionIndependent abi, d => { d with functionPointerAlignment := some (.independent (al abi)) }
  | functionMultiple abi, d => { d with functionPointerAlignment := some (.multipleOfFunctionAlign (al abi)) }
  | mangling m, d => { d with mangling := some m }
  | native x xs, d => { d with nativeIntegerWidths := (x :: xs).map (BitVec.ofNat 32) }
  | nonIntegral x xs, d => { d with nonIntegralAddressSpaces := (x :: xs).map as }

private theorem fromBitAlign_bits (a : Nat) (h : a ≤ 60) :
    (parseU64 (bits a)) = .ok (BitVec.ofNat 64 (8 * 2 ^ a)) ∧
      Align.fromBitAlign (BitVec.ofNat 64 (8 * 2 ^ a)) = .ok (al a) := by
  have hlt : 2 ^ a < 2 ^ 61 := (Nat.pow_lt_pow_iff_right (by decide)).2 (by omega)
  refine ⟨parseU64_decimal _ (by omega), ((C33_from_bit_align _).1 _).2 ?_⟩
  rw [BitVec.toNat_ofNat, Nat.mod_eq_of_lt (by omega), al, BitVec.toNat_ofNat, Nat.mod_eq_of_lt (by omega)]

private theorem parseBitAlign_bits (a : Nat) (h : a ≤ 60) : parseBitAlign (bits a) = .ok (al a) := by
  unfold parseBitAlign
  rw [(fromBitAlign_bits a h).1, Out.mapErr_ok, Out.ok_bind, (fromBitAlign_bits a h).2, Out.mapErr_ok]

private theorem parseAbi_bits (a : Nat) (h : a ≤ 60) : parseAbi (bits a) = .ok (al a) := by
  unfold parseAbi
  rw [(fromBitAlign_bits a h).1, Out.mapErr_ok, Out.ok_bind, (fromBitAlign_bits a h).2, Out.mapErr_ok]

private theorem parsePref_bits (b : Align) (a : Nat) (h : a ≤ 60) : parsePref b (some (bits a)) = .ok (al a) := by
  unfold parsePref
  dsimp only
  rw [(fromBitAlign_bits a h).1, Out.mapErr_ok, Out.ok_bind, (fromBitAlign_bits a h).2, Out.mapErr_ok]

private theorem tryFromU32_as (n : Nat) (h : n < 2 ^ 23) :
    AddressSpace.tryFromU32 (BitVec.ofNat 32 n) = .ok (as n) := by
  unfold AddressSpace.tryFromU32
  rw [if_pos]
  · rfl
  · rw [BitVec.toNat_ofNat, Nat.mod_eq_of_lt (by omega)]
    omega

private theorem parseAS_decimal (n : Nat) (h : n < 2 ^ 23) : parseAS (decimal n) = .ok (as n) := by
  unfold parseAS
  rw [parseU32_decimal n (by omega), Out.mapErr_ok, Out.ok_bind, tryFromU32_as n h, Out.mapErr_ok]

private theorem parseSpace (n : Option Nat) (h : n.getD 0 < 2 ^ 23) :
    PointerAlignSpec.parseAddressSpace (spaceText n) = .ok (as (n.getD 0)) := by
  cases n with
  | none => rfl
  | some n =>
    rw [Option.getD_some] at h
    unfold PointerAlignSpec.parseAddressSpace spaceText
    split
    · rename_i he
      exact absurd he (decimal_ne_nil n)
    · dsimp only
      rw [parseU32_decimal n (by omega), Out.mapErr_ok, Out.ok_bind, tryFromU32_as n h, Out.mapErr_ok]
      rfl

private theorem collect_ok {α β γ ε : Type} (f : α → Out ε β) (g : γ → α) (k : γ → β) (l : List γ)
    (h : ∀ x ∈ l, f (g x) = .ok (k x)) : collect f (l.map g) = .ok (l.map k) := by
  induction l with
  | nil => rfl
  | cons x xs ih =>
    rw [List.map_cons, collect, h x (by simp), Out.ok_bind, ih fun y hy => h y (List.mem_cons_of_mem _ hy)]
    rfl

private theorem colon_decimal (n : Nat) : ':' ∉ decimal n := decimal_not_mem n ':' (by decide)

private theorem colon_space (n : Option Nat) : ':' ∉ spaceText n := by
  cases n with
  | none => simp [spaceText]
  | some n => exact colon_decimal n

private theorem split_colons (ps : List Str) (hne : ps ≠ []) (h : ∀ p ∈ ps, ':' ∉ p) : split ':' (colons ps) = ps :=
  split_intercalate _ _ hne h

private theorem width_ok (n : Nat) (h0 : 0 < n) (h : n < 2 ^ 23) :
    AlignedTypeWidth.tryFrom (BitVec.ofNat 32 n) = .ok (w n) := by
  have hn : (BitVec.ofNat 32 n).toNat = n := by rw [BitVec.toNat_ofNat, Nat.mod_eq_of_lt (by omega)]
  unfold AlignedTypeWidth.tryFrom
  rw [if_pos]
  · rfl
  · rw [hn]
    refine ⟨BitVec.lt_def.2 ?_, by omega⟩
    rw [hn]
    exact h0

private theorem new_ok (t : AlignedType) (a p : Nat) (h1 : a ≤ p) (h2 : p ≤ 15) :
    TypeAlignSpec.new t (al a) (al p) = .ok ⟨t, al a, al p⟩ := by
  refine (C36_type_new _ _ _ _).2 ⟨rfl, ?_, ?_⟩
  · simp only [al, BitVec.toNat_ofNat]
    omega
  · simp only [al, BitVec.toNat_ofNat]
    omega

private theorem pref_ok (a : Nat) (p : Option Nat) (h : p.getD a ≤ 15) :
    parsePref (al a) (prefText p)[0]? = .ok (al (p.getD a)) := by
  cases p with
  | none => rfl
  | some p => exact parsePref_bits _ p (by rw [Option.getD_some] at h; omega)

private theorem pref_colon (p : Option Nat) : ∀ s ∈ prefText p, ':' ∉ s := by
  intro s hs
  cases p with
  | none => cases hs
  | some p =>
    rw [List.mem_singleton.1 hs]
    exact colon_decimal _

private theorem other_ok (c : Char) (t : AlignedType) (size abi : Nat) (p : Option Nat)
    (ht : (c = 'i' ∧ t = .integer (w size)) ∨ (c = 'f' ∧ t = .float (w size)) ∨ (c = 'v' ∧ t = .vector (w size)))
    (h0 : 0 < size) (h1 : size < 2 ^ 23) (h2 : abi ≤ p.getD abi) (h3 : p.getD abi ≤ 15) :
    TypeAlignSpec.fromStr (c :: colons ([decimal size, bits abi] ++ prefText p)) =
      .ok ⟨t, al abi, al (p.getD abi)⟩ := by
  have hs : split ':' (colons ([decimal size, bits abi] ++ prefText p)) = decimal size :: bits abi :: prefText p := by
    refine split_colons _ (by simp) fun q hq => ?_
    simp only [List.cons_append, List.nil_append, List.mem_cons] at hq
    rcases hq with rfl | rfl | hq
    · exact colon_decimal _
    · exact colon_decimal _
    · exact pref_colon p q hq
  have hbody : TypeAlignSpec.parseOther c (colons ([decimal size, bits abi] ++ prefText p)) =
      .ok ⟨t, al abi, al (p.getD abi)⟩ := by
    unfold TypeAlignSpec.parseOther
    rw [hs]
    dsimp only
    rw [parseU32_decimal size (by omega), Out.mapErr_ok, Out.ok_bind, width_ok size h0 h1, Out.mapErr_ok, Out.ok_bind,
      parseAbi_bits abi (by omega), Out.ok_bind, pref_ok abi p h3, Out.ok_bind]
    rcases ht with ⟨rfl, rfl⟩ | ⟨rfl, rfl⟩ | ⟨rfl, rfl⟩
    · exact new_ok _ _ _ h2 h3
    · exact new_ok _ _ _ h2 h3
    · exact new_ok _ _ _ h2 h3
  rcases ht with ⟨rfl, rfl⟩ | ⟨rfl, rfl⟩ | ⟨rfl, rfl⟩ <;> exact hbody

private theorem aggregate_ok (abi : Nat) (p : Option Nat) (h2 : abi ≤ p.getD abi) (h3 : p.getD abi ≤ 15) :
    TypeAlignSpec.fromStr ('a' :: ':' :: colons ([bits abi] ++ prefText p)) =
      .ok ⟨.aggregate, al abi, al (p.getD abi)⟩ := by
  have hs : split ':' (colons ([bits abi] ++ prefText p)) = bits abi :: prefText p := by
    refine split_colons _ (by simp) fun q hq => ?_
    simp only [List.cons_append, List.nil_append, List.mem_cons] at hq
    rcases hq with rfl | hq
    · exact colon_decimal _
    · exact pref_colon p q hq
  show TypeAlignSpec.parseAggregate (':' :: colons ([bits abi] ++ prefText p)) = _
  unfold TypeAlignSpec.parseAggregate
  dsimp only
  rw [if_pos rfl, hs]
  dsimp only
  rw [parseAbi_bits abi (by omega), Out.ok_bind, pref_ok abi p h3, Out.ok_bind]
  exact new_ok _ _ _ h2 h3

private theorem pointer_ok (n : Option Nat) (size abi : Nat) (rest : List Str) (pref : Align) (idx : U64)
    (h1 : n.getD 0 < 2 ^ 23) (h2 : size < 2 ^ 64) (h3 : abi ≤ 60)
    (hrest : ∀ s ∈ rest, ':' ∉ s)
    (hp : parsePref (al abi) rest[0]? = .ok pref)
    (hi : PointerAlignSpec.parseIndex (BitVec.ofNat 64 size) rest[1]? = .ok idx) :
    PointerAlignSpec.fromStr ('p' :: colons (spaceText n :: decimal size :: bits abi :: rest)) =
      .ok ⟨as (n.getD 0), al abi, pref, BitVec.ofNat 64 size, idx⟩ := by
  have hs : split ':' (colons (spaceText n :: decimal size :: bits abi :: rest)) =
      spaceText n :: decimal size :: bits abi :: rest := by
    refine split_colons _ (by simp) fun q hq => ?_
    simp only [List.mem_cons] at hq
    rcases hq with rfl | rfl | rfl | hq
    · exact colon_space n
    · exact colon_decimal _
    · exact colon_decimal _
    · exact hrest q hq
  unfold PointerAlignSpec.fromStr
  dsimp only
  rw [sliceFrom1_ascii _ _ (by decide), Out.ok_bind, hs]
  dsimp only
  rw [parseSpace n h1, Out.ok_bind, parseU64_decimal size h2, Out.mapErr_ok, Out.ok_bind, parseAbi_bits abi h3,
    Out.ok_bind, hp, Out.ok_bind, hi, Out.ok_bind]
  rfl

private theorem applySpec_p (d : DataLayout) (s : Str) (sp : PointerAlignSpec)
    (h : PointerAlignSpec.fromStr ('p' :: s) = .ok sp) :
    applySpec d ('p' :: s) = .ok { d with pointerAlignments := d.pointerAlignments.update sp } := by
  change ((PointerAlignSpec.fromStr ('p' :: s)).mapErr DataLayoutError.badAlignSpec >>= fun s =>
      pure { d with pointerAlignments := d.pointerAlignments.update s }) = _
  rw [h]
  rfl

private theorem applySpec_t (d : DataLayout) (c : Char) (hc : c = 'i' ∨ c = 'v' ∨ c = 'f' ∨ c = 'a') (s : Str)
    (sp : TypeAlignSpec) (h : TypeAlignSpec.fromStr (c :: s) = .ok sp) :
    applySpec d (c :: s) = .ok { d with typeAlignments := d.typeAlignments.update sp } := by
  have hap : applySpec d (c :: s) = ((TypeAlignSpec.fromStr (c :: s)).mapErr .badAlignSpec >>= fun s =>
      pure { d with typeAlignments := d.typeAlignments.update s }) := by
    rcases hc with rfl | rfl | rfl | rfl <;> rfl
  rw [hap, h]
  rfl

end LSpec

open LSpec in
/-- Applying the text of a meaningful spec to a layout has the effect the spec means. -/
theorem C38_spec (s : LSpec) (hs : s.Ok) (d : DataLayout) : applySpec d s.text = .ok (s.meaning d) := by
  cases s with
  | little => rfl
  | big => rfl
  | stack a =>
    change (parseBitAlign (bits a) >>= fun a => pure { d with naturalStackAlignment := some a }) = _
    rw [parseBitAlign_bits a hs]
    rfl
  | program n =>
    change (parseAS (decimal n) >>= fun a => pure { d with programAddressSpace := a }) = _
    rw [parseAS_decimal n hs]
    rfl
  | global n =>
    change (parseAS (decimal n) >>= fun a => pure { d with globalVariableAddressSpace := a }) = _
    rw [parseAS_decimal n hs]
    rfl
  | alloca n =>
    change (parseAS (decimal n) >>= fun a => pure { d with allocaAddressSpace := a }) = _
    rw [parseAS_decimal n hs]
    rfl
  | pointer n size abi =>
    obtain ⟨h1, h2, h3⟩ := hs
    exact applySpec_p d _ _ (pointer_ok n size abi [] (al abi) _ h1 h2 h3 (by simp) rfl rfl)
  | pointerPref n size abi pref =>
    obtain ⟨h1, h2, h3, h4, h5⟩ := hs
    refine applySpec_p d _ _ (pointer_ok n size abi [bits pref] (al pref) _ h1 h2 h3 ?_ (parsePref_bits _ _ h5) rfl)
    intro s hs
    rw [List.mem_singleton.1 hs]
    exact colon_decimal _
  | pointerIndex n size abi pref idx =>
    obtain ⟨h1, h2, h3, h4, h5, h6⟩ := hs
    refine applySpec_p d _ _ (pointer_ok n size abi [bits pref, decimal idx] (al pref) (BitVec.ofNat 64 idx)
      h1 h2 h3 ?_ (parsePref_bits _ _ h5) ?_)
    · intro s hs
      simp only [List.mem_cons, List.not_mem_nil, or_false] at hs
      rcases hs with rfl | rfl <;> exact colon_decimal _
    · show (parseU64 (decimal idx)).mapErr AlignSpecError.badInt = _
      rw [parseU64_decimal idx h6]
      rfl
  | integer size abi pref =>
    obtain ⟨h0, h1, h2, h3⟩ := hs
    exact applySpec_t d 'i' (by simp) _ _ (other_ok 'i' (.integer (w size)) size abi pref (by simp) h0 h1 h2 h3)
  | float size abi pref =>
    obtain ⟨h0, h1, h2, h3⟩ := hs
    exact applySpec_t d 'f' (by simp) _ _ (other_ok 'f' (.float (w size)) size abi pref (by simp) h0 h1 h2 h3)
  | vector size abi pref =>
    obtain ⟨h0, h1, h2, h3⟩ := hs
    exact applySpec_t d 'v' (by simp) _ _ (other_ok 'v' (.vector (w size)) size abi pref (by simp) h0 h1 h2 h3)
  | aggregate abi pref => exact applySpec_t d 'a' (by simp) _ _ (aggregate_ok abi pref hs.1 hs.2)
  | functionIndependent abi =>
    change (parseBitAlign (bits abi) >>= fun a =>
      pure { d with functionPointerAlignment := some (.independent a) }) = _
    rw [parseBitAlign_bits abi hs]
    rfl
  | functionMultiple abi =>
    change (parseBitAlign (bits abi) >>= fun a =>
      pure { d with functionPointerAlignment := some (.multipleOfFunctionAlign a) }) = _
    rw [parseBitAlign_bits abi hs]
    rfl
  | mangling m => cases m <;> rfl
  | native x xs =>
    have hc : collect parseWidth (split ':' (colons ((x :: xs).map decimal))) =
        .ok ((x :: xs).map (BitVec.ofNat 32)) := by
      rw [split_colons _ (by simp)]
      · refine collect_ok _ _ _ _ fun y hy => ?_
        unfold parseWidth
        rw [parseU32_decimal y (hs y hy)]
        rfl
      · intro p hp
        obtain ⟨y, _, rfl⟩ := List.mem_map.1 hp
        exact colon_decimal _
    show specN d (colons ((x :: xs).map decimal)) = _
    unfold specN
    split
    · rename_i he
      rw [he] at hc
      cases hc
    · rename_i c cs he
      rw [if_neg, hc]
      · rfl
      · rintro rfl
        have hmem : 'i' ∈ colons ((x :: xs).map decimal) := by rw [he]; simp
        have hd : (decimal x).head? = (colons ((x :: xs).map decimal)).head? := by
          cases hx : decimal x with
          | nil => exact absurd hx (decimal_ne_nil x)
          | cons c' cs' =>
            rw [List.map_cons, hx, colons, List.intercalate_cons_cons_left]
            rfl
        rw [he] at hd
        exact decimal_not_mem x 'i' (by decide) (List.mem_of_mem_head? (by rw [hd]; rfl))
  | nonIntegral x xs =>
    have hc : collect parseNonIntegral (split ':' (colons ((x :: xs).map decimal))) = .ok ((x :: xs).map as) := by
      rw [split_colons _ (by simp)]
      · refine collect_ok _ _ _ _ fun y hy => ?_
        have hy := hs y hy
        unfold parseNonIntegral
        rw [parseAS_decimal y hy.2, Out.ok_bind, if_neg]
        · rfl
        · intro he
          have := congrArg (fun a : AddressSpace => a.val.toNat) he
          simp only [as, AddressSpace.default, BitVec.toNat_ofNat, show (0 : U32).toNat = 0 from rfl] at this
          omega
      · intro p hp
        obtain ⟨y, _, rfl⟩ := List.mem_map.1 hp
        exact colon_decimal _
    change (collect parseNonIntegral (split ':' (colons ((x :: xs).map decimal))) >>= fun l =>
      pure { d with nonIntegralAddressSpaces := l }) = _
    rw [hc]
    rfl

open LSpec in
private theorem text_chars (s : LSpec) : ∀ c ∈ s.text, c.toNat < 128 ∧ c ≠ '-' := by
  have hdec : ∀ n, ∀ c ∈ decimal n, c.toNat < 128 ∧ c ≠ '-' := by
    intro n c hc
    have := decimal_digit hc
    refine ⟨by omega, ?_⟩
    rintro rfl
    exact absurd this (by decide)
  have hcol : ∀ ps : List Str, (∀ p ∈ ps, ∀ c ∈ p, c.toNat < 128 ∧ c ≠ '-') →
      ∀ c ∈ colons ps, c.toNat < 128 ∧ c ≠ '-' := by
    intro ps hps c hc
    unfold colons at hc
    induction ps with
    | nil => cases hc
    | cons p ps ih =>
      cases ps with
      | nil =>
        rw [List.intercalate_singleton] at hc
        exact hps p (by simp) c hc
      | cons q qs =>
        rw [List.intercalate_cons_cons] at hc
        rcases List.mem_append.1 hc with hc | hc
        · rcases List.mem_append.1 hc with hc | hc
          · exact hps p (by simp) c hc
          · rw [List.mem_singleton.1 hc]
            decide
        · exact ih (fun s hs => hps s (List.mem_cons_of_mem _ hs)) hc
  have hspace : ∀ n, ∀ c ∈ spaceText n, c.toNat < 128 ∧ c ≠ '-' := by
    intro n
    cases n with
    | none => intro c hc; cases hc
    | some n => exact hdec n
  have hpref : ∀ n, ∀ p ∈ prefText n, ∀ c ∈ p, c.toNat < 128 ∧ c ≠ '-' := by
    intro n p hp
    cases n with
    | none => cases hp
    | some n =>
      rw [List.mem_singleton.1 hp]
      exact hdec _
  have hcons : ∀ (x : Char) (l : Str), (x.toNat < 128 ∧ x ≠ '-') → (∀ c ∈ l, c.toNat < 128 ∧ c ≠ '-') →
      ∀ c ∈ x :: l, c.toNat < 128 ∧ c ≠ '-' := by
    intro x l hx hl c hc
    rcases List.mem_cons.1 hc with rfl | hc
    · exact hx
    · exact hl c hc
  have hl : ∀ (x : Str) (l : List Str), (∀ c ∈ x, c.toNat < 128 ∧ c ≠ '-') →
      (∀ p ∈ l, ∀ c ∈ p, c.toNat < 128 ∧ c ≠ '-') → ∀ p ∈ x :: l, ∀ c ∈ p, c.toNat < 128 ∧ c ≠ '-' := by
    intro x l hx hl p hp
    rcases List.mem_cons.1 hp with rfl | hp
    · exact hx
    · exact hl p hp
  have hn : ∀ p ∈ ([] : List Str), ∀ c ∈ p, c.toNat < 128 ∧ c ≠ '-' := by simp
  have hmap : ∀ l : List Nat, ∀ p ∈ l.map decimal, ∀ c ∈ p, c.toNat < 128 ∧ c ≠ '-' := by
    intro l p hp
    obtain ⟨y, _, rfl⟩ := List.mem_map.1 hp
    exact hdec y
  cases s with
  | little => decide
  | big => decide
  | stack a => exact hcons _ _ (by decide) (hdec _)
  | program n => exact hcons _ _ (by decide) (hdec _)
  | global n => exact hcons _ _ (by decide) (hdec _)
  | alloca n => exact hcons _ _ (by decide) (hdec _)
  | pointer n size abi =>
    exact hcons _ _ (by decide) (hcol _ (hl _ _ (hspace n) (hl _ _ (hdec _) (hl _ _ (hdec _) hn))))
  | pointerPref n size abi pref =>
    exact hcons _ _ (by decide)
      (hcol _ (hl _ _ (hspace n) (hl _ _ (hdec _) (hl _ _ (hdec _) (hl _ _ (hdec _) hn)))))
  | pointerIndex n size abi pref idx =>
    exact hcons _ _ (by decide)
      (hcol _ (hl _ _ (hspace n) (hl _ _ (hdec _) (hl _ _ (hdec _) (hl _ _ (hdec _) (hl _ _ (hdec _) hn))))))
  | integer size abi pref => exact hcons _ _ (by decide) (hcol _ (hl _ _ (hdec _) (hl _ _ (hdec _) (hpref pref))))
  | float size abi pref => exact hcons _ _ (by decide) (hcol _ (hl _ _ (hdec _) (hl _ _ (hdec _) (hpref pref))))
  | vector size abi pref => exact hcons _ _ (by decide) (hcol _ (hl _ _ (hdec _) (hl _ _ (hdec _) (hpref pref))))
  | aggregate abi pref =>
    exact hcons _ _ (by decide) (hcons _ _ (by decide) (hcol _ (hl _ _ (hdec _) (hpref pref))))
  | functionIndependent abi => exact hcons _ _ (by decide) (hcons _ _ (by decide) (hdec _))
  | functionMultiple abi => exact hcons _ _ (by decide) (hcons _ _ (by decide) (hdec _))
  | mangling m => cases m <;> decide
  | native x xs => exact hcons _ _ (by decide) (hcol _ (hmap _))
  | nonIntegral x xs =>
    exact hcons _ _ (by decide) (hcons _ _ (by decide) (hcons _ _ (by decide) (hcol _ (hmap _))))

/-- Writing any non-empty list of meaningful specs as a datalayout string and parsing it gives the default layout changed
by the meanings of the specs, in order. -/
theorem C38_round_trip (specs : List LSpec) (hne : specs ≠ []) (h : ∀ s ∈ specs, s.Ok) :
    fromStr (['-'].intercalate (specs.map LSpec.text)) =
      .ok (specs.foldl (fun d s => s.meaning d) DataLayout.default) := by
  rw [C37_left_to_right _ (by simpa using hne)]
  · generalize DataLayout.default = d
    clear hne
    induction specs generalizing d with
    | nil => rfl
    | cons s l ih =>
      rw [List.map_cons, List.foldlM_cons, C38_spec s (h s (by simp)), Out.ok_bind,
        ih (fun s hs => h s (List.mem_cons_of_mem _ hs))]
      rfl
  · intro t ht
    obtain ⟨s, _, rfl⟩ := List.mem_map.1 ht
    exact text_chars s

/-- The x86-64 Linux datalayout is the text of such a list. -/
example :
    let specs : List LSpec := [.little, .mangling .elf, .pointer (some 270) 32 2, .pointer (some 271) 32 2,
      .pointer (some 272) 64 3, .integer 64 3 none, .float 80 4 none, .native 8 [16, 32, 64], .stack 4]
    (∀ s ∈ specs, s.Ok) ∧ ['-'].intercalate (specs.map LSpec.text) =
      "e-m:e-p270:32:32-p271:32:32-p272:64:64-i64:64-f80:128-n8:16:32:64-S128".toList := by
  refine ⟨?_, by decide +kernel⟩
  intro s hs
  simp only [List.mem_cons, List.not_mem_nil, or_false] at hs
  rcases hs with rfl | rfl | rfl | rfl | rfl | rfl | rfl | rfl | rfl <;> simp [LSpec.Ok]

end Verif.Props
