import Verif.Mapper.JoinSpec
import Verif.Props.Written

/-!
# Top-level blocks one after the other

What two lists of top-level blocks say, one after the other.
-/

namespace Verif

open Spec

/-! ## Checks -/

section
variable {ε α : Type}

theorem all_append {c : α → Check ε} {l l' : List α} {b : Bad ε} :
    All c (l ++ l') b ↔ All c l b ∨ ((∀ a ∈ l, ∀ x, ¬ c a x) ∧ All c l' b) := by
  induction l with
  | nil => simp [all_nil]
  | cons a l ih =>
    rw [List.cons_append, all_cons, all_cons, ih]
    constructor
    · rintro (h | ⟨h, h' | ⟨h', h''⟩⟩)
      · exact .inl (.inl h)
      · exact .inl (.inr ⟨h, h'⟩)
      · refine .inr ⟨fun x hx => ?_, h''⟩
        rcases List.mem_cons.1 hx with rfl | hx
        · exact h
        · exact h' x hx
    · rintro ((h | ⟨h, h'⟩) | ⟨h, h'⟩)
      · exact .inl h
      · exact .inr ⟨h, .inl h'⟩
      · exact .inr ⟨h a (by simp), .inr ⟨fun x hx => h x (List.mem_cons_of_mem _ hx), h'⟩⟩

/-- A check that finds something in one of the elements finds something. -/
theorem all_some {c : α → Check ε} {l : List α} {a : α} (ha : a ∈ l) {b : Bad ε} (h : c a b) : ∃ b', All c l b' := by
  induction l with
  | nil => cases ha
  | cons x l ih =>
    by_cases hx : ∃ y, c x y
    · obtain ⟨y, hy⟩ := hx
      exact ⟨y, all_cons.2 (.inl hy)⟩
    · rcases List.mem_cons.1 ha with rfl | ha
      · exact absurd ⟨b, h⟩ hx
      · obtain ⟨y, hy⟩ := ih ha
        exact ⟨y, all_cons.2 (.inr ⟨fun z hz => hx ⟨z, hz⟩, hy⟩)⟩

theorem all_none {c : α → Check ε} {l : List α} (h : ∀ b, ¬ All c l b) : ∀ a ∈ l, ∀ b, ¬ c a b := by
  intro a ha b hb
  obtain ⟨y, hy⟩ := all_some ha hb
  exact h y hy

/-- Checks that find corresponding things. -/
theorem all_trans {c c' : α → Check ε} {l : List α} {τ : Bad ε → Bad ε} (h : ∀ a ∈ l, ∀ b, c a b → c' a (τ b))
    (hn : ∀ a ∈ l, (∀ b, ¬ c a b) → ∀ b, ¬ c' a b) {b : Bad ε} (hb : All c l b) : All c' l (τ b) := by
  induction l with
  | nil => exact (all_nil hb).elim
  | cons a l ih =>
    rw [all_cons] at hb ⊢
    rcases hb with hb | ⟨hb, hb'⟩
    · exact .inl (h a (by simp) b hb)
    · exact .inr ⟨hn a (by simp) hb, ih (fun x hx => h x (List.mem_cons_of_mem _ hx)) (fun x hx => hn x (List.mem_cons_of_mem _ hx)) hb'⟩

end

/-! ## The order of blocks -/

theorem inOrder_append {l xs : List (BBlock × Forest)} (hxs : InOrder xs) (hl : InOrder l) : InOrder (xs ++ l) := by
  intro pre c post he
  rcases List.append_eq_append_iff.1 he with ⟨a, rfl, h2⟩ | ⟨a, h1, h2⟩
  · rcases hl a c post h2 with h | ⟨h3, a', i, b, rfl, h4, h5⟩
    · exact .inl h
    · exact .inr ⟨h3, xs ++ a', i, b, by simp, h4, h5⟩
  · cases a with
    | nil =>
      rcases hl [] c post (by simpa using h2.symm) with h | ⟨h3, a', i, b, h6, h4, h5⟩
      · exact .inl h
      · simp at h6
    | cons d a =>
      simp only [List.cons_append, List.cons.injEq] at h2
      obtain ⟨rfl, -⟩ := h2
      exact hxs pre _ a h1

theorem inOrder_first {l : List (BBlock × Forest)} (h : InOrder l) :
    ((l.takeWhile fun d => d.1.blockId != 13).find? fun d => d.1.blockId == 8) = none := by
  rw [List.find?_eq_none]
  intro d hd h8
  obtain ⟨x, y, hxy⟩ := List.append_of_mem hd
  have hall : ∀ e ∈ l.takeWhile fun d => d.1.blockId != 13, e.1.blockId ≠ 13 := by
    intro e he
    simpa using List.all_eq_true.1 (List.all_takeWhile (p := fun d : BBlock × Forest => d.1.blockId != 13) (l := l)) e he
  have hl : l = x ++ d :: (y ++ l.dropWhile fun d => d.1.blockId != 13) := by
    conv => lhs; rw [← List.takeWhile_append_dropWhile (p := fun d : BBlock × Forest => d.1.blockId != 13) (l := l), hxy]
    simp
  have h8 : d.1.blockId = 8 := by simpa using h8
  rcases h x d _ hl with h | ⟨-, a, i, b, rfl, hi, -⟩
  · rw [h8] at h
    exact absurd h (by decide)
  · exact hall i (by rw [hxy]; simp) hi

/-- The blocks of a module, with what follows its file. -/
def withLater (l : List (BBlock × Forest)) (p : Parts (BBlock × Forest)) : Parts (BBlock × Forest) :=
  { p with strtab := p.strtab.or (l.find? fun d => d.1.blockId == 23), symtab := p.symtab.or (l.find? fun d => d.1.blockId == 25) }

theorem parts_append {l : List (BBlock × Forest)} (h : InOrder l) (xs : List (BBlock × Forest)) :
    parts (xs ++ l) = (parts xs).map (withLater l) ++ parts l := by
  induction xs with
  | nil => rfl
  | cons c cs ih =>
    rw [List.cons_append, parts, ih, parts]
    split
    · rw [List.map_cons, List.cons_append]
      congr 1
      unfold withLater
      dsimp only
      rw [List.find?_append, List.find?_append]
      congr 1
      rw [List.takeWhile_append]
      split
      · next hl =>
        rw [List.find?_append, inOrder_first h, Option.or_none]
        congr 1
        exact (List.takeWhile_prefix _).eq_of_length hl |>.symm
      · rfl
    · rfl

theorem follow_own {l : List (BBlock × Forest)} {p : Parts (BBlock × Forest)} (h : p.strtab ≠ none) (h' : p.symtab ≠ none) :
    withLater l p = p := by
  unfold withLater
  cases p with
  | mk i m st sy =>
    cases st with
    | none => exact absurd rfl h
    | some st => cases sy with
      | none => exact absurd rfl h'
      | some sy => rfl

theorem parts_nil {l : List (BBlock × Forest)} : parts l = [] ↔ ∀ d ∈ l, d.1.blockId ≠ 13 := by
  induction l with
  | nil => simp [parts]
  | cons c l ih =>
    rw [parts]
    split
    · next h => simp [h]
    · next h =>
      rw [ih, List.forall_mem_cons]
      exact ⟨fun h' => ⟨h, h'⟩, (·.2)⟩

/-- If there is a module, then the last one has a module block, and there is no identification block after it. -/
theorem last_module {l : List (BBlock × Forest)} (hm : ∀ p ∈ parts l, p.module ≠ none) (hne : parts l ≠ []) :
    ∃ a d b, l = a ++ d :: b ∧ d.1.blockId = 8 ∧ ∀ x ∈ b, x.1.blockId ≠ 13 := by
  induction l with
  | nil => exact absurd rfl hne
  | cons c l ih =>
    by_cases hl : parts l = []
    · have hc : c.1.blockId = 13 := by
        refine Classical.byContradiction fun h => hne ?_
        rw [parts, if_neg h, hl]
      rw [parts, if_pos hc] at hm
      have h13 := parts_nil.1 hl
      have hw : (l.takeWhile fun d => d.1.blockId != 13) = l := by
        have := List.takeWhile_append_of_pos (p := fun d : BBlock × Forest => d.1.blockId != 13) (l₁ := l) (l₂ := [])
          (fun x hx => by simpa using h13 x hx)
        simpa using this
      have := hm _ List.mem_cons_self
      dsimp only at this
      rw [hw] at this
      cases hf : l.find? fun d => d.1.blockId == 8 with
      | none => exact absurd hf this
      | some d =>
        obtain ⟨a, b, rfl⟩ := List.append_of_mem (List.mem_of_find?_eq_some hf)
        refine ⟨c :: a, d, b, rfl, by simpa using List.find?_some hf, fun x hx => h13 x ?_⟩
        simp [hx]
    · obtain ⟨a, d, b, rfl, h1, h2⟩ := ih (fun p hp => hm p (by
        rw [parts]
        split
        · exact List.mem_cons_of_mem _ hp
        · exact hp)) hl
      exact ⟨c :: a, d, b, rfl, h1, h2⟩

/-! ## One list after the other -/

/-- How an outcome alone becomes one after a file that maps to `f`. -/
def Spec.Bad.after (f : Bitcode) : Bad MapperError → Bad MapperError
  | .error e => .error (if e = .unroll .moduleWithoutIdentification ∧ f.modules ≠ [] then .unroll .adjacentModules else e)
  | .stop s => .stop s

theorem joined_ends {f : Bitcode} {x : Out MapperError Bitcode} {b : Bad MapperError} (h : x.Ends b) :
    (joined f x).Ends (Spec.Bad.after f b) := by
  rcases b with e | p | -
  · cases (h : x = .err e); rfl
  · cases (h : x = .panic p); rfl
  · cases (h : x = .diverge); rfl

theorem ends_eq {ε α : Type} {x y : Out ε α} {b : Bad ε} (h : x.Ends b) (h' : y.Ends b) : x = y := by
  rcases b with e | p | -
  · exact Eq.trans (h : x = .err e) (h' : y = .err e).symm
  · exact Eq.trans (h : x = .panic p) (h' : y = .panic p).symm
  · exact Eq.trans (h : x = .diverge) (h' : y = .diverge).symm

section
variable {pf : Profile} {target : Str} {tops tops' : List (BBlock × Forest)} {f : Bitcode}

theorem says_none (hs : SmallTables pf tops) (h : FileSays pf target tops f) :
    (∀ b, ¬ TopsBad tops b) ∧ ∀ p ∈ parts tops, ∀ b, ¬ PartsBad pf p b := by
  have hj := ofTops_judges pf target hs
  have hok := (ofTops_says pf target hs f).2 h
  have hno := fun b => hj.no hok b
  have h1 : ∀ b, ¬ TopsBad tops b := fun b hb => hno b (first_cons.2 (.inl hb))
  exact ⟨h1, all_none fun b hb => hno b (first_cons.2 (.inr ⟨h1, first_singleton.2 hb⟩))⟩

theorem each_left {α β : Type} {P : α → β → Prop} {l : List α} {m : List β} (h : Each P l m) {a : α} (ha : a ∈ l) :
    ∃ b ∈ m, P a b := by
  obtain ⟨i, hi⟩ := List.getElem?_of_mem ha
  have hlt : i < m.length := by rw [h.1]; exact (List.getElem?_eq_some_iff.1 hi).1
  exact ⟨m[i], List.getElem_mem hlt, h.2 i a _ hi (List.getElem?_eq_getElem hlt)⟩

theorem says_modules (h : FileSays pf target tops f) : (f.modules = [] ↔ parts tops = []) ∧
    ∀ p ∈ parts tops, p.strtab ≠ none ∧ p.module ≠ none := by
  refine ⟨?_, fun p hp => ?_⟩
  · rw [← List.length_eq_zero_iff, h.2.1, List.length_eq_zero_iff]
  · obtain ⟨m, -, hm⟩ := each_left h.2 hp
    obtain ⟨c, h1, -⟩ := hm.strtab
    obtain ⟨d, _, _, _, h2, -⟩ := hm.module
    rw [h1, h2]
    simp

theorem topBad_after (h : FileSays pf target tops f) (pre : List (BBlock × Forest)) (c : BBlock × Forest) :
    (∀ b, TopBad pre c b → TopBad (tops ++ pre) c (Spec.Bad.after f b)) ∧
    ((∀ b, ¬ TopBad pre c b) → ∀ b, ¬ TopBad (tops ++ pre) c b) := by
  obtain ⟨hnil, hparts⟩ := says_modules h
  -- whether there is a second module
  have hadj : (∃ a d between, tops ++ pre = a ++ d :: between ∧ d.1.blockId = 8 ∧ ∀ x ∈ between, x.1.blockId ≠ 13) ↔
      (∃ a d between, pre = a ++ d :: between ∧ d.1.blockId = 8 ∧ ∀ x ∈ between, x.1.blockId ≠ 13) ∨
      ((∀ d ∈ pre, d.1.blockId ≠ 13) ∧ f.modules ≠ []) := by
    constructor
    · rintro ⟨a, d, b, he, h8, hb⟩
      rcases List.append_eq_append_iff.1 he with ⟨x, rfl, h2⟩ | ⟨x, h1, h2⟩
      · exact .inl ⟨x, d, b, h2, h8, hb⟩
      · cases x with
        | nil => exact .inl ⟨[], d, b, by simpa using h2.symm, h8, hb⟩
        | cons d' x =>
          simp only [List.cons_append, List.cons.injEq] at h2
          obtain ⟨rfl, rfl⟩ := h2
          refine .inr ⟨fun e he => hb e (by simp [he]), fun hf => ?_⟩
          have h13 := parts_nil.1 (hnil.1 hf)
          rcases h.1 a d x h1 with h' | ⟨-, a', i, b', rfl, hi, -⟩
          · rw [h8] at h'
            exact absurd h' (by decide)
          · exact h13 i (by rw [h1]; simp) hi
    · rintro (⟨a, d, b, rfl, h8, hb⟩ | ⟨hp, hf⟩)
      · exact ⟨tops ++ a, d, b, by simp, h8, hb⟩
      · obtain ⟨a, d, b, rfl, h8, hb⟩ := last_module (fun p hp => (hparts p hp).2) (fun h => hf (hnil.2 h))
        refine ⟨a, d, b ++ pre, by simp, h8, fun x hx => ?_⟩
        rcases List.mem_append.1 hx with hx | hx
        · exact hb x hx
        · exact hp x hx
  have hno : (∀ d ∈ tops ++ pre, d.1.blockId ≠ 13) ↔ (∀ d ∈ pre, d.1.blockId ≠ 13) ∧ f.modules = [] := by
    rw [hnil, parts_nil]
    simp only [List.mem_append]
    exact ⟨fun h => ⟨fun d hd => h d (.inr hd), fun d hd => h d (.inl hd)⟩, fun h d hd => hd.elim (h.2 d) (h.1 d)⟩
  unfold TopBad
  simp only [first_cons, first_nil, and_false, or_false, fails, hadj, hno, not_and]
  by_cases h1 : c.1.blockId.toNat ∉ [8, 13, 23, 25]
  · constructor
    · rintro b (⟨-, rfl⟩ | ⟨hn, -⟩)
      · exact .inl ⟨h1, by simp [Spec.Bad.after]⟩
      · exact absurd rfl (hn _ h1)
    · intro hn b
      exact absurd (.inl ⟨h1, rfl⟩) (hn _)
  · by_cases h8 : c.1.blockId = 8
    · by_cases h13 : ∀ d ∈ pre, d.1.blockId ≠ 13
      · constructor
        · rintro b (⟨h, -⟩ | ⟨-, ⟨-, rfl⟩ | ⟨hn, -⟩⟩)
          · exact absurd h h1
          · by_cases hf : f.modules = []
            · exact .inr ⟨fun _ h => absurd h h1, .inl ⟨⟨h8, h13, hf⟩, by simp [Spec.Bad.after, hf]⟩⟩
            · exact .inr ⟨fun _ h => absurd h h1, .inr ⟨fun _ h => absurd h.2.2 hf, ⟨h8, .inr ⟨h13, hf⟩⟩, by simp [Spec.Bad.after, hf]⟩⟩
          · exact absurd rfl (hn _ ⟨h8, h13⟩)
        · intro hn b
          exact absurd (.inr ⟨fun _ h => absurd h h1, .inl ⟨⟨h8, h13⟩, rfl⟩⟩) (hn _)
      · constructor
        · rintro b (⟨h, -⟩ | ⟨-, ⟨⟨-, h⟩, -⟩ | ⟨-, ⟨-, h⟩, rfl⟩⟩)
          · exact absurd h h1
          · exact absurd h h13
          · exact .inr ⟨fun _ h => absurd h h1, .inr ⟨fun _ h => absurd h.2.1 h13, ⟨h8, .inl h⟩, by simp [Spec.Bad.after]⟩⟩
        · rintro hn b (⟨h, -⟩ | ⟨-, ⟨⟨-, h, -⟩, -⟩ | ⟨-, ⟨-, h | h⟩, rfl⟩⟩)
          · exact absurd h h1
          · exact absurd h h13
          · exact hn _ (.inr ⟨fun _ h => absurd h h1, .inr ⟨fun _ h => absurd h.2 h13, ⟨h8, h⟩, rfl⟩⟩)
          · exact absurd h.1 h13
    · constructor
      · rintro b (⟨h, -⟩ | ⟨-, ⟨⟨h, -⟩, -⟩ | ⟨-, ⟨h, -⟩, -⟩⟩)
        · exact absurd h h1
        · exact absurd h h8
        · exact absurd h h8
      · rintro hn b (⟨h, -⟩ | ⟨-, ⟨⟨h, -⟩, -⟩ | ⟨-, ⟨h, -⟩, -⟩⟩)
        · exact absurd h h1
        · exact absurd h h8
        · exact absurd h h8

theorem topsBad_split (tops tops' : List (BBlock × Forest)) (b : Bad MapperError) : TopsBad (tops ++ tops') b ↔
    TopsBad tops b ∨ ((∀ x, ¬ TopsBad tops x) ∧
      All (fun i => fun b => ∃ c, tops'[i]? = some c ∧ TopBad (tops ++ tops'.take i) c b) (List.range tops'.length) b) := by
  have h1 : ∀ x, All (fun i => fun b => ∃ c, (tops ++ tops')[i]? = some c ∧ TopBad ((tops ++ tops').take i) c b)
      (List.range tops.length) x ↔ TopsBad tops x := by
    intro x
    unfold TopsBad
    refine all_congr ⟨rfl, fun i a e ha he x => ?_⟩ x
    rw [ha] at he
    cases he
    have hlt : a < tops.length := List.mem_range.1 (List.mem_of_getElem? ha)
    rw [List.getElem?_append_left hlt, List.take_append_of_le_length (by omega)]
  unfold TopsBad
  rw [List.length_append, List.range_add, all_append, h1]
  have h2 : (∀ a ∈ List.range tops.length, ∀ x, ¬ ∃ c, (tops ++ tops')[a]? = some c ∧ TopBad ((tops ++ tops').take a) c x) ↔
      ∀ x, ¬ TopsBad tops x := by
    constructor
    · intro h x hx
      rw [← h1, all_iff] at hx
      obtain ⟨pre, a, post, he, -, ha⟩ := hx
      exact h a (by rw [he]; simp) x ha
    · intro h
      exact all_none fun x hx => h x ((h1 x).1 hx)
  rw [h2]
  have h3 : ∀ x, All (fun i => fun b => ∃ c, (tops ++ tops')[i]? = some c ∧ TopBad ((tops ++ tops').take i) c b)
      ((List.range tops'.length).map (tops.length + ·)) x ↔
      All (fun i => fun b => ∃ c, tops'[i]? = some c ∧ TopBad (tops ++ tops'.take i) c b) (List.range tops'.length) x := by
    intro x
    unfold All
    rw [List.map_map]
    refine iff_of_eq (congrArg (fun l => First l x) (List.map_congr_left fun i _ => ?_))
    funext b
    simp only [Function.comp]
    rw [List.getElem?_append_right (by omega), List.take_append, List.take_of_length_le (by omega : tops.length ≤ tops.length + i)]
    simp
  rw [h3]
  rfl

/-- The order of the blocks of the second list, after those of the first. -/
theorem topsBad_after (hs : SmallTables pf tops) (h : FileSays pf target tops f) :
    (∀ b, TopsBad tops' b → TopsBad (tops ++ tops') (Spec.Bad.after f b)) ∧
    ((∀ b, ¬ TopsBad tops' b) → ∀ b, ¬ TopsBad (tops ++ tops') b) := by
  have hno := (says_none hs h).1
  constructor
  · intro b hb
    refine (topsBad_split ..).2 (.inr ⟨hno, all_trans ?_ ?_ hb⟩)
    · rintro i - b ⟨c, hc, hb⟩
      exact ⟨c, hc, (topBad_after h _ c).1 b hb⟩
    · rintro i - hn b ⟨c, hc, hb⟩
      exact (topBad_after h _ c).2 (fun b hb => hn b ⟨c, hc, hb⟩) b hb
  · intro hn b hb
    rcases (topsBad_split ..).1 hb with hb | ⟨-, hb⟩
    · exact hno b hb
    · obtain ⟨pre, i, post, he, -, c, hc, hb⟩ := all_iff.1 hb
      refine (topBad_after h _ c).2 (fun b hb => ?_) b hb
      exact all_none hn i (by rw [he]; simp) b ⟨c, hc, hb⟩

/-- Blocks with which nothing is wrong are in order. -/
theorem inOrder_of_none (h : ∀ b, ¬ TopsBad tops b) : InOrder tops := by
  have hu := unrollBlocks_stands tops
  rcases orderly_or (unrollBlocks tops) with ho | ⟨pre, u, post, m, he, ho, hm⟩
  · exact (orderly_inOrder hu).1 ho
  · exact absurd ((tops_some hu he ho hm _).2 rfl) (h _)

/-! ## Modules -/

theorem partsSay_unique {p : Parts (BBlock × Forest)} {m m' : BitcodeModule}
    (hs : ∀ c bs, p.strtab = some c → TableSays pf c.2.records bs → bs.length < 2 ^ 64)
    (h : PartsSay pf target p m) (h' : PartsSay pf target p m') : m = m' := by
  have ex : ∀ o : Option (BBlock × Forest), ∃ q, OptEach StandsFor o q := by
    intro o
    cases o with
    | none => exact ⟨none, trivial⟩
    | some c => exact ⟨some _, (addTo_unrolled c.1.blockId c.2 : StandsFor c _)⟩
  obtain ⟨mo, h1⟩ := ex p.module
  obtain ⟨st, h2⟩ := ex p.strtab
  obtain ⟨sy, h3⟩ := ex p.symtab
  have hi : StandsFor p.identification _ := addTo_unrolled p.identification.1.blockId p.identification.2
  have e : ∀ m, PartsSay pf target p m → PartialModule.reify pf target ⟨_, mo, st, sy⟩ = .ok m :=
    fun m h => (reify_iff pf target (q := ⟨_, mo, st, sy⟩) hs hi h1 h2 h3).2 h
  have := (e m h).symm.trans (e m' h')
  cases this
  rfl

/-- What a module becomes when blocks withLater its file. -/
theorem follow_says {p : Parts (BBlock × Forest)} {m m' : BitcodeModule}
    (hs : ∀ c bs, p.strtab = some c → TableSays pf c.2.records bs → bs.length < 2 ^ 64)
    (h : PartsSay pf target p m) : PartsSay pf target (withLater tops' p) m' ↔ Late pf tops' m m' := by
  obtain ⟨cs, hst, hts⟩ := h.strtab
  have hstr : (withLater tops' p).strtab = p.strtab := by simp [withLater, hst]
  have hlate : ∀ s, (PartsSay pf target p { m' with symtab := s }) → { m' with symtab := s } = m := fun s h' =>
    partsSay_unique hs h' h
  constructor
  · intro h'
    rcases h.symtab with ⟨hp, hm⟩ | ⟨c, s, hp, hm, ht⟩
    · have e : { m' with symtab := none } = m := hlate none
        { identification := h'.identification
          strtab := by rw [← hstr]; exact h'.strtab
          module := h'.module
          symtab := .inl ⟨hp, rfl⟩ }
      rcases h'.symtab with ⟨hp', hm'⟩ | ⟨c, s, hp', hm', ht⟩
      · have hem : m' = m := by rw [← e, ← hm']
        rw [hem]
        refine .none fun c hc h25 => ?_
        rw [withLater, hp, Option.none_or, List.find?_eq_none] at hp'
        exact hp' c hc (by simpa using h25)
      · rw [withLater, hp, Option.none_or] at hp'
        have hem : m' = { m with symtab := some s } := by rw [← e, ← hm']
        rw [hem]
        obtain ⟨h25, pre, post, hl, hpre⟩ := List.find?_eq_some_iff_append.1 hp'
        exact .found hm hl (fun d hd => by simpa using hpre d hd) (by simpa using h25) ht
    · have hf : withLater tops' p = p := follow_own (by simp [hst]) (by simp [hp])
      rw [hf] at h'
      rw [← partsSay_unique hs h h']
      exact .own (by simp [hm])
  · intro hl
    have hsame : m.symtab ≠ none → PartsSay pf target (withLater tops' p) m := by
      intro hne
      rcases h.symtab with ⟨-, hm⟩ | ⟨c, s, hp, hm, ht⟩
      · exact absurd hm hne
      · rw [follow_own (by simp [hst]) (by simp [hp])]
        exact h
    have hid : ∀ {s}, m.symtab = none → (((withLater tops' p).symtab = none ∧ s = none) ∨
        ∃ c x, (withLater tops' p).symtab = some c ∧ s = some x ∧ TableSays pf c.2.records x.bytes) →
        PartsSay pf target (withLater tops' p) { m with symtab := s } := by
      intro s hm hc
      exact { identification := h.identification, strtab := by rw [hstr]; exact h.strtab, module := h.module, symtab := hc }
    have hnone : m.symtab = none → p.symtab = none := by
      intro hm
      rcases h.symtab with ⟨hp, -⟩ | ⟨c, s, -, hm', -⟩
      · exact hp
      · rw [hm] at hm'; cases hm'
    cases hl with
    | own hne => exact hsame hne
    | none hno =>
      by_cases hm : m.symtab = none
      · have hz := hid (s := none) hm (.inl ⟨by
          rw [withLater, hnone hm, Option.none_or, List.find?_eq_none]
          intro c hc
          simpa using hno c hc, rfl⟩)
        rwa [← hm] at hz
      · exact hsame hm
    | found hm hl hpre h25 ht =>
      rename_i c s pre post
      refine hid hm (.inr ⟨c, s, ?_, rfl, ht⟩)
      rw [withLater, hnone hm, Option.none_or, List.find?_eq_some_iff_append]
      exact ⟨by simpa using h25, pre, post, hl, fun d hd => by simpa using hpre d hd⟩

theorem each_map_left {α β γ : Type} {P : γ → β → Prop} {g : α → γ} {l : List α} {m : List β} :
    Each P (l.map g) m ↔ Each (fun a b => P (g a) b) l m := by
  unfold Each
  simp only [List.length_map, List.getElem?_map]
  constructor
  · rintro ⟨h1, h2⟩
    exact ⟨h1, fun i a b ha hb => h2 i _ b (by rw [ha]; rfl) hb⟩
  · rintro ⟨h1, h2⟩
    refine ⟨h1, fun i c b hc hb => ?_⟩
    obtain ⟨a, ha, rfl⟩ := Option.map_eq_some_iff.1 hc
    exact h2 i a b ha hb

theorem each_late (hs : SmallTables pf tops) (h : FileSays pf target tops f) (ms : List BitcodeModule) :
    Each (PartsSay pf target) ((parts tops).map (withLater tops')) ms ↔ Each (Late pf tops') f.modules ms := by
  rw [each_map_left]
  have hm : ∀ {p m m'}, p ∈ parts tops → PartsSay pf target p m →
      (PartsSay pf target (withLater tops' p) m' ↔ Late pf tops' m m') := fun hp h =>
    follow_says (fun c bs hc hbs => hs c (parts_strtab_mem hp hc) bs hbs) h
  unfold Each
  rw [h.2.1]
  refine and_congr_right fun hl => ⟨fun h' i m m' h1 h2 => ?_, fun h' i p m' h1 h2 => ?_⟩
  · have hlt : i < (parts tops).length := by rw [← h.2.1]; exact (List.getElem?_eq_some_iff.1 h1).1
    have hp := List.getElem?_eq_getElem hlt
    exact (hm (List.getElem_mem hlt) (h.2.2 i _ m hp h1)).1 (h' i _ m' hp h2)
  · have hlt : i < f.modules.length := by rw [h.2.1]; exact (List.getElem?_eq_some_iff.1 h1).1
    have hp := List.getElem?_eq_getElem hlt
    exact (hm (List.mem_of_getElem? h1) (h.2.2 i p _ h1 hp)).2 (h' i _ m' hp h2)

/-- What the two lists say, one after the other. -/
theorem says_append (hs : SmallTables pf tops) (hs' : SmallTables pf tops') (h : FileSays pf target tops f) {g : Bitcode} (h' : FileSays pf target tops' g)
    (x : Bitcode) :
    FileSays pf target (tops ++ tops') x ↔ ∃ ms, Each (Late pf tops') f.modules ms ∧ x.modules = ms ++ g.modules := by
  unfold FileSays
  rw [parts_append h'.1, each_append_left]
  constructor
  · rintro ⟨-, ms, gs, he, h1, h2⟩
    refine ⟨ms, (each_late hs h ms).1 h1, ?_⟩
    have e1 := (ofTops_says pf target hs' g).2 h'
    have e2 := (ofTops_says pf target hs' { modules := gs }).2 ⟨h'.1, h2⟩
    rw [e1] at e2
    cases e2
    exact he
  · rintro ⟨ms, h1, h2⟩
    exact ⟨inOrder_append h.1 h'.1, ms, g.modules, h2, (each_late hs h ms).2 h1, h'.2⟩

end

end Verif
