import Verif.Mapper.UnrollLemmas

/-! Lemmas about pairing modules with their tables. -/

namespace Verif
open Spec

theorem id_cases (u : UBlock) :
    (isIdentification u = true ∧ isModule u = false ∧ isStrtab u = false ∧ isSymtab u = false ∧ u.id = .ir .identification) ∨
    (isIdentification u = false ∧ isModule u = true ∧ isStrtab u = false ∧ isSymtab u = false ∧ u.id = .ir .module) ∨
    (isIdentification u = false ∧ isModule u = false ∧ isStrtab u = true ∧ isSymtab u = false ∧ u.id = .ir .strtab) ∨
    (isIdentification u = false ∧ isModule u = false ∧ isStrtab u = false ∧ isSymtab u = true ∧ u.id = .ir .symtab) ∨
    (isIdentification u = false ∧ isModule u = false ∧ isStrtab u = false ∧ isSymtab u = false ∧
      u.id ≠ .ir .identification ∧ u.id ≠ .ir .module ∧ u.id ≠ .ir .strtab ∧ u.id ≠ .ir .symtab) := by
  unfold isIdentification isModule isStrtab isSymtab
  generalize u.id = i
  by_cases h1 : i = .ir .identification
  · subst h1; simp
  by_cases h2 : i = .ir .module
  · subst h2; simp
  by_cases h3 : i = .ir .strtab
  · subst h3; simp
  by_cases h4 : i = .ir .symtab
  · subst h4; simp
  simp [h1, h2, h3, h4]

theorem takeWhile_snoc_stop {α : Type} (p : α → Bool) (l : List α) (a : α) (h : p a = false) :
    (l ++ [a]).takeWhile p = l.takeWhile p := by
  induction l with
  | nil => simp [h]
  | cons x l ih => simp only [List.cons_append, List.takeWhile_cons]; rw [ih]

theorem takeWhile_snoc_go {α : Type} (p : α → Bool) (l : List α) (a : α) (h : p a = true) :
    (l ++ [a]).takeWhile p = if l.all p then l ++ [a] else l.takeWhile p := by
  induction l with
  | nil => simp [h]
  | cons x l ih =>
    simp only [List.cons_append, List.takeWhile_cons, List.all_cons]
    cases hx : p x
    · simp
    · simp only [ih, Bool.true_and, ite_true]
      split <;> simp_all

theorem takeWhile_all {α : Type} (p : α → Bool) (l : List α) (h : l.all p = true) : l.takeWhile p = l := by
  induction l with
  | nil => rfl
  | cons x l ih =>
    simp only [List.all_cons, Bool.and_eq_true] at h
    simp [h.1, ih h.2]

/-- An element that is no module does not change the module found. -/
theorem module_snoc (us : List UBlock) (u : UBlock) (h : isModule u = false) :
    ((us ++ [u]).takeWhile fun v => !isIdentification v).find? isModule =
      (us.takeWhile fun v => !isIdentification v).find? isModule := by
  cases hu : isIdentification u
  · rw [takeWhile_snoc_go _ _ _ (by simp [hu])]
    split
    · next ha => rw [takeWhile_all _ _ ha]; simp [h]
    · rfl
  · rw [takeWhile_snoc_stop _ _ _ (by simp [hu])]

theorem find_snoc (f : UBlock → Bool) (us : List UBlock) (u : UBlock) :
    (us ++ [u]).find? f = (us.find? f).or (if f u then some u else none) := by
  rw [List.find?_append]
  congr 1
  cases hu : f u <;> simp [hu]

theorem pairs_nil_iff (us : List UBlock) : pairs us = [] ↔ us.all (fun v => !isIdentification v) = true := by
  induction us with
  | nil => simp [pairs]
  | cons v us ih =>
    unfold pairs
    cases hv : isIdentification v <;> simp [hv]
    simpa using ih

theorem pairs_identification (us : List UBlock) (u : UBlock) (h : isIdentification u = true) (hm : isModule u = false)
    (h3 : isStrtab u = false) (h4 : isSymtab u = false) : pairs (us ++ [u]) = pairs us ++ [PartialModule.new u] := by
  induction us with
  | nil => simp [pairs, h, PartialModule.new]
  | cons v us ih =>
    simp only [List.cons_append, pairs]
    rw [ih, module_snoc us u hm, find_snoc, find_snoc]
    simp only [h3, h4]
    split <;> simp

theorem pairs_strtab (us : List UBlock) (u : UBlock) (h : isIdentification u = false) (hm : isModule u = false)
    (h3 : isStrtab u = true) (h4 : isSymtab u = false) :
    pairs (us ++ [u]) = (pairs us).map fun p => if p.strtab.isNone then { p with strtab := some u } else p := by
  induction us with
  | nil => simp [pairs, h]
  | cons v us ih =>
    simp only [List.cons_append, pairs]
    rw [ih, module_snoc us u hm, find_snoc, find_snoc]
    simp only [h3, h4]
    split
    · cases hf : us.find? isStrtab <;> simp
    · rfl

theorem pairs_symtab (us : List UBlock) (u : UBlock) (h : isIdentification u = false) (hm : isModule u = false)
    (h3 : isStrtab u = false) (h4 : isSymtab u = true) :
    pairs (us ++ [u]) = (pairs us).map fun p => if p.symtab.isNone then { p with symtab := some u } else p := by
  induction us with
  | nil => simp [pairs, h]
  | cons v us ih =>
    simp only [List.cons_append, pairs]
    rw [ih, module_snoc us u hm, find_snoc, find_snoc]
    simp only [h3, h4]
    split
    · cases hf : us.find? isSymtab <;> simp
    · rfl

theorem setModule_pairs (us : List UBlock) (u : UBlock) (h : isIdentification u = false) (hm : isModule u = true)
    (h3 : isStrtab u = false) (h4 : isSymtab u = false) :
    setModule u (pairs us) = match offence us u with
      | some m => .err (.unroll m)
      | none => .ok (pairs (us ++ [u])) := by
  unfold offence
  rw [if_pos hm]
  induction us with
  | nil => simp [pairs, setModule]
  | cons v us ih =>
    by_cases ha : us.all (fun v => !isIdentification v) = true
    · have hp := (pairs_nil_iff us).2 ha
      cases hv : isIdentification v
      · rw [show pairs (v :: us) = [] by simp [pairs, hv, hp]]
        rw [if_pos (by simpa [hv] using ha)]
        rfl
      · rw [if_neg (by simp [hv])]
        have hpu : pairs (us ++ [u]) = [] := by
          rw [pairs_nil_iff, List.all_append, ha]; simp [h]
        rw [List.cons_append]
        simp only [pairs, hv, hp, hpu, ite_true]
        rw [takeWhile_all _ us ha, takeWhile_all _ (us ++ [u]) (by rw [List.all_append, ha]; simp [h])]
        rw [List.reverse_cons, takeWhile_snoc_stop _ _ _ (by simp [hv]), takeWhile_all _ us.reverse (by simpa using ha)]
        rw [find_snoc, find_snoc, find_snoc]
        simp only [hm, h3, h4, List.any_reverse]
        cases hf : us.find? isModule with
        | none =>
          have : us.any isModule = false := by
            rw [List.any_eq_false]; intro x hx; exact List.find?_eq_none.1 hf x hx
          simp [this, setModule]
        | some w =>
          have : us.any isModule = true := by
            rw [List.any_eq_true]; exact ⟨w, List.mem_of_find?_eq_some hf, List.find?_some hf⟩
          simp [this, setModule]
    · have ha' := ha
      rw [if_neg ha] at ih
      rw [if_neg (by
        intro hc; apply ha; simp only [List.all_cons, Bool.and_eq_true] at hc; exact hc.2)]
      have hrev : ((v :: us).reverse.takeWhile fun v => !isIdentification v) =
          us.reverse.takeWhile fun v => !isIdentification v := by
        rw [List.reverse_cons]
        cases hv : isIdentification v
        · rw [takeWhile_snoc_go _ _ _ (by simp [hv]), if_neg (by rw [List.all_reverse]; exact ha)]
        · rw [takeWhile_snoc_stop _ _ _ (by simp [hv])]
      rw [hrev]
      cases hpl : pairs us with
      | nil => exact absurd ((pairs_nil_iff us).1 hpl) ha
      | cons q qs =>
        rw [hpl] at ih
        cases hv : isIdentification v
        · rw [show pairs (v :: us) = q :: qs by simp [pairs, hv, hpl], ih,
            show pairs (v :: us ++ [u]) = pairs (us ++ [u]) by simp [pairs, hv]]
        · rw [List.cons_append]
          simp only [pairs, hv, hpl, ite_true]
          rw [takeWhile_snoc_go _ _ _ (by simp [h]), if_neg ha, find_snoc, find_snoc]
          simp only [h3, h4]
          rw [setModule, ih]
          · split <;> simp
          · simp

theorem setWhile_eq_map (free : PartialModule → Bool) (set : PartialModule → PartialModule) (ps : List PartialModule)
    (h : ps.Pairwise fun a b => free a = true → free b = true) :
    setWhile free set ps = ps.map fun p => if free p then set p else p := by
  unfold setWhile
  have key : ∀ l : List PartialModule, l.Pairwise (fun a b => free b = true → free a = true) →
      setWhile.go free set l = l.map fun p => if free p then set p else p := by
    intro l
    induction l with
    | nil => intro _; rfl
    | cons p l ih =>
      intro hl
      rw [List.pairwise_cons] at hl
      rw [setWhile.go, List.map_cons]
      split
      · next hp => rw [ih hl.2]
      · next hp =>
        congr 1
        have hn : ∀ q ∈ l, ¬ free q = true := fun q hq hc => hp (hl.1 q hq hc)
        rw [List.map_congr_left (g := id) (fun q hq => by simp [hn q hq])]; simp
  rw [key _ (by rw [List.pairwise_reverse]; exact h), ← List.map_reverse, List.reverse_reverse]

theorem pairs_strtab_some (us : List UBlock) : ∀ p ∈ pairs us, us.find? isStrtab = none → p.strtab = none := by
  induction us with
  | nil => simp [pairs]
  | cons v us ih =>
    intro p hp hn
    rw [List.find?_cons] at hn
    have hn' : us.find? isStrtab = none := by
      split at hn
      · simp at hn
      · exact hn
    rw [pairs] at hp
    split at hp
    · rcases List.mem_cons.1 hp with rfl | hp
      · exact hn'
      · exact ih p hp hn'
    · exact ih p hp hn'

theorem pairs_symtab_some (us : List UBlock) : ∀ p ∈ pairs us, us.find? isSymtab = none → p.symtab = none := by
  induction us with
  | nil => simp [pairs]
  | cons v us ih =>
    intro p hp hn
    rw [List.find?_cons] at hn
    have hn' : us.find? isSymtab = none := by
      split at hn
      · simp at hn
      · exact hn
    rw [pairs] at hp
    split at hp
    · rcases List.mem_cons.1 hp with rfl | hp
      · exact hn'
      · exact ih p hp hn'
    · exact ih p hp hn'

theorem pairs_strtab_suffix (us : List UBlock) :
    (pairs us).Pairwise fun a b => a.strtab.isNone = true → b.strtab.isNone = true := by
  induction us with
  | nil => simp [pairs]
  | cons v us ih =>
    rw [pairs]
    split
    · rw [List.pairwise_cons]
      refine ⟨fun p hp hn => ?_, ih⟩
      simp only [Option.isNone_iff_eq_none] at hn ⊢
      exact pairs_strtab_some us p hp hn
    · exact ih

theorem pairs_symtab_suffix (us : List UBlock) :
    (pairs us).Pairwise fun a b => a.symtab.isNone = true → b.symtab.isNone = true := by
  induction us with
  | nil => simp [pairs]
  | cons v us ih =>
    rw [pairs]
    split
    · rw [List.pairwise_cons]
      refine ⟨fun p hp hn => ?_, ih⟩
      simp only [Option.isNone_iff_eq_none] at hn ⊢
      exact pairs_symtab_some us p hp hn
    · exact ih

theorem addTop_pairs (us : List UBlock) (u : UBlock) :
    addTop (pairs us) u = match offence us u with
      | some m => .err (.unroll m)
      | none => .ok (pairs (us ++ [u])) := by
  rcases id_cases u with ⟨h1, h2, h3, h4, h5⟩ | ⟨h1, h2, h3, h4, h5⟩ | ⟨h1, h2, h3, h4, h5⟩ | ⟨h1, h2, h3, h4, h5⟩ |
    ⟨h1, h2, h3, h4, h5, h6, h7, h8⟩
  · simp only [addTop, h5, offence, h1, h2, Bool.true_or, ite_true, Bool.false_eq_true, ite_false]
    rw [pairs_identification us u h1 h2 h3 h4]
  · simp only [addTop, h5]
    exact setModule_pairs us u h1 h2 h3 h4
  · simp only [addTop, h5, offence, h1, h2, h3, Bool.true_or, Bool.false_or, ite_true, Bool.false_eq_true, ite_false]
    rw [pairs_strtab us u h1 h2 h3 h4, setWhile_eq_map _ _ _ (pairs_strtab_suffix us)]
  · simp only [addTop, h5, offence, h1, h2, h3, h4, Bool.false_or, ite_true, Bool.false_eq_true, ite_false]
    rw [pairs_symtab us u h1 h2 h3 h4, setWhile_eq_map _ _ _ (pairs_symtab_suffix us)]
  · simp only [offence, h1, h2, h3, h4, Bool.or_self, Bool.false_eq_true, ite_false]
    unfold addTop
    split <;> first | contradiction | rfl

theorem foldl_addTop_ok (tops : List UBlock) (h : Orderly tops) : tops.foldlM addTop [] = .ok (pairs tops) := by
  induction tops using snocInduction with
  | nil => rfl
  | snoc tops u ih =>
    rw [List.foldlM_append, ih (fun pre v post he => h pre v (post ++ [u]) (by simp [he]))]
    simp only [Out.ok_bind, List.foldlM_cons, List.foldlM_nil]
    rw [addTop_pairs, h tops u [] rfl]
    rfl

theorem foldl_addTop_err {pre post : List UBlock} {u : UBlock} {m : UnrollMsg} (h : Orderly pre)
    (ho : offence pre u = some m) : (pre ++ u :: post).foldlM addTop [] = .err (.unroll m) := by
  rw [List.foldlM_append, foldl_addTop_ok pre h]
  simp only [Out.ok_bind, List.foldlM_cons]
  rw [addTop_pairs, ho]
  rfl

/-- Either nothing is wrong, or there is a first thing that is wrong. -/
theorem orderly_or (tops : List UBlock) :
    Orderly tops ∨ ∃ pre u post m, tops = pre ++ u :: post ∧ Orderly pre ∧ offence pre u = some m := by
  induction tops using snocInduction with
  | nil => exact .inl fun pre u post h => by simp at h
  | snoc tops u ih =>
    rcases ih with h | ⟨pre, v, post, m, rfl, h1, h2⟩
    · cases ho : offence tops u with
      | none =>
        refine .inl fun pre v post he => ?_
        rcases List.eq_nil_or_concat post with rfl | ⟨q, w, rfl⟩
        · have := List.append_inj_left' he rfl
          have h2 := List.append_inj_right' he rfl
          simp at h2; subst h2; subst this; exact ho
        · rw [List.concat_eq_append, show pre ++ v :: (q ++ [w]) = (pre ++ v :: q) ++ [w] by simp] at he
          exact h pre v q (List.append_inj_left' he rfl)
      | some m => exact .inr ⟨tops, u, [], m, rfl, h, ho⟩
    · exact .inr ⟨pre, v, post ++ [u], m, by simp, h1, h2⟩

end Verif
