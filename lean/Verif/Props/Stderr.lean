import Verif.Mapper.StderrSpec
import Verif.Mapper.Stderr
import Verif.Props.Print

/-! Error reports. -/

namespace Verif.Props
open Verif.Spec

/-! ## Lines -/

theorem unlines_split (s : Str) : unlines (split '\n' s) = s ++ ['\n'] := by
  induction s with
  | nil => rfl
  | cons c cs ih =>
    rw [split]
    split
    · rename_i h
      subst h
      show [] ++ ['\n'] ++ unlines (split '\n' cs) = _
      rw [ih]
      rfl
    · cases h : split '\n' cs with
      | nil => exact absurd h (split_ne_nil _ _)
      | cons p ps =>
        rw [h] at ih
        show c :: p ++ ['\n'] ++ unlines ps = _
        have ih : p ++ ['\n'] ++ unlines ps = cs ++ ['\n'] := ih
        rw [List.cons_append, List.cons_append, ih]
        rfl

theorem hasLines_split (s : Str) : HasLines s (split '\n' s) :=
  ⟨(unlines_split s).symm, fun _ hl => (split_mem _ _ _ hl).1⟩

theorem line_end_inj {a b x y : Str} (ha : '\n' ∉ a) (hb : '\n' ∉ b) (h : a ++ '\n' :: x = b ++ '\n' :: y) : a = b ∧ x = y := by
  induction a generalizing b with
  | nil =>
    cases b with
    | nil => exact ⟨rfl, (List.cons.injEq .. ▸ h).2⟩
    | cons c cs =>
      simp only [List.nil_append, List.cons_append, List.cons.injEq] at h
      exact absurd (by rw [h.1]; simp) hb
  | cons d ds ih =>
    cases b with
    | nil =>
      simp only [List.nil_append, List.cons_append, List.cons.injEq] at h
      exact absurd (by rw [← h.1]; simp) ha
    | cons c cs =>
      simp only [List.cons_append, List.cons.injEq] at h
      obtain ⟨he, hx⟩ := ih (fun hm => ha (List.mem_cons_of_mem _ hm)) (fun hm => hb (List.mem_cons_of_mem _ hm)) h.2
      exact ⟨by rw [h.1, he], hx⟩

theorem unlines_cons (l : Str) (ls : List Str) : unlines (l :: ls) = l ++ '\n' :: unlines ls := by
  show l ++ ['\n'] ++ unlines ls = _
  rw [List.append_assoc]
  rfl

theorem unlines_inj {a b : List Str} (ha : ∀ l ∈ a, '\n' ∉ l) (hb : ∀ l ∈ b, '\n' ∉ l) (h : unlines a = unlines b) : a = b := by
  induction a generalizing b with
  | nil =>
    cases b with
    | nil => rfl
    | cons l ls => rw [unlines_cons] at h; cases l <;> simp [unlines] at h
  | cons x xs ih =>
    cases b with
    | nil => rw [unlines_cons] at h; cases x <;> simp [unlines] at h
    | cons y ys =>
      rw [unlines_cons, unlines_cons] at h
      obtain ⟨he, hr⟩ := line_end_inj (ha _ (by simp)) (hb _ (by simp)) h
      rw [he, ih (fun l hl => ha l (List.mem_cons_of_mem _ hl)) (fun l hl => hb l (List.mem_cons_of_mem _ hl)) hr]

theorem hasLines_ne {m : Str} {ls : List Str} (h : HasLines m ls) : ls ≠ [] := by
  rintro rfl
  exact absurd h.1 (by simp [unlines])

/-- Lines, each after a newline but the first, with something before each. -/
theorem indented_lines (first other l : Str) (ls : List Str) :
    first ++ (l ++ ls.flatMap fun x => '\n' :: (other ++ x)) ++ ['\n'] = unlines ((first ++ l) :: ls.map (other ++ ·)) := by
  induction ls generalizing first l with
  | nil => simp [unlines]
  | cons x xs ih =>
    rw [List.map_cons, unlines_cons, ← ih other x]
    simp [List.append_assoc]

theorem indented_some (n : Nat) (m : Str) : ∃ first more number, HasLines m (first :: more) ∧ Column n number ∧
    Stderr.indented (some n) m ++ ['\n'] = unlines ((number ++ first) :: more.map (List.replicate 7 ' ' ++ ·)) := by
  unfold Stderr.indented
  have hl := hasLines_split m
  cases h : split '\n' m with
  | nil => exact absurd h (split_ne_nil _ _)
  | cons l ls =>
    rw [h] at hl
    refine ⟨l, ls, _, hl, ⟨5 - (decimal n).length, rfl, by omega⟩, ?_⟩
    exact indented_lines _ "       ".toList l ls

theorem indented_none (m : Str) : ∃ lines, HasLines m lines ∧
    Stderr.indented none m ++ ['\n'] = unlines (lines.map (List.replicate 4 ' ' ++ ·)) := by
  unfold Stderr.indented
  have hl := hasLines_split m
  cases h : split '\n' m with
  | nil => exact absurd h (split_ne_nil _ _)
  | cons l ls =>
    rw [h] at hl
    exact ⟨l :: ls, hl, indented_lines "    ".toList "    ".toList l ls⟩

theorem unlines_append (a b : List Str) : unlines (a ++ b) = unlines a ++ unlines b := by simp [unlines]

theorem numbered_lines (n : Nat) (ms : List Str) : ∃ lines, Numbered n ms lines ∧
    Stderr.numbered n ms ++ ['\n'] = '\n' :: unlines lines := by
  induction ms generalizing n with
  | nil => exact ⟨[], .nil, rfl⟩
  | cons m ms ih =>
    obtain ⟨first, more, number, hl, hc, he⟩ := indented_some n m
    obtain ⟨lines, hn, hr⟩ := ih (n + 1)
    refine ⟨_, .cons hl hc hn, ?_⟩
    show '\n' :: (Stderr.indented (some n) m ++ Stderr.numbered (n + 1) ms) ++ ['\n'] = _
    rw [List.cons_append, List.append_assoc, hr,
      show (number ++ first) :: (more.map (List.replicate 7 ' ' ++ ·) ++ lines) =
        ((number ++ first) :: more.map (List.replicate 7 ' ' ++ ·)) ++ lines from rfl, unlines_append, ← he]
    simp [List.append_assoc]

theorem litCausedOne : "\n\nCaused by:\n".toList = '\n' :: '\n' :: ("Caused by:".toList ++ ['\n']) := by decide +kernel
theorem litCaused : "\n\nCaused by:".toList = '\n' :: '\n' :: "Caused by:".toList := by decide +kernel

/-- Messages are laid out as a report. -/
theorem C77_layout (m : Str) (causes : List Str) (hm : '\n' ∉ m) :
    ∃ lines, IsReport (m :: causes) lines ∧ Stderr.report (m :: causes) = unlines lines := by
  unfold Stderr.report
  match causes with
  | [] =>
    refine ⟨_, .alone hm, ?_⟩
    rw [unlines_cons]
    simp [Stderr.anyhowDebug, unlines]
  | [c] =>
    obtain ⟨lines, hl, he⟩ := indented_none c
    refine ⟨_, .one hm hl, ?_⟩
    rw [unlines_cons, unlines_cons, unlines_cons, ← he]
    show _ ++ (m ++ (_ ++ _) ++ _) = _
    rw [litCausedOne]
    simp only [List.append_assoc, List.cons_append, List.nil_append]
  | c :: c' :: cs =>
    obtain ⟨lines, hl, he⟩ := numbered_lines 0 (c :: c' :: cs)
    refine ⟨_, .many hm hl, ?_⟩
    rw [unlines_cons, unlines_cons, unlines_cons, ← he]
    show _ ++ (m ++ (_ ++ _) ++ _) = _
    rw [litCaused]
    simp only [List.append_assoc, List.cons_append, List.nil_append]

/-! ## A report has one reading -/

theorem hasLines_inj {m m' : Str} {ls : List Str} (h : HasLines m ls) (h' : HasLines m' ls) : m = m' :=
  List.append_cancel_right (h.1.trans h'.1.symm)

theorem column_inj {n : Nat} {t t' : Str} (h : Column n t) (h' : Column n t') : t = t' := by
  obtain ⟨k, rfl, hk⟩ := h
  obtain ⟨k', rfl, hk'⟩ := h'
  rw [show k = k' by omega]

/-- A numbered line does not begin with seven blanks. -/
theorem column_not_blank {n : Nat} {t x y : Str} (h : Column n t) : t ++ x ≠ List.replicate 7 ' ' ++ y := by
  obtain ⟨k, rfl, hk⟩ := h
  have hl := List.length_pos_iff.2 (decimal_ne_nil n)
  have hk5 : k < 5 := by omega
  cases hd : decimal n with
  | nil => exact absurd hd (decimal_ne_nil n)
  | cons c cs =>
    intro he
    have hc := decimal_digit (n := n) (c := c) (by rw [hd]; simp)
    have h1 : (List.replicate k ' ' ++ (c :: cs ++ ": ".toList) ++ x)[k]? = some c := by simp
    rw [he, List.getElem?_append_left (by simp; omega), List.getElem?_replicate_of_lt (by omega)] at h1
    cases h1
    exact absurd hc (by decide)

theorem blanks_inj {a b L M : List Str} (hL : ∀ l ∈ L.head?, ∀ y, l ≠ List.replicate 7 ' ' ++ y)
    (hM : ∀ l ∈ M.head?, ∀ y, l ≠ List.replicate 7 ' ' ++ y)
    (h : a.map (List.replicate 7 ' ' ++ ·) ++ L = b.map (List.replicate 7 ' ' ++ ·) ++ M) : a = b ∧ L = M := by
  induction a generalizing b with
  | nil =>
    cases b with
    | nil => exact ⟨rfl, h⟩
    | cons y ys =>
      have h : L = (List.replicate 7 ' ' ++ y) :: (ys.map (List.replicate 7 ' ' ++ ·) ++ M) := h
      rw [h] at hL
      exact absurd rfl (hL _ (by simp) y)
  | cons x xs ih =>
    cases b with
    | nil =>
      have h : (List.replicate 7 ' ' ++ x) :: (xs.map (List.replicate 7 ' ' ++ ·) ++ L) = M := h
      rw [← h] at hM
      exact absurd rfl (hM _ (by simp) x)
    | cons y ys =>
      simp only [List.map_cons, List.cons_append, List.cons.injEq] at h
      obtain ⟨he, hr⟩ := ih h.2
      exact ⟨by rw [List.append_cancel_left h.1, he], hr⟩

theorem numbered_head {n : Nat} {ms lines : List Str} (h : Numbered n ms lines) :
    ∀ l ∈ lines.head?, ∀ y, l ≠ List.replicate 7 ' ' ++ y := by
  cases h with
  | nil => simp
  | cons hl hc hn =>
    intro l hm y
    simp only [List.head?_cons, Option.mem_def, Option.some.injEq] at hm
    subst hm
    exact column_not_blank hc

theorem numbered_inj {n : Nat} {ms ms' lines : List Str} (h : Numbered n ms lines) (h' : Numbered n ms' lines) : ms = ms' := by
  generalize he : lines = lines' at h'
  induction h generalizing ms' lines' with
  | nil =>
    subst he
    cases h'
    rfl
  | cons hl hc hn ih =>
    cases h' with
    | nil => cases he
    | cons hl' hc' hn' =>
      simp only [List.cons.injEq] at he
      obtain ⟨h1, h2⟩ := he
      rw [column_inj hc hc'] at h1
      obtain ⟨h3, h4⟩ := blanks_inj (numbered_head hn) (numbered_head hn') h2
      rw [List.append_cancel_left h1, h3] at hl
      rw [hasLines_inj hl hl', ih _ h4 hn']

/-- A single cause can be taken for a list of causes only if it begins with a digit. -/
theorem one_not_many {cause : Str} {lines ms : List Str} (hl : HasLines cause lines)
    (hd : ∀ c ∈ cause.head?, ¬ ('0' ≤ c ∧ c ≤ '9')) : ¬ Numbered 0 ms (lines.map (List.replicate 4 ' ' ++ ·)) := by
  intro hn
  cases lines with
  | nil => exact hasLines_ne hl rfl
  | cons l ls =>
    simp only [List.map_cons] at hn
    generalize he : (List.replicate 4 ' ' ++ l) :: ls.map (List.replicate 4 ' ' ++ ·) = L at hn
    cases hn with
    | nil => cases he
    | cons _ hc _ =>
      obtain ⟨k, rfl, hk⟩ := hc
      have hk4 : k = 4 := by
        have : (decimal 0).length = 1 := by decide +kernel
        omega
      subst hk4
      simp only [List.cons.injEq, List.append_assoc] at he
      have hz : decimal 0 = ['0'] := by decide +kernel
      rw [hz] at he
      have h1 := List.append_cancel_left he.1
      have h2 := hl.1
      rw [h1, unlines_cons] at h2
      cases cause with
      | nil => simp at h2
      | cons c cs =>
        simp only [List.cons_append, List.cons.injEq] at h2
        exact hd c (by simp) (by rw [h2.1]; decide)

/-- The lines of a report are those of one list of messages only. -/
theorem C77_reading {ms ms' lines : List Str} (h : IsReport ms lines) (h' : IsReport ms' lines) (hd : NoNumber ms)
    (hd' : NoNumber ms') : ms = ms' := by
  cases h with
  | alone hm =>
    generalize he : ["Error: ".toList ++ _] = L at h'
    cases h' with
    | alone hm' => rw [List.append_cancel_left (List.cons.inj he).1]
    | one => cases he
    | many => cases he
  | one hm hl =>
    generalize he : (_ :: [] :: _ : List Str) = L at h'
    cases h' with
    | alone => cases he
    | one hm' hl' =>
      simp only [List.cons.injEq, true_and] at he
      have hmap := (List.map_inj_right (fun a b h => List.append_cancel_left h)).1 he.2
      rw [List.append_cancel_left he.1, hasLines_inj hl (hmap ▸ hl')]
    | many hm' hn' =>
      simp only [List.cons.injEq, true_and] at he
      rw [← he.2] at hn'
      exact absurd hn' (one_not_many hl (hd _ rfl))
  | many hm hn =>
    generalize he : (_ :: [] :: _ : List Str) = L at h'
    cases h' with
    | alone => cases he
    | one hm' hl' =>
      simp only [List.cons.injEq, true_and] at he
      rw [he.2] at hn
      exact absurd hn (one_not_many hl' (hd' _ rfl))
    | many hm' hn' =>
      simp only [List.cons.injEq, true_and] at he
      rw [List.append_cancel_left he.1, numbered_inj hn (he.2 ▸ hn')]

theorem hasLines_clean {m : Str} {ls : List Str} (h : HasLines m ls) : ∀ l ∈ ls, '\n' ∉ l := h.2

theorem numbered_clean {n : Nat} {ms lines : List Str} (h : Numbered n ms lines) : ∀ l ∈ lines, '\n' ∉ l := by
  induction h with
  | nil => simp
  | cons hl hc hn ih =>
    obtain ⟨k, rfl, _⟩ := hc
    intro l hm
    simp only [List.mem_cons, List.mem_append, List.mem_map] at hm
    rcases hm with rfl | ⟨x, hx, rfl⟩ | hm
    · have h1 := hl.2 _ List.mem_cons_self
      simp only [List.mem_append, not_or, List.mem_replicate]
      exact ⟨⟨fun h => absurd h.2 (by decide), decimal_no_newline _, by decide +kernel⟩, h1⟩
    · have h1 := hl.2 x (List.mem_cons_of_mem _ hx)
      simp only [List.mem_append, not_or, List.mem_replicate]
      exact ⟨fun h => absurd h.2 (by decide), h1⟩
    · exact ih l hm

theorem report_clean {ms lines : List Str} (h : IsReport ms lines) : ∀ l ∈ lines, '\n' ∉ l := by
  have he : '\n' ∉ "Error: ".toList := by decide +kernel
  have hc : '\n' ∉ "Caused by:".toList := by decide +kernel
  cases h with
  | alone hm => simp only [List.mem_singleton, forall_eq, List.mem_append, not_or]; exact ⟨he, hm⟩
  | one hm hl =>
    simp only [List.mem_cons, forall_eq_or_imp, List.mem_append, not_or, List.mem_map]
    refine ⟨⟨he, hm⟩, by simp, hc, ?_⟩
    rintro l ⟨x, hx, rfl⟩
    simp only [List.mem_append, not_or, List.mem_replicate]
    exact ⟨fun h => absurd h.2 (by decide), hl.2 x hx⟩
  | many hm hn =>
    simp only [List.mem_cons, forall_eq_or_imp, List.mem_append, not_or]
    exact ⟨⟨he, hm⟩, by simp, hc, numbered_clean hn⟩

/-- Different messages give different reports. -/
theorem report_inj {m m' : Str} {cs cs' : List Str} (hm : '\n' ∉ m) (hm' : '\n' ∉ m') (hd : NoNumber (m :: cs))
    (hd' : NoNumber (m' :: cs')) (h : Stderr.report (m :: cs) = Stderr.report (m' :: cs')) : m :: cs = m' :: cs' := by
  obtain ⟨ls, hr, he⟩ := C77_layout m cs hm
  obtain ⟨ls', hr', he'⟩ := C77_layout m' cs' hm'
  rw [he, he'] at h
  rw [← unlines_inj (report_clean hr) (report_clean hr') h] at hr'
  exact C77_reading hr hr' hd hd'

end Verif.Props
