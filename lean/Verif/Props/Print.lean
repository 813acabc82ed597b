import Verif.Mapper.Print
import Verif.Mapper.PrintSpec
import Verif.Mapper.VerdictSpec
import Verif.Props.Dump
import Verif.Props.File

/-! C75: the program that maps a bitstream prints what it maps to. -/

namespace Verif
open Spec Props

/-! ## String literals -/

theorem lowerHexChar_eq {d : Nat} (h : d < 16) : Print.hexChar d = "0123456789abcdef".toList.getD d '?' := by
  have : ∀ d : Fin 16, Print.hexChar d = "0123456789abcdef".toList.getD d '?' := by decide
  exact this ⟨d, h⟩

theorem lowerHexDigits_text : ∀ (k n : Nat), n < 16 ^ (k + 1) →
    ∃ ds : List Nat, Print.hexDigits (k + 1) n = ds.map (fun d => "0123456789abcdef".toList.getD d '?') ∧ (∀ d ∈ ds, d < 16) ∧
      ds ≠ [] ∧ ds.length ≤ k + 1 ∧ ds.foldl (fun v d => 16 * v + d) 0 = n
  | k, n, h => by
    unfold Print.hexDigits
    by_cases h16 : n < 16
    · rw [if_pos h16]
      exact ⟨[n], by simp [lowerHexChar_eq h16], by simpa using h16, by simp, by simp, by simp⟩
    · rw [if_neg h16]
      cases k with
      | zero => simp at h; omega
      | succ k =>
        have hn : n / 16 < 16 ^ (k + 1) := by
          rw [Nat.div_lt_iff_lt_mul (by decide)]
          rw [Nat.pow_succ] at h
          exact h
        obtain ⟨ds, h1, h2, h3, h4, h5⟩ := lowerHexDigits_text k (n / 16) hn
        refine ⟨ds ++ [n % 16], ?_, ?_, by simp, by simpa using h4, ?_⟩
        · rw [h1, List.map_append, lowerHexChar_eq (Nat.mod_lt _ (by decide))]; rfl
        · intro d hd
          rcases List.mem_append.1 hd with hd | hd
          · exact h2 d hd
          · simp only [List.mem_singleton] at hd; rw [hd]; exact Nat.mod_lt _ (by decide)
        · rw [List.foldl_append, h5]
          simp only [List.foldl_cons, List.foldl_nil]
          omega

theorem char_lt (c : Char) : c.toNat < 16 ^ 6 := by
  have := c.valid
  have h : c.toNat = c.val.toNat := rfl
  rw [h]
  rcases this with h | h <;> omega

theorem escape_spells (plain : Char → Bool) (c : Char) : Spells (Print.escape plain c) c := by
  unfold Print.escape
  split
  · next h => rw [h]; exact .nul
  · split
    · next h => rw [h]; exact .tab
    · split
      · next h => rw [h]; exact .cr
      · split
        · next h => rw [h]; exact .lf
        · split
          · next h => rw [h]; exact .backslash
          · split
            · next h => rw [h]; exact .quote
            · split
              · next h1 h2 h3 h4 h5 _ => exact .self h5 h4 h3 h2
              · exact .code (lowerHexDigits_text 5 _ (char_lt c))

theorem spellsAll_escape (plain : Char → Bool) (s : Str) : SpellsAll (s.flatMap (Print.escape plain)) s := by
  induction s with
  | nil => exact .nil
  | cons c s ih => exact .cons (escape_spells plain c) ih

theorem isHex_mem {n : Nat} {l : Str} (h : IsHex n l) {c : Char} (hc : c ∈ l) : c ≠ '}' ∧ c ≠ '\n' := by
  obtain ⟨ds, rfl, h2, -⟩ := h
  obtain ⟨d, hd, he⟩ := List.mem_map.1 hc
  have : ∀ a : Fin 16, "0123456789abcdef".toList.getD a '?' ≠ '}' ∧ "0123456789abcdef".toList.getD a '?' ≠ '\n' := by decide
  rw [← he]
  exact this ⟨d, h2 d hd⟩

theorem isHex_unique {n m : Nat} {l : Str} (h : IsHex n l) (h' : IsHex m l) : n = m := by
  obtain ⟨ds, rfl, h2, -, -, rfl⟩ := h
  obtain ⟨ds', h1', h2', -, -, rfl⟩ := h'
  have inj : ∀ a b : Fin 16, "0123456789abcdef".toList.getD a '?' = "0123456789abcdef".toList.getD b '?' → a = b := by decide
  suffices ds = ds' by rw [this]
  induction ds generalizing ds' with
  | nil => cases ds' with
    | nil => rfl
    | cons _ _ => simp at h1'
  | cons d ds ih =>
    cases ds' with
    | nil => simp at h1'
    | cons d' ds' =>
      simp only [List.map_cons, List.cons.injEq] at h1'
      have := inj ⟨d, h2 d (by simp)⟩ ⟨d', h2' d' (by simp)⟩ h1'.1
      simp only [Fin.mk.injEq] at this
      rw [this, ih (fun x hx => h2 x (by simp [hx])) ds' h1'.2 (fun x hx => h2' x (by simp [hx]))]

/-- One character of a literal can be read from the front. -/
theorem spells_unique {t t' r r' : Str} {c c' : Char} (h : Spells t c) (h' : Spells t' c') (he : t ++ r = t' ++ r') :
    c = c' ∧ r = r' := by
  cases h with
  | self h1 h2 h3 =>
    cases h' with
    | self => simpa using he
    | _ => simp only [List.cons_append, List.nil_append, List.cons.injEq] at he; exact absurd he.1 h2
  | code hl =>
    cases h' with
    | self _ h2 => simp only [List.cons_append, List.nil_append, List.cons.injEq] at he; exact absurd he.1.symm h2
    | code hl' =>
      simp only [List.cons_append, List.append_assoc, List.cons.injEq, true_and, List.nil_append] at he
      obtain ⟨e1, -, e2⟩ := span_unique (p := fun x => x ≠ '}') (fun x hx => (isHex_mem hl hx).1)
        (fun x hx => (isHex_mem hl' hx).1) (by simp) (by simp) he
      subst e1
      exact ⟨Char.toNat_inj.1 (isHex_unique hl hl'), e2⟩
    | _ => simp at he
  | _ =>
    cases h' with
    | self _ h2 => simp only [List.cons_append, List.nil_append, List.cons.injEq] at he; exact absurd he.1.symm h2
    | _ => simp at he <;> exact ⟨rfl, he⟩

theorem spellsAll_unique {l l' s s' r r' : Str} (h : SpellsAll l s) (h' : SpellsAll l' s')
    (he : l ++ '"' :: r = l' ++ '"' :: r') : s = s' ∧ r = r' := by
  have front : ∀ {t : Str} {c : Char} {r r' : Str}, Spells t c → '"' :: r ≠ t ++ r' := by
    intro t c r r' ht e
    cases ht with
    | self h1 => simp only [List.cons_append, List.nil_append, List.cons.injEq] at e; exact absurd e.1.symm h1
    | _ => simp at e
  induction h generalizing l' s' with
  | nil =>
    cases h' with
    | nil => exact ⟨rfl, (List.cons.inj he).2⟩
    | cons h1 _ => rw [List.append_assoc] at he; exact absurd he (front h1)
  | cons h1 h2 ih =>
    cases h' with
    | nil => rw [List.append_assoc] at he; exact absurd he.symm (front h1)
    | cons h1' h2' =>
      rw [List.append_assoc, List.append_assoc] at he
      obtain ⟨e1, e2⟩ := spells_unique h1 h1' he
      obtain ⟨e3, e4⟩ := ih h2' e2
      exact ⟨by rw [e1, e3], e4⟩

/-- C75. How a string is printed: a string literal for it. -/
theorem C75_quoted (plain : Char → Bool) (s : Str) : IsLiteral (Print.quote plain s) s :=
  ⟨_, rfl, spellsAll_escape plain s⟩

/-- C75. A string literal stands for one string. -/
theorem C75_literal {t s s' : Str} (h : IsLiteral t s) (h' : IsLiteral t s') : s = s' := by
  obtain ⟨l, rfl, h1⟩ := h
  obtain ⟨l', e, h2⟩ := h'
  simp only [List.cons_append, List.cons.injEq, true_and] at e
  exact (spellsAll_unique h1 h2 e).1

theorem spells_no_newline {t : Str} {c : Char} (h : Spells t c) : '\n' ∉ t := by
  cases h with
  | self _ _ h => simpa using h.symm
  | code hl =>
    intro hm
    simp only [List.cons_append, List.mem_cons, List.mem_append, List.not_mem_nil, or_false] at hm
    rcases hm with hm | hm | hm | hm | hm
    · exact absurd hm (by decide)
    · exact absurd hm (by decide)
    · exact absurd hm (by decide)
    · exact (isHex_mem hl hm).2 rfl
    · exact absurd hm (by decide)
  | _ => decide

theorem literal_no_newline {t s : Str} (h : IsLiteral t s) : '\n' ∉ t := by
  obtain ⟨l, rfl, h⟩ := h
  have : '\n' ∉ l := by
    induction h with
    | nil => simp
    | cons h1 _ ih =>
      intro hm
      rcases List.mem_append.1 hm with hm | hm
      · exact spells_no_newline h1 hm
      · exact ih hm
  simp [this]

/-! ## Indentation -/

def padN : Nat → Str → Str
  | 0, s => s
  | d + 1, s => padN d (Print.pad true s)

theorem pad_newline (b : Bool) (x y : Str) :
    Print.pad b (x ++ '\n' :: y) = Print.pad b (x ++ ['\n']) ++ Print.pad true y := by
  induction x generalizing b with
  | nil => simp [Print.pad]
  | cons c x ih => simp only [List.cons_append, Print.pad, ih, List.append_assoc]

/-- A text of whole lines. -/
def Ended (x : Str) : Prop := x = [] ∨ ∃ y, x = y ++ ['\n']

theorem Ended.append {x y : Str} (hx : Ended x) (hy : Ended y) : Ended (x ++ y) := by
  rcases hy with rfl | ⟨z, rfl⟩
  · simpa using hx
  · exact .inr ⟨x ++ z, by simp⟩

theorem pad_ended {x : Str} (h : Ended x) : Ended (Print.pad true x) := by
  rcases h with rfl | ⟨y, rfl⟩
  · exact .inl rfl
  · right
    generalize true = b
    induction y generalizing b with
    | nil => exact ⟨if b then [' ', ' ', ' ', ' '] else [], by simp [Print.pad]⟩
    | cons c y ih =>
      obtain ⟨z, hz⟩ := ih (c == '\n')
      exact ⟨(if b then [' ', ' ', ' ', ' '] else []) ++ c :: z, by simp [Print.pad, hz]⟩

theorem pad_append {x : Str} (h : Ended x) (y : Str) : Print.pad true (x ++ y) = Print.pad true x ++ Print.pad true y := by
  rcases h with rfl | ⟨z, rfl⟩
  · rfl
  · rw [List.append_assoc, List.singleton_append, pad_newline]

theorem padN_append {x : Str} (h : Ended x) (d : Nat) (y : Str) : padN d (x ++ y) = padN d x ++ padN d y := by
  induction d generalizing x y with
  | zero => rfl
  | succ d ih => rw [padN, pad_append h, ih (pad_ended h)]; rfl

theorem pad_plain {x : Str} (h : '\n' ∉ x) (r : Str) : Print.pad false (x ++ r) = x ++ Print.pad false r := by
  induction x with
  | nil => rfl
  | cons c x ih =>
    simp only [List.mem_cons, not_or] at h
    have : (c == '\n') = false := by simpa using fun e => h.1 e.symm
    simp only [List.cons_append, Print.pad, this, ih h.2]
    rfl

theorem pad_line {x : Str} (h : '\n' ∉ x) : Print.pad true (x ++ ['\n']) = List.replicate 4 ' ' ++ (x ++ ['\n']) := by
  cases x with
  | nil => rfl
  | cons c x =>
    simp only [List.mem_cons, not_or] at h
    have : (c == '\n') = false := by simpa using fun e => h.1 e.symm
    simp only [List.cons_append, Print.pad, this, pad_plain h.2]
    rfl

theorem padN_line (d : Nat) {x : Str} (h : '\n' ∉ x) : padN d (x ++ ['\n']) = List.replicate (4 * d) ' ' ++ (x ++ ['\n']) := by
  induction d generalizing x with
  | zero => rfl
  | succ d ih =>
    rw [padN, pad_line h, ← List.append_assoc, ih (x := List.replicate 4 ' ' ++ x) (by
      intro hm
      rcases List.mem_append.1 hm with hm | hm
      · exact absurd (List.eq_of_mem_replicate hm) (by decide)
      · exact h hm), Nat.mul_succ, ← List.append_assoc, ← List.append_assoc,
      List.replicate_append_replicate, List.append_assoc]

/-! ## Values and their lines -/

/-- The text, as part of a larger one, makes the lines. -/
def Shows (v : Str) (L : Doc) : Prop :=
  ∀ d pre post, '\n' ∉ pre → '\n' ∉ post → padN d (pre ++ (v ++ (post ++ ['\n']))) = linesText (L d pre post)

theorem linesText_append (a b : List (Nat × Str)) : linesText (a ++ b) = linesText a ++ linesText b := by
  simp [linesText]

theorem linesText_cons (d : Nat) (t : Str) (b : List (Nat × Str)) :
    linesText ((d, t) :: b) = List.replicate (4 * d) ' ' ++ (t ++ ['\n']) ++ linesText b := by
  simp [linesText]

theorem shows_word {t : Str} (h : '\n' ∉ t) : Shows t (.word t) := by
  intro d pre post hp hq
  rw [← List.append_assoc, ← List.append_assoc, padN_line d (by simp [h, hp, hq]), Doc.word, linesText_cons]
  simp [linesText]

theorem shows_group {o c : Str} (ho : '\n' ∉ o) (hc : '\n' ∉ c) (l : List (Str × Str × Doc))
    (hl : ∀ x ∈ l, '\n' ∉ x.1 ∧ Shows x.2.1 x.2.2) :
    Shows (o ++ '\n' :: (l.flatMap (fun x => Print.pad true (x.1 ++ (x.2.1 ++ ([','] ++ ['\n'])))) ++ c))
      (.group o c (l.map fun x => (x.1, x.2.2))) := by
  intro d pre post hp hq
  have parts : ∀ l : List (Str × Str × Doc), (∀ x ∈ l, '\n' ∉ x.1 ∧ Shows x.2.1 x.2.2) →
      Ended (l.flatMap (fun x => Print.pad true (x.1 ++ (x.2.1 ++ ([','] ++ ['\n']))))) ∧
      padN d (l.flatMap (fun x => Print.pad true (x.1 ++ (x.2.1 ++ ([','] ++ ['\n']))))) =
        linesText ((l.map fun x => (x.1, x.2.2)).flatMap fun p => p.2 (d + 1) p.1 [',']) := by
    intro l hl
    induction l with
    | nil =>
      refine ⟨.inl rfl, ?_⟩
      show padN d [] = []
      clear hl
      induction d with
      | zero => rfl
      | succ d ih => exact ih
    | cons x l ih =>
      obtain ⟨ih1, ih2⟩ := ih fun y hy => hl y (by simp [hy])
      have e : Ended (Print.pad true (x.1 ++ (x.2.1 ++ ([','] ++ ['\n'])))) :=
        pad_ended (.inr ⟨x.1 ++ (x.2.1 ++ [',']), by simp⟩)
      refine ⟨by rw [List.flatMap_cons]; exact e.append ih1, ?_⟩
      rw [List.flatMap_cons, padN_append e, ih2, List.map_cons, List.flatMap_cons, linesText_append]
      congr 1
      exact (hl x (by simp)).2 (d + 1) x.1 [','] (hl x (by simp)).1 (by decide)
  obtain ⟨h1, h2⟩ := parts l hl
  have e : pre ++ (o ++ '\n' :: (l.flatMap (fun x => Print.pad true (x.1 ++ (x.2.1 ++ ([','] ++ ['\n'])))) ++ c) ++ (post ++ ['\n'])) =
      ((pre ++ o) ++ ['\n']) ++ (l.flatMap (fun x => Print.pad true (x.1 ++ (x.2.1 ++ ([','] ++ ['\n'])))) ++ ((c ++ post) ++ ['\n'])) := by
    simp only [List.append_assoc, List.cons_append, List.nil_append]
  rw [e, padN_append (.inr ⟨_, rfl⟩), padN_append h1, h2, padN_line d (by simp [hp, ho]), padN_line d (by simp [hc, hq]),
    Doc.group, linesText_cons, linesText_append, linesText_cons]
  simp [linesText]

theorem litComma : ",\n".toList = [','] ++ ['\n'] := by decide +kernel
theorem litOpen : " {\n".toList = " {".toList ++ ['\n'] := by decide +kernel
theorem litParen : "(\n".toList = "(".toList ++ ['\n'] := by decide +kernel
theorem litBracket : "[\n".toList = "[".toList ++ ['\n'] := by decide +kernel

theorem shows_struct {name : Str} (hn : '\n' ∉ name) (l : List (Str × Str × Doc)) (hl : ∀ x ∈ l, '\n' ∉ x.1 ∧ Shows x.2.1 x.2.2) :
    Shows (Print.debugStruct name (l.map fun x => (x.1, x.2.1)))
      (.group (name ++ " {".toList) "}".toList (l.map fun x => (x.1 ++ ": ".toList, x.2.2))) := by
  have := shows_group (o := name ++ " {".toList) (c := "}".toList) (by
      intro h
      rcases List.mem_append.1 h with h | h
      · exact hn h
      · exact absurd h (by decide)) (by decide) (l.map fun x => (x.1 ++ ": ".toList, x.2.1, x.2.2)) (by
      intro x hx
      obtain ⟨y, hy, rfl⟩ := List.mem_map.1 hx
      refine ⟨fun h => ?_, (hl y hy).2⟩
      rcases List.mem_append.1 h with h | h
      · exact (hl y hy).1 h
      · exact absurd h (by decide))
  simp only [List.map_map, Function.comp_def, List.flatMap_map] at this
  unfold Print.debugStruct
  rw [litOpen, litComma]
  simp only [List.flatMap_map, List.append_assoc] at this ⊢
  exact this

theorem shows_tuple {name v : Str} {L : Doc} (hn : '\n' ∉ name) (h : Shows v L) :
    Shows (Print.debugTuple name v) (.group (name ++ "(".toList) ")".toList [([], L)]) := by
  have := shows_group (o := name ++ "(".toList) (c := ")".toList) (by
      intro h
      rcases List.mem_append.1 h with h | h
      · exact hn h
      · exact absurd h (by decide)) (by decide) [([], v, L)] (by simpa using h)
  unfold Print.debugTuple
  rw [litParen, litComma]
  simp only [List.flatMap_cons, List.flatMap_nil, List.append_nil, List.map_cons, List.map_nil, List.nil_append,
    List.append_assoc] at this ⊢
  exact this

theorem shows_list (l : List (Str × Doc)) (h : ∀ x ∈ l, Shows x.1 x.2) :
    Shows (Print.debugList (l.map (·.1))) (.list (l.map (·.2))) := by
  cases l with
  | nil => exact shows_word (by decide)
  | cons x l =>
    have := shows_group (o := "[".toList) (c := "]".toList) (by decide) (by decide) ((x :: l).map fun x => ([], x.1, x.2)) (by
      intro y hy
      obtain ⟨z, hz, rfl⟩ := List.mem_map.1 hy
      exact ⟨by simp, h z hz⟩)
    unfold Print.debugList Doc.list
    simp only [List.map_cons]
    rw [litBracket, litComma]
    simp only [List.map_cons, List.flatMap_cons, List.flatMap_map, List.map_map, Function.comp_def, List.nil_append,
      List.append_assoc] at this ⊢
    exact this

theorem shows_map {α : Type} (f : α → Str) (L : α → Doc) (l : List α) (h : ∀ x ∈ l, Shows (f x) (L x)) :
    Shows (Print.debugList (l.map f)) (.list (l.map L)) := by
  have := shows_list (l.map fun x => (f x, L x)) (by
    intro y hy
    obtain ⟨z, hz, rfl⟩ := List.mem_map.1 hy
    exact h z hz)
  simpa only [List.map_map, Function.comp_def] using this

theorem decimal_no_newline (n : Nat) : '\n' ∉ decimal n := fun h => absurd (decimal_digit h) (by decide)

theorem shows_bytes (bs : List U8) : Shows (Print.byteList bs) (byteDoc bs) :=
  shows_map _ _ _ fun _ _ => shows_word (decimal_no_newline _)

theorem shows_quote (plain : Char → Bool) (s : Str) : Shows (Print.quote plain s) (.word (Print.quote plain s)) :=
  shows_word (literal_no_newline (C75_quoted plain s))

theorem shows_strings (plain : Char → Bool) (l : List Str) :
    Shows (Print.debugList (l.map (Print.quote plain))) (stringsDoc (Print.quote plain) l) :=
  shows_map _ _ _ fun _ _ => shows_quote plain _

theorem shows_module (plain : Char → Bool) (m : BitcodeModule) :
    Shows (Print.bitcodeModule plain m) (moduleDoc (Print.quote plain) m) := by
  have h1 := shows_struct (name := "Identification".toList) (by decide)
    [("producer".toList, _, _), ("epoch".toList, _, _)]
    (by
      simp only [List.mem_cons, List.not_mem_nil, or_false, forall_eq_or_imp, forall_eq]
      exact ⟨⟨by decide, shows_quote plain m.identification.producer⟩, by decide,
        shows_word (decimal_no_newline m.identification.epoch.toNat)⟩)
  have h2 := shows_struct (name := "Module".toList) (by decide)
    [("triple".toList, _, _), ("asm".toList, _, _), ("deplibs".toList, _, _)]
    (by
      simp only [List.mem_cons, List.not_mem_nil, or_false, forall_eq_or_imp, forall_eq]
      exact ⟨⟨by decide, shows_quote plain m.module.triple⟩, ⟨by decide, shows_strings plain m.module.asm⟩, by decide,
        shows_strings plain m.module.deplibs⟩)
  have h3 := shows_tuple (name := "Strtab".toList) (by decide) (shows_bytes m.strtab.bytes)
  have h4 : Shows (Print.symtab m.symtab) (match m.symtab with
        | none => .word "None".toList
        | some t => .group "Some(".toList ")".toList [([], .group "Symtab(".toList ")".toList [([], byteDoc t.bytes)])]) := by
    cases m.symtab with
    | none => exact shows_word (by decide)
    | some t =>
      have := shows_tuple (name := "Some".toList) (by decide)
        (shows_tuple (name := "Symtab".toList) (by decide) (shows_bytes t.bytes))
      exact this
  exact shows_struct (name := "BitcodeModule".toList) (by decide)
    [("identification".toList, _, _), ("module".toList, _, _), ("strtab".toList, _, _), ("symtab".toList, _, _)]
    (by
      simp only [List.mem_cons, List.not_mem_nil, or_false, forall_eq_or_imp, forall_eq]
      exact ⟨⟨by decide, h1⟩, ⟨by decide, h2⟩, ⟨by decide, h3⟩, by decide, h4⟩)

theorem bitcode_text (plain : Char → Bool) (b : Bitcode) :
    Print.bitcode plain b ++ ['\n'] = bitcodeText (Print.quote plain) b := by
  have := shows_struct (name := "Bitcode".toList) (by decide) [("modules".toList, _, _)]
    (by
      simp only [List.mem_cons, List.not_mem_nil, or_false, forall_eq]
      exact ⟨by decide, shows_map _ _ b.modules fun m _ => shows_module plain m⟩)
  exact this 0 [] [] (by simp) (by simp)

/-! ## Reading the lines -/

/-- The lines determine something about the value, and where they end. -/
def ReadsTo {α β : Type} (L : α → Doc) (f : α → β) : Prop :=
  ∀ a b d pre post r s, L a d pre post ++ r = L b d pre post ++ s → f a = f b ∧ r = s

/-- The first line is at the depth of the value. -/
def Starts (L : Doc) : Prop := ∀ d pre post, ∃ x rest, L d pre post = (d, x) :: rest

theorem starts_word (t : Str) : Starts (.word t) := fun _ _ _ => ⟨_, _, rfl⟩
theorem starts_group (o c : Str) (ps : List (Str × Doc)) : Starts (.group o c ps) := fun _ _ _ => ⟨_, _, rfl⟩

theorem readsTo_word {α β : Type} {t : α → Str} {f : α → β} (h : ∀ a b, t a = t b → f a = f b) :
    ReadsTo (fun a => .word (t a)) f := by
  intro a b d pre post r s e
  simp only [Doc.word, List.cons_append, List.nil_append, List.cons.injEq, Prod.mk.injEq, true_and,
    List.append_cancel_left_eq, List.append_cancel_right_eq] at e
  exact ⟨h a b e.1, e.2⟩

/-- The parts of a group determine something. -/
def PartsTo {α β : Type} (P : α → List (Str × Doc)) (f : α → β) : Prop :=
  ∀ a b d (r s : Str × List (Nat × Str)), (P a).flatMap (fun p => p.2 (d + 1) p.1 [',']) ++ (d, r.1) :: r.2 =
    (P b).flatMap (fun p => p.2 (d + 1) p.1 [',']) ++ (d, s.1) :: s.2 → f a = f b ∧ r = s

theorem partsTo_nil {α : Type} : PartsTo (fun _ : α => []) (fun _ => ()) := by
  intro a b d r s e
  simp only [List.flatMap_nil, List.nil_append, List.cons.injEq, Prod.mk.injEq, true_and] at e
  exact ⟨rfl, Prod.ext e.1 e.2⟩

theorem partsTo_cons {α β γ : Type} {l : Str} {L : α → Doc} {P : α → List (Str × Doc)} {f : α → β} {g : α → γ}
    (h1 : ReadsTo L f) (h2 : PartsTo P g) : PartsTo (fun a => (l, L a) :: P a) (fun a => (f a, g a)) := by
  intro a b d r s e
  simp only [List.flatMap_cons, List.append_assoc] at e
  obtain ⟨e1, e2⟩ := h1 a b _ _ _ _ _ e
  obtain ⟨e3, e4⟩ := h2 a b d r s e2
  exact ⟨Prod.ext e1 e3, e4⟩

theorem readsTo_group {α β : Type} {o c : Str} {P : α → List (Str × Doc)} {f : α → β} (h : PartsTo P f) :
    ReadsTo (fun a => .group o c (P a)) f := by
  intro a b d pre post r s e
  simp only [Doc.group, List.cons_append, List.append_assoc, List.nil_append, List.cons.injEq, true_and] at e
  obtain ⟨e1, e2⟩ := h a b d (c ++ post, r) (c ++ post, s) e
  exact ⟨e1, (Prod.mk.inj e2).2⟩

theorem partsTo_map {α β : Type} {L : α → Doc} {f : α → β} (h : ReadsTo L f) (hs : ∀ a, Starts (L a)) :
    PartsTo (fun l : List α => l.map fun a => ([], L a)) (List.map f) := by
  intro l l' d r s e
  induction l generalizing l' with
  | nil =>
    cases l' with
    | nil =>
      simp only [List.map_nil, List.flatMap_nil, List.nil_append, List.cons.injEq, Prod.mk.injEq, true_and] at e
      exact ⟨rfl, Prod.ext e.1 e.2⟩
    | cons a l' =>
      obtain ⟨x, rest, hx⟩ := hs a (d + 1) [] [',']
      simp only [List.map_nil, List.flatMap_nil, List.nil_append, List.map_cons, List.flatMap_cons, hx, List.cons_append,
        List.cons.injEq, Prod.mk.injEq] at e
      exact absurd e.1.1 (by omega)
  | cons a l ih =>
    cases l' with
    | nil =>
      obtain ⟨x, rest, hx⟩ := hs a (d + 1) [] [',']
      simp only [List.map_nil, List.flatMap_nil, List.nil_append, List.map_cons, List.flatMap_cons, hx, List.cons_append,
        List.cons.injEq, Prod.mk.injEq] at e
      exact absurd e.1.1 (by omega)
    | cons b l' =>
      simp only [List.map_cons, List.flatMap_cons, List.append_assoc] at e
      obtain ⟨e1, e2⟩ := h a b _ _ _ _ _ e
      obtain ⟨e3, e4⟩ := ih _ e2
      exact ⟨by rw [List.map_cons, List.map_cons, e1, e3], e4⟩

theorem readsTo_list {α β : Type} {L : α → Doc} {f : α → β} (h : ReadsTo L f) (hs : ∀ a, Starts (L a)) :
    ReadsTo (fun l : List α => .list (l.map L)) (List.map f) := by
  have one : ∀ (d : Nat) (pre post : Str) (r : List (Nat × Str)) (s : List (Nat × Str)),
      (d, pre ++ ("[]".toList ++ post)) :: r ≠ (d, pre ++ "[".toList) :: s := by
    intro d pre post r s e
    simp only [List.cons.injEq, Prod.mk.injEq, List.append_cancel_left_eq, true_and] at e
    have := congrArg List.length e.1
    simp at this
  have hg := readsTo_group (o := "[".toList) (c := "]".toList) (partsTo_map h hs)
  intro l l' d pre post r s e
  cases l with
  | nil =>
    cases l' with
    | nil => simpa [Doc.list, Doc.word] using e
    | cons b l' => exact absurd e (one d pre post _ _)
  | cons a l =>
    cases l' with
    | nil => exact absurd e.symm (one d pre post _ _)
    | cons b l' =>
      refine hg (a :: l) (b :: l') d pre post r s ?_
      simpa only [Doc.list, List.map_cons, List.map_map, Function.comp_def] using e

theorem readsTo_congr {α β γ : Type} {L : α → Doc} {f : α → β} {g : α → γ} (h : ReadsTo L f) (hg : ∀ a b, f a = f b → g a = g b) :
    ReadsTo L g := fun a b _ _ _ _ _ e => ⟨hg a b (h a b _ _ _ _ _ e).1, (h a b _ _ _ _ _ e).2⟩

theorem readsTo_comp {α β γ : Type} {L : α → Doc} {f : α → β} (h : ReadsTo L f) (k : γ → α) :
    ReadsTo (fun c => L (k c)) (fun c => f (k c)) := fun a b => h (k a) (k b)

theorem reads_bytes : ReadsTo byteDoc id := by
  have := readsTo_list (α := U8) (L := fun b => .word (decimal b.toNat)) (f := id)
    (readsTo_word fun a b h => BitVec.eq_of_toNat_eq (decimal_inj h)) (fun _ => starts_word _)
  exact readsTo_congr this fun a b h => by simpa using h

theorem reads_symtab : ReadsTo (fun s : Option Symtab => match s with
    | none => .word "None".toList
    | some t => .group "Some(".toList ")".toList [([], .group "Symtab(".toList ")".toList [([], byteDoc t.bytes)])]) id := by
  have hs : ReadsTo (fun t : Symtab => .group "Some(".toList ")".toList
      [([], .group "Symtab(".toList ")".toList [([], byteDoc t.bytes)])]) _ :=
    readsTo_group (partsTo_cons (readsTo_group (partsTo_cons (readsTo_comp reads_bytes Symtab.bytes) partsTo_nil)) partsTo_nil)
  have ne : ∀ (d : Nat) (pre post : Str) (r : List (Nat × Str)) (s : List (Nat × Str)),
      (d, pre ++ ("None".toList ++ post)) :: r ≠ (d, pre ++ "Some(".toList) :: s := by
    intro d pre post r s e
    simp only [List.cons.injEq, Prod.mk.injEq, List.append_cancel_left_eq, true_and] at e
    have := congrArg List.head? e.1
    simp at this
  intro a b d pre post r s e
  cases a with
  | none =>
    cases b with
    | none => simpa [Doc.word] using e
    | some t => exact absurd e (ne _ _ _ _ _)
  | some t =>
    cases b with
    | none => exact absurd e.symm (ne _ _ _ _ _)
    | some t' =>
      obtain ⟨e1, e2⟩ := hs t t' d pre post r s e
      simp only [Prod.mk.injEq, and_true, id] at e1
      cases t; cases t'
      simp only at e1
      exact ⟨by rw [e1], e2⟩

section
variable {quoted : Str → Str} (hq : ∀ s, IsLiteral (quoted s) s)
include hq

theorem quoted_inj {a b : Str} (h : quoted a = quoted b) : a = b := C75_literal (hq a) (h ▸ hq b)

theorem reads_quoted : ReadsTo (fun s => .word (quoted s)) id := readsTo_word fun _ _ h => quoted_inj hq h

theorem reads_strings : ReadsTo (stringsDoc quoted) id :=
  readsTo_congr (readsTo_list (reads_quoted hq) fun _ => starts_word _) fun a b h => by simpa using h

theorem reads_module : ReadsTo (moduleDoc quoted) id := by
  have h1 := readsTo_group (o := "Identification {".toList) (c := "}".toList)
    (partsTo_cons (l := "producer: ".toList) (readsTo_comp (reads_quoted hq) fun m : BitcodeModule => m.identification.producer)
      (partsTo_cons (l := "epoch: ".toList)
        (readsTo_word (t := fun m : BitcodeModule => decimal m.identification.epoch.toNat) (f := fun m => m.identification.epoch)
          fun a b h => BitVec.eq_of_toNat_eq (decimal_inj h)) partsTo_nil))
  have h2 := readsTo_group (o := "Module {".toList) (c := "}".toList)
    (partsTo_cons (l := "triple: ".toList) (readsTo_comp (reads_quoted hq) fun m : BitcodeModule => m.module.triple)
      (partsTo_cons (l := "asm: ".toList) (readsTo_comp (reads_strings hq) fun m : BitcodeModule => m.module.asm)
        (partsTo_cons (l := "deplibs: ".toList) (readsTo_comp (reads_strings hq) fun m : BitcodeModule => m.module.deplibs)
          partsTo_nil)))
  have h3 := readsTo_group (o := "Strtab(".toList) (c := ")".toList)
    (partsTo_cons (l := []) (readsTo_comp reads_bytes fun m : BitcodeModule => m.strtab.bytes) partsTo_nil)
  have h4 := readsTo_comp reads_symtab fun m : BitcodeModule => m.symtab
  have := readsTo_group (o := "BitcodeModule {".toList) (c := "}".toList)
    (partsTo_cons (l := "identification: ".toList) h1 (partsTo_cons (l := "module: ".toList) h2
      (partsTo_cons (l := "strtab: ".toList) h3 (partsTo_cons (l := "symtab: ".toList) h4 partsTo_nil))))
  refine readsTo_congr this fun a b h => ?_
  simp only [Prod.mk.injEq, and_true, id] at h
  obtain ⟨⟨e1, e2⟩, ⟨e3, e4, e5⟩, e6, e7⟩ := h
  obtain ⟨⟨_, _⟩, ⟨_, _, _⟩, ⟨_⟩, _⟩ := a
  obtain ⟨⟨_, _⟩, ⟨_, _, _⟩, ⟨_⟩, _⟩ := b
  simp only at e1 e2 e3 e4 e5 e6 e7
  simp only [e1, e2, e3, e4, e5, e6, e7]

theorem reads_bitcode : ReadsTo (bitcodeDoc quoted) id := by
  have := readsTo_group (o := "Bitcode {".toList) (c := "}".toList)
    (partsTo_cons (l := "modules: ".toList)
      (readsTo_comp (readsTo_list (reads_module hq) fun _ => starts_group _ _ _) fun b : Bitcode => b.modules) partsTo_nil)
  refine readsTo_congr this fun a b h => ?_
  simp only [Prod.mk.injEq, and_true, List.map_id] at h
  cases a; cases b
  simp only at h
  simp only [h]

end

/-! ## The lines in the text -/

/-- A line that has something in it, and does not begin with a space. -/
def Clean (t : Str) : Prop := '\n' ∉ t ∧ ∃ c cs, t = c :: cs ∧ c ≠ ' '

theorem Clean.append {t u : Str} (h : Clean t) (hu : '\n' ∉ u) : Clean (t ++ u) := by
  obtain ⟨h1, c, cs, rfl, h2⟩ := h
  exact ⟨by simp only [List.mem_append, not_or]; exact ⟨h1, hu⟩, c, cs ++ u, rfl, h2⟩

theorem clean_pre {pre t : Str} (hp : pre = [] ∨ Clean pre) (h : Clean t) : Clean (pre ++ t) := by
  rcases hp with rfl | hp
  · exact h
  · exact hp.append h.1

theorem line_inj {d d' : Nat} {t t' r r' : Str} (h : Clean t) (h' : Clean t')
    (e : List.replicate (4 * d) ' ' ++ (t ++ ['\n']) ++ r = List.replicate (4 * d') ' ' ++ (t' ++ ['\n']) ++ r') :
    (d, t) = (d', t') ∧ r = r' := by
  obtain ⟨h1, c, cs, rfl, h2⟩ := h
  obtain ⟨h1', c', cs', rfl, h2'⟩ := h'
  simp only [List.append_assoc, List.cons_append, List.nil_append] at e
  obtain ⟨e1, e2, e3⟩ := span_unique (p := fun x => x = ' ') (fun x hx => List.eq_of_mem_replicate hx)
    (fun x hx => List.eq_of_mem_replicate hx) h2 h2' e
  have e1 := congrArg List.length e1
  simp only [List.length_replicate] at e1
  have no : ∀ {c : Char} {cs : Str}, '\n' ∉ c :: cs → ∀ x ∈ cs, x ≠ '\n' := by
    rintro c cs h x hx rfl
    exact h (by simp [hx])
  obtain ⟨e4, -, e5⟩ := span_unique (p := fun x => x ≠ '\n') (no h1) (no h1') (by simp) (by simp) e3
  exact ⟨by rw [e2, e4, show d = d' by omega], e5⟩

theorem linesText_inj {a b : List (Nat × Str)} (ha : ∀ l ∈ a, Clean l.2) (hb : ∀ l ∈ b, Clean l.2)
    (h : linesText a = linesText b) : a = b := by
  induction a generalizing b with
  | nil =>
    cases b with
    | nil => rfl
    | cons l b => rw [linesText_cons] at h; simp [linesText] at h
  | cons l a ih =>
    cases b with
    | nil => rw [linesText_cons] at h; simp [linesText] at h
    | cons m b =>
      rw [linesText_cons, linesText_cons] at h
      obtain ⟨e1, e2⟩ := line_inj (ha l (by simp)) (hb m (by simp)) h
      rw [ih (fun x hx => ha x (by simp [hx])) (fun x hx => hb x (by simp [hx])) e2]
      exact congrArg (· :: b) e1

/-- All lines of the value are clean. -/
def CleanDoc (L : Doc) : Prop :=
  ∀ d pre post, (pre = [] ∨ Clean pre) → '\n' ∉ post → ∀ l ∈ L d pre post, Clean l.2

theorem cleanDoc_word {t : Str} (h : Clean t) : CleanDoc (.word t) := by
  intro d pre post hp hq l hl
  simp only [Doc.word, List.mem_singleton] at hl
  rw [hl]
  exact clean_pre hp (h.append hq)

theorem cleanDoc_group {o c : Str} (ho : Clean o) (hc : Clean c) {ps : List (Str × Doc)}
    (h : ∀ p ∈ ps, (p.1 = [] ∨ Clean p.1) ∧ CleanDoc p.2) : CleanDoc (.group o c ps) := by
  intro d pre post hp hq l hl
  simp only [Doc.group, List.mem_cons, List.mem_append, List.mem_flatMap, List.not_mem_nil, or_false] at hl
  rcases hl with rfl | ⟨p, hp', hl⟩ | rfl
  · exact clean_pre hp ho
  · exact (h p hp').2 (d + 1) p.1 [','] (h p hp').1 (by decide) l hl
  · exact hc.append hq

theorem cleanDoc_list {ps : List Doc} (h : ∀ p ∈ ps, CleanDoc p) : CleanDoc (.list ps) := by
  cases ps with
  | nil => exact cleanDoc_word ⟨by decide, '[', [']'], rfl, by decide⟩
  | cons p ps =>
    refine cleanDoc_group ⟨by decide, '[', [], rfl, by decide⟩ ⟨by decide, ']', [], rfl, by decide⟩ fun q hq => ?_
    obtain ⟨x, hx, rfl⟩ := List.mem_map.1 hq
    exact ⟨.inl rfl, h x hx⟩

theorem cleanDoc_map {α : Type} {L : α → Doc} (h : ∀ a, CleanDoc (L a)) (l : List α) : CleanDoc (.list (l.map L)) := by
  refine cleanDoc_list fun p hp => ?_
  obtain ⟨a, -, rfl⟩ := List.mem_map.1 hp
  exact h a

theorem clean_decimal (n : Nat) : Clean (decimal n) := by
  refine ⟨decimal_no_newline n, ?_⟩
  cases h : decimal n with
  | nil => exact absurd h (decimal_ne_nil n)
  | cons c cs =>
    refine ⟨c, cs, rfl, ?_⟩
    rintro rfl
    exact absurd (decimal_digit (n := n) (c := ' ') (by rw [h]; simp)) (by decide)

theorem clean_literal {t s : Str} (h : IsLiteral t s) : Clean t := by
  refine ⟨literal_no_newline h, ?_⟩
  obtain ⟨l, rfl, -⟩ := h
  exact ⟨'"', _, rfl, by decide⟩

theorem cleanDoc_bytes (bs : List U8) : CleanDoc (byteDoc bs) := cleanDoc_map (fun _ => cleanDoc_word (clean_decimal _)) bs

/-- For literals. -/
def cleanB (t : Str) : Bool := !t.contains '\n' && match t with | [] => false | c :: _ => c != ' '

theorem clean_of {t : Str} (h : cleanB t = true) : Clean t := by
  unfold cleanB at h
  simp only [Bool.and_eq_true, Bool.not_eq_true', List.contains_eq_mem, decide_eq_false_iff_not] at h
  refine ⟨h.1, ?_⟩
  cases t with
  | nil => simp at h
  | cons c cs => exact ⟨c, cs, rfl, by simpa using h.2⟩

theorem cleanDoc_module {quoted : Str → Str} (hq : ∀ s, IsLiteral (quoted s) s) (m : BitcodeModule) :
    CleanDoc (moduleDoc quoted m) := by
  have hs : ∀ l, CleanDoc (stringsDoc quoted l) := fun l => cleanDoc_map (fun s => cleanDoc_word (clean_literal (hq s))) l
  refine cleanDoc_group (clean_of (by decide)) (clean_of (by decide)) ?_
  simp only [List.mem_cons, List.not_mem_nil, or_false, forall_eq_or_imp, forall_eq]
  refine ⟨⟨.inr (clean_of (by decide)), cleanDoc_group (clean_of (by decide)) (clean_of (by decide)) ?_⟩,
    ⟨.inr (clean_of (by decide)), cleanDoc_group (clean_of (by decide)) (clean_of (by decide)) ?_⟩,
    ⟨.inr (clean_of (by decide)), cleanDoc_group (clean_of (by decide)) (clean_of (by decide)) ?_⟩,
    .inr (clean_of (by decide)), ?_⟩
  · simp only [List.mem_cons, List.not_mem_nil, or_false, forall_eq_or_imp, forall_eq]
    exact ⟨⟨.inr (clean_of (by decide)), cleanDoc_word (clean_literal (hq _))⟩, .inr (clean_of (by decide)),
      cleanDoc_word (clean_decimal _)⟩
  · simp only [List.mem_cons, List.not_mem_nil, or_false, forall_eq_or_imp, forall_eq]
    exact ⟨⟨.inr (clean_of (by decide)), cleanDoc_word (clean_literal (hq _))⟩, ⟨.inr (clean_of (by decide)), hs _⟩,
      .inr (clean_of (by decide)), hs _⟩
  · simp only [List.mem_cons, List.not_mem_nil, or_false, forall_eq]
    exact ⟨.inl trivial, cleanDoc_bytes _⟩
  · cases m.symtab with
    | none => exact cleanDoc_word (clean_of (by decide))
    | some t =>
      refine cleanDoc_group (clean_of (by decide)) (clean_of (by decide)) ?_
      simp only [List.mem_cons, List.not_mem_nil, or_false, forall_eq]
      refine ⟨.inl trivial, cleanDoc_group (clean_of (by decide)) (clean_of (by decide)) ?_⟩
      simp only [List.mem_cons, List.not_mem_nil, or_false, forall_eq]
      exact ⟨.inl trivial, cleanDoc_bytes _⟩

theorem cleanDoc_bitcode {quoted : Str → Str} (hq : ∀ s, IsLiteral (quoted s) s) (b : Bitcode) : CleanDoc (bitcodeDoc quoted b) := by
  refine cleanDoc_group (clean_of (by decide)) (clean_of (by decide)) ?_
  simp only [List.mem_cons, List.not_mem_nil, or_false, forall_eq]
  exact ⟨.inr (clean_of (by decide)), cleanDoc_map (cleanDoc_module hq) _⟩

/-! ## The program -/

/-- C75. If strings are written as string literals, the text for a mapped file determines all of it. -/
theorem C75_determines {quoted : Str → Str} (hq : ∀ s, IsLiteral (quoted s) s) {b b' : Bitcode}
    (h : bitcodeText quoted b = bitcodeText quoted b') : b = b' := by
  have e := linesText_inj (cleanDoc_bitcode hq b 0 [] [] (.inl rfl) (by simp))
    (cleanDoc_bitcode hq b' 0 [] [] (.inl rfl) (by simp)) h
  exact (reads_bitcode hq b b' 0 [] [] [] [] (by rw [e])).1

theorem print_main (pf : Profile) (target : Str) (plain : Char → Bool) (bytes : List U8) :
    Print.main pf target plain bytes =
      Bitcode.tryFrom pf target bytes >>= fun b => .ok (bitcodeText (Print.quote plain) b) := by
  simp only [← bitcode_text]
  unfold Print.main Bitcode.tryFrom
  cases Out.mapErr MapperError.parse (Bitstream.from pf bytes) <;> rfl

/-- C75. What the program prints: the text for what the file maps to. -/
theorem C75_prints (pf : Profile) (target : Str) (plain : Char → Bool) (bytes : List U8) (text : Str) :
    Print.main pf target plain bytes = .ok text ↔
      ∃ b, Bitcode.tryFrom pf target bytes = .ok b ∧ text = bitcodeText (Print.quote plain) b := by
  rw [print_main]
  cases Bitcode.tryFrom pf target bytes with
  | ok b =>
    show Out.ok (bitcodeText (Print.quote plain) b) = _ ↔ _
    simp only [Out.ok.injEq, exists_eq_left', eq_comm]
  | _ => simp [bind, Out.bind]

/-- C75. If a file does not map, the program ends in the same way, and prints nothing. -/
theorem C75_ends (pf : Profile) (target : Str) (plain : Char → Bool) (bytes : List U8) (bad : Bad MapperError) :
    (Print.main pf target plain bytes).Ends bad ↔ (Bitcode.tryFrom pf target bytes).Ends bad := by
  rw [print_main]
  cases Bitcode.tryFrom pf target bytes <;> cases bad <;> simp [bind, Out.bind, Out.Ends, Out.Stops]

/-- C75. Two files for which the program prints the same map to the same. -/
theorem C75_same (pf : Profile) (target : Str) (plain : Char → Bool) {bytes bytes' : List U8} {text : Str}
    (h : Print.main pf target plain bytes = .ok text) (h' : Print.main pf target plain bytes' = .ok text) :
    ∃ b, Bitcode.tryFrom pf target bytes = .ok b ∧ Bitcode.tryFrom pf target bytes' = .ok b := by
  obtain ⟨b, h1, rfl⟩ := (C75_prints ..).1 h
  obtain ⟨b', h1', e⟩ := (C75_prints ..).1 h'
  rw [C75_determines (C75_quoted plain) e] at h1
  exact ⟨b', h1, h1'⟩

/-! ## Examples -/

/-- What is printed for the file of `exFile_maps`. -/
def exPrinted : List String :=
  ["Bitcode {", "    modules: [", "        BitcodeModule {", "            identification: Identification {",
    "                producer: \"LLVM\",", "                epoch: 0,", "            },", "            module: Module {",
    "                triple: \"x86\",", "                asm: [", "                    \"nop\",", "                    \"ret\",",
    "                ],", "                deplibs: [", "                    \"mm\",", "                ],", "            },",
    "            strtab: Strtab(", "                [", "                    99,", "                    102,",
    "                    103,", "                ],", "            ),", "            symtab: Some(", "                Symtab(",
    "                    [", "                        7,", "                        8,", "                        9,",
    "                    ],", "                ),", "            ),", "        },", "    ],", "}"]

/-- Characters from the space to the tilde are printed as they are. -/
def exPlain (c : Char) : Bool := decide (32 ≤ c.toNat) && decide (c.toNat ≤ 126)

example (pf : Profile) : (streamBytes 0xdec04342 exFile).map (fun x => Print.main pf "t".toList exPlain x.1) =
    some (.ok (exPrinted.flatMap fun l => l.toList ++ ['\n'])) := by
  cases pf <;> decide +kernel

/-- Quotes, backslashes and lines do not get mixed up with the text around. -/
example : Print.quote exPlain ['a', '"', '\\', '\n', Char.ofNat 0, Char.ofNat 0x1f980, Char.ofNat 7] =
    "\"a\\\"\\\\\\n\\0\\u{1f980}\\u{7}\"".toList := by decide +kernel

/-- Nothing is printed for a file without a string table. -/
example (pf : Profile) : (streamBytes 0xdec04342 (.block 13 5 (.unabbrev 1 [76] (.unabbrev 2 [0] .nil)) .nil)).map
    (fun x => Print.main pf "t".toList exPlain x.1) = some (.err (.unroll .missingStrtab)) := by
  cases pf <;> decide +kernel

end Verif
