import Verif.Bitstream.Dump
import Verif.Bitstream.DumpSpec
import Verif.Props.Wrapped
import Verif.Props.Sizes
import Verif.Props.Stops

/-! C61: the program that dumps a bitstream prints the tree of its blocks. -/

namespace Verif
open Spec Props

/-! ## Numbers -/

theorem hexChar_eq {d : Nat} (h : d < 16) : Dump.hexChar d = "0123456789ABCDEF".toList.getD d '?' := by
  have : ∀ d : Fin 16, Dump.hexChar d = "0123456789ABCDEF".toList.getD d '?' := by decide
  exact this ⟨d, h⟩

theorem hexDigits_text : ∀ (k n : Nat), n < 16 ^ (k + 1) → HexText n (Dump.hexDigits (k + 1) n)
  | k, n, h => by
    unfold Dump.hexDigits
    by_cases h16 : n < 16
    · rw [if_pos h16]
      exact ⟨[n], by simp [hexChar_eq h16], by simpa using h16, by simp, by simp, by simp⟩
    · rw [if_neg h16]
      cases k with
      | zero => simp at h; omega
      | succ k =>
        have hn : n / 16 < 16 ^ (k + 1) := by
          rw [Nat.div_lt_iff_lt_mul (by decide)]
          rw [Nat.pow_succ] at h
          exact h
        obtain ⟨ds, h1, h2, h3, h4, h5⟩ := hexDigits_text k (n / 16) hn
        refine ⟨ds ++ [n % 16], ?_, ?_, by simp, ?_, ?_⟩
        · rw [h1, List.map_append, hexChar_eq (Nat.mod_lt _ (by decide))]; rfl
        · intro d hd
          rcases List.mem_append.1 hd with hd | hd
          · exact h2 d hd
          · simp only [List.mem_singleton] at hd; rw [hd]; exact Nat.mod_lt _ (by decide)
        · intro hh
          have hh : ds.head? = some 0 := by
            cases ds with
            | nil => exact absurd rfl h3
            | cons d ds => simpa using hh
          rw [h4 hh] at h5
          simp at h5
          omega
        · rw [List.foldl_append, h5]
          simp only [List.foldl_cons, List.foldl_nil]
          omega

theorem hex_text (n : U64) : ∃ l, Dump.hex n = "0x".toList ++ l ∧ HexText n.toNat l :=
  ⟨_, rfl, hexDigits_text 15 _ n.isLt⟩

theorem hexText_unique {n m : Nat} {l : Str} (h : HexText n l) (h' : HexText m l) : n = m := by
  obtain ⟨ds, rfl, h2, -, -, rfl⟩ := h
  obtain ⟨ds', h1', h2', -, -, rfl⟩ := h'
  have inj : ∀ a b : Fin 16, "0123456789ABCDEF".toList.getD a '?' = "0123456789ABCDEF".toList.getD b '?' → a = b := by decide
  suffices ds = ds' by rw [this]
  induction ds generalizing ds' with
  | nil => cases ds' with
    | nil => rfl
    | cons _ _ => simp at h1'
  | cons d ds ih =>
    cases ds' with
    | nil => simp at h1'
    | cons d' ds' =>
      simp only [List.map_cons, List.cons.injEq] at h1'
      have := inj ⟨d, h2 d (by simp)⟩ ⟨d', h2' d' (by simp)⟩ h1'.1
      simp only [Fin.mk.injEq] at this
      rw [this, ih (fun x hx => h2 x (by simp [hx])) ds' h1'.2 (fun x hx => h2' x (by simp [hx]))]

theorem hexText_not_mem {n : Nat} {l : Str} (h : HexText n l) : '\n' ∉ l := by
  obtain ⟨ds, rfl, h2, -⟩ := h
  intro hm
  obtain ⟨d, hd, he⟩ := List.mem_map.1 hm
  have : ∀ a : Fin 16, "0123456789ABCDEF".toList.getD a '?' ≠ '\n' := by decide
  exact this ⟨d, h2 d hd⟩ he

theorem decimal_inj {n m : Nat} (h : decimal n = decimal m) : n = m := by
  have h1 := parseUInt_decimal (max n m) n (Nat.le_max_left _ _)
  rw [h, parseUInt_decimal (max n m) m (Nat.le_max_right _ _)] at h1
  simpa using h1.symm

/-- What comes before the first character of another kind is determined. -/
theorem span_unique {p : Char → Prop} {a b r s : Str} {c d : Char} (ha : ∀ x ∈ a, p x) (hb : ∀ x ∈ b, p x) (hc : ¬ p c)
    (hd : ¬ p d) (h : a ++ c :: r = b ++ d :: s) : a = b ∧ c = d ∧ r = s := by
  induction a generalizing b with
  | nil =>
    cases b with
    | nil => simp at h; exact ⟨rfl, h⟩
    | cons y b =>
      simp only [List.nil_append, List.cons_append, List.cons.injEq] at h
      exact absurd (h.1 ▸ hb y (by simp)) hc
  | cons x a ih =>
    cases b with
    | nil =>
      simp only [List.nil_append, List.cons_append, List.cons.injEq] at h
      exact absurd (h.1 ▸ ha x (by simp)) hd
    | cons y b =>
      simp only [List.cons_append, List.cons.injEq] at h
      obtain ⟨e, h1⟩ := ih (fun x hx => ha x (by simp [hx])) (fun x hx => hb x (by simp [hx])) h.2
      exact ⟨by rw [h.1, e], h1⟩

abbrev isDigit (c : Char) : Prop := 48 ≤ c.toNat ∧ c.toNat ≤ 57

/-- A number and what follows it, if that is not a digit, are determined by the text. -/
theorem decimal_span {n m : Nat} {c d : Char} {r s : Str} (hc : ¬ isDigit c) (hd : ¬ isDigit d)
    (h : decimal n ++ c :: r = decimal m ++ d :: s) : n = m ∧ c = d ∧ r = s := by
  obtain ⟨h1, h2⟩ := span_unique (p := isDigit) (fun x hx => decimal_digit hx) (fun x hx => decimal_digit hx) hc hd h
  exact ⟨decimal_inj h1, h2⟩

theorem restOfList_eq (fs : List U64) :
    Dump.restOfList fs = ", ".toList.intercalate (fs.map fun f => decimal f.toNat) ++ "]".toList := by
  induction fs with
  | nil => rfl
  | cons f fs ih =>
    cases fs with
    | nil => simp [Dump.restOfList, Dump.number, decimal, List.intercalate]
    | cons g gs =>
      simp only [Dump.restOfList] at ih ⊢
      rw [ih]
      simp [List.intercalate, Dump.number, decimal]

theorem restOfList_inj {fs gs : List U64} {r s : Str} (h : Dump.restOfList fs ++ r = Dump.restOfList gs ++ s) :
    fs = gs ∧ r = s := by
  have first : ∀ (g : U64) (gs : List U64) (r : Str), ∃ c t, isDigit c ∧ Dump.restOfList (g :: gs) ++ r = c :: t := by
    intro g gs r
    cases hd : decimal g.toNat with
    | nil => exact absurd hd (decimal_ne_nil _)
    | cons c cs =>
      have hc : isDigit c := decimal_digit (n := g.toNat) (by rw [hd]; simp)
      cases gs with
      | nil => exact ⟨c, cs ++ ("]".toList ++ r), hc, by simp [Dump.restOfList, Dump.number, show Nat.toDigits 10 g.toNat = _ from hd]⟩
      | cons g' gs =>
        exact ⟨c, cs ++ (", ".toList ++ Dump.restOfList (g' :: gs) ++ r), hc, by
          simp [Dump.restOfList, Dump.number, show Nat.toDigits 10 g.toNat = _ from hd]⟩
  have split : ∀ (g : U64) (gs : List U64) (r : Str), ∃ c t, ¬ isDigit c ∧ Dump.restOfList (g :: gs) ++ r = decimal g.toNat ++ c :: t ∧
      ((gs = [] ∧ c = ']' ∧ t = r) ∨ (gs ≠ [] ∧ c = ',' ∧ t = ' ' :: (Dump.restOfList gs ++ r))) := by
    intro g gs r
    cases gs with
    | nil => exact ⟨']', r, by decide, by simp [Dump.restOfList, Dump.number, decimal], .inl ⟨rfl, rfl, rfl⟩⟩
    | cons g' gs =>
      exact ⟨',', ' ' :: (Dump.restOfList (g' :: gs) ++ r), by decide, by simp [Dump.restOfList, Dump.number, decimal],
        .inr ⟨by simp, rfl, rfl⟩⟩
  induction fs generalizing gs with
  | nil =>
    cases gs with
    | nil => simpa [Dump.restOfList] using h
    | cons g gs =>
      obtain ⟨c, t, hc, e⟩ := first g gs s
      rw [e] at h
      have h := List.cons.inj h
      rw [← h.1] at hc
      exact absurd hc (by decide)
  | cons f fs ih =>
    cases gs with
    | nil =>
      obtain ⟨c, t, hc, e⟩ := first f fs r
      rw [e] at h
      have h := List.cons.inj h
      rw [h.1] at hc
      exact absurd hc (by decide)
    | cons g gs =>
      obtain ⟨c, t, hc, e, hh⟩ := split f fs r
      obtain ⟨c', t', hc', e', hh'⟩ := split g gs s
      rw [e, e'] at h
      obtain ⟨h1, h2, h3⟩ := decimal_span hc hc' h
      have h1 : f = g := BitVec.eq_of_toNat_eq h1
      subst h1
      rcases hh with ⟨rfl, rfl, rfl⟩ | ⟨hne, rfl, rfl⟩ <;> rcases hh' with ⟨rfl, h4, rfl⟩ | ⟨hne', h4, rfl⟩
      · exact ⟨rfl, h3⟩
      · rw [h4] at h2; exact absurd h2 (by decide)
      · rw [h4] at h2; exact absurd h2 (by decide)
      · simp only [List.cons.injEq, true_and] at h3
        obtain ⟨h5, h6⟩ := ih h3
        exact ⟨by rw [h5], h6⟩

/-! ## Lines -/

theorem recordText_eq (r : BRecord) : recordText r = "RECORD { code: ".toList ++ (decimal r.code.toNat ++ ", fields: [".toList ++
    Dump.restOfList r.fields ++ " }".toList) := by
  rw [restOfList_eq]
  unfold recordText
  simp only [List.append_assoc]
  rfl

theorem recordText_inj {r s : BRecord} (h : recordText r = recordText s) : r.code = s.code ∧ r.fields = s.fields := by
  rw [recordText_eq, recordText_eq] at h
  have h := List.append_cancel_left h
  simp only [List.append_assoc] at h
  obtain ⟨h1, -, h2⟩ := decimal_span (c := ',') (d := ',') (by decide) (by decide) h
  have h2 := List.append_cancel_left (as := " fields: [".toList) h2
  exact ⟨BitVec.eq_of_toNat_eq h1, (restOfList_inj h2).1⟩

theorem blockText_inj {s t : BBlock} (h : blockText s = blockText t) : s.blockId = t.blockId := by
  unfold blockText at h
  simp only [List.append_assoc] at h
  have h := List.append_cancel_left h
  exact BitVec.eq_of_toNat_eq (decimal_span (c := ' ') (d := ' ') (by decide) (by decide) h).1

theorem restOfList_mem {fs : List U64} {c : Char} (h : c ∈ Dump.restOfList fs) : isDigit c ∨ c = ']' ∨ c = ',' ∨ c = ' ' := by
  induction fs with
  | nil => right; left; simpa [Dump.restOfList] using h
  | cons f fs ih =>
    cases fs with
    | nil =>
      simp only [Dump.restOfList, List.mem_append, Dump.number] at h
      rcases h with h | h
      · exact .inl (decimal_digit (n := f.toNat) h)
      · right; left; simpa using h
    | cons g gs =>
      simp only [Dump.restOfList, List.mem_append, Dump.number] at h
      rcases h with (h | h) | h
      · exact .inl (decimal_digit (n := f.toNat) h)
      · simp at h; rcases h with h | h <;> simp [h]
      · exact ih h

/-- The three kinds of lines. -/
def entryText : StreamEntry → Str
  | .subBlock s => blockText s
  | .endBlock => "}".toList
  | .record r => recordText r

theorem entryText_no_newline (e : StreamEntry) : '\n' ∉ entryText e := by
  intro h
  have hd : ¬ isDigit '\n' := by decide
  cases e with
  | subBlock s =>
    simp only [entryText, blockText, List.mem_append] at h
    rcases h with (h | h) | h
    · exact absurd h (by decide)
    · exact hd (decimal_digit h)
    · exact absurd h (by decide)
  | endBlock => exact absurd h (by decide)
  | record r =>
    simp only [entryText, recordText_eq, List.mem_append] at h
    rcases h with h | ((h | h) | h) | h
    · exact absurd h (by decide)
    · exact hd (decimal_digit h)
    · exact absurd h (by decide)
    · rcases restOfList_mem h with h | h | h | h
      · exact hd h
      · exact absurd h (by decide)
      · exact absurd h (by decide)
      · exact absurd h (by decide)
    · exact absurd h (by decide)

theorem entryText_first (e : StreamEntry) : ∃ c t, entryText e = c :: t ∧ c ≠ '\t' ∧
    c = (match e with | .subBlock _ => 'B' | .endBlock => '}' | .record _ => 'R') := by
  cases e with
  | subBlock s => exact ⟨'B', _, rfl, by decide, rfl⟩
  | endBlock => exact ⟨'}', _, rfl, by decide, rfl⟩
  | record r => exact ⟨'R', _, rfl, by decide, rfl⟩

/-- A line determines what it stands for, and where it ends. -/
theorem dumpLine_inj {d d' : Nat} {e e' : StreamEntry} {r s : Str}
    (h : dumpLine d (entryText e) ++ r = dumpLine d' (entryText e') ++ s) : erase e = erase e' ∧ r = s := by
  unfold dumpLine at h
  simp only [List.append_assoc] at h
  rw [← List.append_assoc, ← List.append_assoc (List.replicate d' '\t')] at h
  have hn : ∀ d e, ∀ x ∈ List.replicate d '\t' ++ entryText e, x ≠ '\n' := by
    intro d e x hx
    rcases List.mem_append.1 hx with hx | hx
    · rw [List.eq_of_mem_replicate hx]; decide
    · rintro rfl; exact entryText_no_newline e hx
  obtain ⟨h1, -, h2⟩ := span_unique (p := fun x => x ≠ '\n') (hn d e) (hn d' e') (by simp) (by simp) h
  refine ⟨?_, h2⟩
  obtain ⟨c, t, e1, e2, e3⟩ := entryText_first e
  obtain ⟨c', t', e1', e2', e3'⟩ := entryText_first e'
  rw [e1, e1'] at h1
  obtain ⟨-, h3, h4⟩ := span_unique (p := fun x => x = '\t') (fun x hx => List.eq_of_mem_replicate hx)
    (fun x hx => List.eq_of_mem_replicate hx) e2 e2' h1
  have he : entryText e = entryText e' := by rw [e1, e1', h3, h4]
  subst e3 e3'
  cases e <;> cases e' <;> simp only at h3 <;> first | exact absurd h3 (by decide) | skip
  · rfl
  · simp only [entryText] at he
    simp only [erase, blockText_inj he]
  · simp only [entryText] at he
    simp only [erase, (recordText_inj he).1, (recordText_inj he).2]

/-- The lines for entries. -/
def entriesText : Nat → List StreamEntry → Str
  | _, [] => []
  | d, .subBlock s :: es => dumpLine d (entryText (.subBlock s)) ++ entriesText (d + 1) es
  | d, .endBlock :: es => dumpLine (d - 1) (entryText .endBlock) ++ entriesText (d - 1) es
  | d, .record r :: es => dumpLine d (entryText (.record r)) ++ entriesText d es

theorem entriesText_cons (d : Nat) (e : StreamEntry) (es : List StreamEntry) :
    ∃ d₁ d₂, entriesText d (e :: es) = dumpLine d₁ (entryText e) ++ entriesText d₂ es ∧
      ∀ e' es', erase e = erase e' → entriesText d (e' :: es') = dumpLine d₁ (entryText e') ++ entriesText d₂ es' := by
  cases e with
  | subBlock s =>
    refine ⟨d, d + 1, rfl, fun e' es' h => ?_⟩
    cases e' <;> simp [erase] at h; rfl
  | endBlock =>
    refine ⟨d - 1, d - 1, rfl, fun e' es' h => ?_⟩
    cases e' <;> simp [erase] at h; rfl
  | record r =>
    refine ⟨d, d, rfl, fun e' es' h => ?_⟩
    cases e' <;> simp [erase] at h; rfl

theorem entriesText_inj {d : Nat} {es es' : List StreamEntry} (h : entriesText d es = entriesText d es') :
    es.map erase = es'.map erase := by
  have ne : ∀ d e es, entriesText d (e :: es) ≠ [] := by
    intro d e es
    obtain ⟨d₁, d₂, h, -⟩ := entriesText_cons d e es
    rw [h]; simp [dumpLine]
  induction es generalizing d es' with
  | nil =>
    cases es' with
    | nil => rfl
    | cons e es => exact absurd h.symm (ne _ _ _)
  | cons e es ih =>
    cases es' with
    | nil => exact absurd h (ne _ _ _)
    | cons e' es' =>
      obtain ⟨d₁, d₂, h1, h2⟩ := entriesText_cons d e es
      obtain ⟨d₁', d₂', h1', -⟩ := entriesText_cons d e' es'
      rw [h1, h1'] at h
      obtain ⟨h3, h4⟩ := dumpLine_inj h
      have h5 := h2 e' es' h3
      rw [h1'] at h5
      simp only [List.map_cons, h3, List.cons.injEq, true_and]
      have h6 := (dumpLine_inj h5).2
      rw [h6] at h4
      exact ih h4

/-! ## Trees -/

theorem forest_dump (t : Forest) (d : Nat) (es : List StreamEntry) :
    entriesText d (t.entries ++ es) = t.dump d ++ entriesText d es := by
  induction t generalizing d es with
  | nil => rfl
  | record r rest ih =>
    simp only [Forest.entries, List.cons_append, entriesText, Forest.dump, ih, entryText, List.append_assoc]
  | block s body rest ih1 ih2 =>
    simp only [Forest.entries, List.cons_append, List.append_assoc, entriesText, Forest.dump, ih1, ih2, entryText,
      Nat.add_sub_cancel]

theorem complete_dump (tops : List (BBlock × Forest)) (es : List StreamEntry) :
    entriesText 0 (completeEntries tops ++ es) = dumpTops tops ++ entriesText 0 es := by
  induction tops with
  | nil => rfl
  | cons c cs ih =>
    simp only [completeEntries, dumpTops, List.flatMap_cons, List.append_assoc, List.cons_append, List.nil_append,
      entriesText, forest_dump, entryText, Nat.zero_add] at ih ⊢
    rw [ih]

theorem open_dump (P : List (BBlock × Forest)) (d : Nat) : entriesText d (openEntries P) = dumpOpen d P := by
  induction P generalizing d with
  | nil => rfl
  | cons c cs ih =>
    simp only [openEntries, List.flatMap_cons, List.cons_append, entriesText, forest_dump, entryText, dumpOpen,
      List.append_assoc] at ih ⊢
    rw [ih]

/-! ## The program -/

theorem line_eq (d : Nat) (l : Str) (r : Dump.Result) :
    Dump.line (List.replicate d '\t' ++ l) r = (dumpLine d l ++ r.1, r.2) := by
  simp [Dump.line, dumpLine]

theorem loop_stop {pf : Profile} {b b' : Bitstream} {r : Bitstream.Next} (n d : Nat) (h : Bitstream.next pf b = (r, b'))
    (hr : ∀ e, r ≠ .item e) : Dump.loop pf (n + 1) d b = ([], dumpEnd r) := by
  cases r with
  | item e => exact absurd rfl (hr e)
  | _ => simp only [Dump.loop, h, dumpEnd]

/-- The loop over entries that are properly nested, from a stream that has given the blocks `st` and not closed them. -/
theorem loop_gives {pf : Profile} {b b₁ b₂ : Bitstream} {es : List StreamEntry} {r : Bitstream.Next} (h : Gives pf b es b₁)
    (hr : Bitstream.next pf b₁ = (r, b₂)) (hne : ∀ e, r ≠ .item e) :
    ∀ {st st' : List U64} {n : Nat}, openBlocks st es = some st' → st.length + es.length < 2 ^ 63 → es.length < n →
      Dump.loop pf n st.length b = (entriesText st.length es, dumpEnd r) := by
  induction h with
  | nil b =>
    intro st st' n _ _ hn
    obtain ⟨n, rfl⟩ : ∃ m, n = m + 1 := ⟨n - 1, by simp at hn; omega⟩
    exact loop_stop n _ hr hne
  | @cons b bm b₂ e es h1 h2 ih =>
    intro st st' n ho hl hn
    obtain ⟨n, rfl⟩ : ∃ m, n = m + 1 := ⟨n - 1, by simp at hn; omega⟩
    simp only [List.length_cons] at hl hn
    cases e with
    | subBlock s =>
      have := ih hr (st := s.blockId :: st) (n := n) ho (by simp only [List.length_cons]; omega) (by omega)
      simp only [Dump.loop, h1, Dump.tabs, Dump.scopeAdd]
      rw [if_pos (by omega), if_pos (by omega)]
      simp only [Dump.andThen, List.append_assoc]
      rw [line_eq]
      simp only [List.length_cons] at this
      rw [this]
      simp only [entriesText, entryText, blockText, Dump.number, decimal, List.append_assoc]
    | endBlock =>
      cases st with
      | nil => simp [openBlocks] at ho
      | cons i st =>
        have := ih hr (st := st) (n := n) ho (by simp only [List.length_cons] at hl; omega) (by omega)
        simp only [List.length_cons] at hl
        simp only [Dump.loop, h1, Dump.tabs, Dump.scopeSub, List.length_cons]
        rw [if_neg (by omega)]
        simp only [Dump.andThen, Nat.add_sub_cancel]
        rw [if_pos (by omega)]
        simp only [line_eq]
        rw [this]
        simp only [entriesText, entryText, Nat.add_sub_cancel]
    | record q =>
      have := ih hr (st := st) (st' := st') (n := n) (by
        cases st with
        | nil => simp [openBlocks] at ho
        | cons i st => simpa [openBlocks] using ho) (by omega) (by omega)
      simp only [Dump.loop, h1, Dump.tabs]
      rw [if_pos (by omega)]
      simp only [Dump.andThen, List.append_assoc]
      rw [line_eq, this]
      simp only [entriesText, entryText, recordText_eq, Dump.number, decimal, List.append_assoc]

theorem lit1 : "Wrapper: BitcodeWrapper {\n    magic: ".toList =
    "Wrapper: BitcodeWrapper {".toList ++ ('\n' :: "    magic: ".toList) := by decide +kernel
theorem lit2 : ",\n    version: ".toList = ",".toList ++ ('\n' :: "    version: ".toList) := by decide +kernel
theorem lit3 : ",\n    offset: ".toList = ",".toList ++ ('\n' :: "    offset: ".toList) := by decide +kernel
theorem lit4 : ",\n    size: ".toList = ",".toList ++ ('\n' :: "    size: ".toList) := by decide +kernel
theorem lit5 : ",\n    cpu_type: ".toList = ",".toList ++ ('\n' :: "    cpu_type: ".toList) := by decide +kernel
theorem lit6 : ",\n}\n".toList = ",".toList ++ ('\n' :: ("}".toList ++ ['\n'])) := by decide +kernel
theorem lit7 : "Entered bitstream; magic: 0x".toList = "Entered bitstream; magic: ".toList ++ "0x".toList := by decide +kernel
theorem lit8 : "\n".toList = ['\n'] := by decide +kernel
theorem lit9 : ",".toList = [','] := by decide +kernel
theorem lit10 : "Wrapper: BitcodeWrapper {".toList = 'W' :: "rapper: BitcodeWrapper {".toList := by decide +kernel
theorem lit11 : "Entered bitstream; magic: ".toList = 'E' :: "ntered bitstream; magic: ".toList := by decide +kernel

theorem dumpHeader_none (l : Str) :
    dumpHeader none l = "Entered bitstream; magic: ".toList ++ ("0x".toList ++ (l ++ ['\n'])) := by
  unfold dumpHeader
  rw [lit7, lit8]
  simp only [List.append_assoc, List.nil_append]

theorem dumpHeader_some (w : BitcodeWrapper) (l : Str) :
    dumpHeader (some w) l = "Wrapper: BitcodeWrapper {".toList ++ '\n' :: ("    magic: ".toList ++ (decimal w.magic.toNat ++
      ',' :: '\n' :: ("    version: ".toList ++ (decimal w.version.toNat ++
      ',' :: '\n' :: ("    offset: ".toList ++ (decimal w.offset.toNat ++
      ',' :: '\n' :: ("    size: ".toList ++ (decimal w.size.toNat ++
      ',' :: '\n' :: ("    cpu_type: ".toList ++ (decimal w.cpuType.toNat ++
      ',' :: '\n' :: ("}".toList ++ '\n' :: dumpHeader none l))))))))))) := by
  rw [dumpHeader_none]
  unfold dumpHeader
  rw [lit1, lit2, lit3, lit4, lit5, lit6, lit7, lit8, lit9]
  simp only [List.append_assoc, List.cons_append, List.nil_append]

theorem header_eq (w : Option BitcodeWrapper) (n : U64) (r : Dump.Result) : ∃ l, HexText n.toNat l ∧
    (w.elim [] Dump.wrapperText).foldr Dump.line (Dump.line ("Entered bitstream; magic: ".toList ++ Dump.hex n) r) =
      (dumpHeader w l ++ r.1, r.2) := by
  obtain ⟨l, h1, h2⟩ := hex_text n
  refine ⟨l, h2, ?_⟩
  rw [h1]
  cases w with
  | none =>
    rw [dumpHeader_none]
    simp only [Option.elim, List.foldr, Dump.line, List.append_assoc, List.cons_append, List.nil_append]
  | some w =>
    rw [dumpHeader_some, dumpHeader_none]
    simp only [Option.elim, List.foldr, Dump.line, List.append_assoc, List.cons_append, List.nil_append, Dump.wrapperText,
      Dump.number, decimal, lit9]

/-- The entries a stream gives until it stops, and its dump. -/
theorem main_eq (pf : Profile) {bytes : List U8} (hlen : bytes.length < 2 ^ 60) {w : Option BitcodeWrapper} {b b₁ b₂ : Bitstream}
    (h : Bitstream.from pf bytes = .ok (w, b)) {es : List StreamEntry} {r : Bitstream.Next} (hg : Gives pf b es b₁)
    (hr : Bitstream.next pf b₁ = (r, b₂)) (hne : ∀ e, r ≠ .item e) :
    (∃ l, HexText b.magic.toNat l ∧ Dump.main pf bytes = (dumpHeader w l ++ entriesText 0 es, dumpEnd r)) ∧
    ∃ st, openBlocks [] es = some st := by
  have ho : Opened pf b := .auto h
  obtain ⟨h1, h2, -⟩ := ho.start
  have hv := iterate_visible (pf := pf) es.length h1
  rw [show b.parser.visible = [] by simp [Parser.visible, h2, Scope.visibleId], hg.iterate] at hv
  have hit : ∀ l : List StreamEntry, items (l.map .item) = l := by
    intro l
    induction l with
    | nil => rfl
    | cons e l ih => simp [items, ih]
  have hb := iterate_bound (pf := pf) es.length h1
  rw [hg.iterate] at hb
  rw [hit] at hv hb
  have hl := from_len h
  have e : b.len = b.parser.cursor.bitLen := rfl
  refine ⟨?_, _, hv⟩
  have := loop_gives hg hr hne (st := []) (n := b.parser.cursor.bitLen + 2) hv
    (by simp only [List.length_nil]; omega) (by omega)
  obtain ⟨l, k1, k2⟩ := header_eq w b.magic (Dump.loop pf (b.parser.cursor.bitLen + 2) 0 b)
  refine ⟨l, k1, ?_⟩
  unfold Dump.main
  rw [h]
  show List.foldr _ _ _ = _
  rw [k2, show (0 : Nat) = ([] : List U64).length from rfl, this]

/-- C61. Dumping a file. If it cannot be opened, nothing is printed and the error is returned. Otherwise the header is printed,
and then a line for each thing the stream delivers: its records, and its blocks with their contents between braces, each
indented by the number of blocks around it, down to the blocks that are still open where the stream stops. The program ends
as the stream does. No counter overflows in between. -/
theorem C61_dump (pf : Profile) (bytes : List U8) (hlen : bytes.length < 2 ^ 60) :
    (∃ e, Bitstream.from pf bytes = .err e ∧ Dump.main pf bytes = ([], .err e)) ∨
    ∃ (w : Option BitcodeWrapper) (b b₁ b₂ : Bitstream) (tops stillOpen : List (BBlock × Forest)) (r : Bitstream.Next) (l : Str),
      Bitstream.from pf bytes = .ok (w, b) ∧
      (∃ es, es = completeEntries tops ++ openEntries stillOpen ∧ iterate pf es.length b = (es.map .item, b₁)) ∧
      Bitstream.next pf b₁ = (r, b₂) ∧ (∀ e, r ≠ .item e) ∧ r ≠ .diverge ∧
      HexText b.magic.toNat l ∧
      Dump.main pf bytes = (dumpHeader w l ++ dumpTops tops ++ dumpOpen 0 stillOpen, dumpEnd r) := by
  cases h : Bitstream.from pf bytes with
  | err e => exact .inl ⟨e, rfl, by unfold Dump.main; rw [h]; rfl⟩
  | panic p =>
    exact absurd h (C23_open_no_panic pf bytes p).2.2
  | diverge => exact absurd h (from_terminates pf bytes)
  | ok x =>
    obtain ⟨w, b⟩ := x
    right
    obtain ⟨es, b₁, r, b₂, g1, g2, g3, g4, -⟩ := stops (pf := pf) (Opened.auto h).start.1
    obtain ⟨⟨l, k1, k2⟩, st, hv⟩ := main_eq pf hlen h g1 g2 g3
    obtain ⟨tops, P, hes, -⟩ := nested_decomposes es hv
    refine ⟨w, b, b₁, b₂, tops, P, r, l, rfl, ⟨es, hes, g1.iterate⟩, g2, g3, g4, k1, ?_⟩
    rw [k2, hes, complete_dump, open_dump, List.append_assoc]

/-- C61. Dumping a stream as a writer makes it prints the tree that was written, and ends well. -/
theorem C61_written (pf : Profile) {magic : U32} {its : Items} {bytes : List U8} {es : List Entry}
    (h : streamBytes magic its = some (bytes, es)) (hm : magic ≠ 0x0B17C0DE) (hlen : bytes.length < 2 ^ 60)
    {tops : List (BBlock × Forest)} (htops : es.map Entry.toStream = completeEntries tops) :
    ∃ l, HexText magic.toNat l ∧ Dump.main pf bytes = (dumpHeader none l ++ dumpTops tops, .ok ()) := by
  obtain ⟨b, hb, hmag, hd⟩ := Props.C18_stream_roundtrip_from pf h hm
  obtain ⟨b₁, b₂, g1, g2⟩ := delivers_gives hd
  obtain ⟨⟨l, k1, k2⟩, -⟩ := main_eq pf hlen hb g1 g2 (by simp)
  refine ⟨l, ?_, ?_⟩
  · have : b.magic.toNat = magic.toNat := by rw [hmag]; simp; omega
    rwa [this] at k1
  · rw [k2, htops]
    have := complete_dump tops []
    rw [List.append_nil] at this
    rw [this]
    simp [entriesText, dumpEnd]

theorem header_inj {w w' : Option BitcodeWrapper} {n n' : Nat} {l l' r r' : Str} (hl : HexText n l) (hl' : HexText n' l')
    (h : dumpHeader w l ++ r = dumpHeader w' l' ++ r') : w = w' ∧ n = n' ∧ r = r' := by
  have entered : ∀ {r r' : Str}, dumpHeader none l ++ r = dumpHeader none l' ++ r' → n = n' ∧ r = r' := by
    intro r r' h
    rw [dumpHeader_none, dumpHeader_none] at h
    simp only [List.append_assoc, List.cons_append, List.nil_append] at h
    have h := List.append_cancel_left (List.append_cancel_left h)
    obtain ⟨h1, -, h2⟩ := span_unique (p := fun x => x ≠ '\n') (c := '\n') (d := '\n') (r := r) (s := r')
      (fun x hx => by rintro rfl; exact hexText_not_mem hl hx) (fun x hx => by rintro rfl; exact hexText_not_mem hl' hx)
      (by simp) (by simp) h
    subst h1
    exact ⟨hexText_unique hl hl', h2⟩
  have num : ∀ {n m : Nat} {q r s : Str}, decimal n ++ ',' :: '\n' :: (q ++ r) = decimal m ++ ',' :: '\n' :: (q ++ s) →
      n = m ∧ r = s := by
    intro n m q r s h
    obtain ⟨h1, -, h2⟩ := decimal_span (by decide) (by decide) h
    exact ⟨h1, List.append_cancel_left (List.cons.inj h2).2⟩
  cases w with
  | none =>
    cases w' with
    | none => exact ⟨rfl, entered h⟩
    | some w' =>
      rw [dumpHeader_none, dumpHeader_some, lit10, lit11] at h
      simp only [List.cons_append] at h
      exact absurd (List.cons.inj h).1 (by decide)
  | some w =>
    cases w' with
    | none =>
      rw [dumpHeader_none, dumpHeader_some, lit10, lit11] at h
      simp only [List.cons_append] at h
      exact absurd (List.cons.inj h).1 (by decide)
    | some w' =>
      rw [dumpHeader_some, dumpHeader_some] at h
      simp only [List.append_assoc, List.cons_append] at h
      have h := List.append_cancel_left (List.cons.inj (List.append_cancel_left h)).2
      obtain ⟨h1, h⟩ := num h
      obtain ⟨h2, h⟩ := num h
      obtain ⟨h3, h⟩ := num h
      obtain ⟨h4, h⟩ := num h
      obtain ⟨h5, h⟩ := num h
      obtain ⟨h6, h7⟩ := entered (List.cons.inj h).2
      refine ⟨?_, h6, h7⟩
      cases w; cases w'
      simp only [Option.some.injEq, BitcodeWrapper.mk.injEq]
      exact ⟨BitVec.eq_of_toNat_eq h1, BitVec.eq_of_toNat_eq h2, BitVec.eq_of_toNat_eq h3, BitVec.eq_of_toNat_eq h4,
        BitVec.eq_of_toNat_eq h5⟩

/-- C61. The text says it all: files whose dumps have the same text have the same wrapper, the same magic, and deliver the
same blocks and records in the same order, up to the recorded lengths of blocks and the abbreviations of records. -/
theorem C61_faithful (pf : Profile) {bytes bytes' : List U8} (hlen : bytes.length < 2 ^ 60) (hlen' : bytes'.length < 2 ^ 60)
    {w w' : Option BitcodeWrapper} {b b₁ b₂ b' b₁' b₂' : Bitstream} {es es' : List StreamEntry} {r r' : Bitstream.Next}
    (h : Bitstream.from pf bytes = .ok (w, b)) (h' : Bitstream.from pf bytes' = .ok (w', b'))
    (hg : iterate pf es.length b = (es.map .item, b₁)) (hg' : iterate pf es'.length b' = (es'.map .item, b₁'))
    (hr : Bitstream.next pf b₁ = (r, b₂)) (hr' : Bitstream.next pf b₁' = (r', b₂'))
    (hne : ∀ e, r ≠ .item e) (hne' : ∀ e, r' ≠ .item e) (ht : (Dump.main pf bytes).1 = (Dump.main pf bytes').1) :
    w = w' ∧ b.magic = b'.magic ∧ es.map erase = es'.map erase := by
  obtain ⟨⟨l, k1, k2⟩, -⟩ := main_eq pf hlen h (gives_of_iterate hg) hr hne
  obtain ⟨⟨l', k1', k2'⟩, -⟩ := main_eq pf hlen' h' (gives_of_iterate hg') hr' hne'
  rw [k2, k2'] at ht
  obtain ⟨e1, e2, e3⟩ := header_inj k1 k1' ht
  exact ⟨e1, BitVec.eq_of_toNat_eq e2, entriesText_inj e3⟩

/-- A stream with a block of two records and a nested block. -/
def exDumped : Items :=
  .block 13 5 (.unabbrev 1 [76, 76, 86, 77] <| .block 8 3 (.unabbrev 2 [] .nil) .nil) .nil

/-- Its dump. -/
example : ((streamBytes 0xdec04342 exDumped).map fun x => (Dump.main .debug x.1).1) = some (
    "Entered bitstream; magic: 0xDEC04342\nBLOCK 13 {\n\tRECORD { code: 1, fields: [76, 76, 86, 77] }\n\tBLOCK 8 {\n\t\tRECORD { code: 2, fields: [] }\n\t}\n}\n").toList := by
  decide +kernel

/-- It meets the hypotheses of `C61_written`. -/
example (pf : Profile) : ∃ (bytes : List U8) (es : List Entry) (tops : List (BBlock × Forest)),
    streamBytes 0xdec04342 exDumped = some (bytes, es) ∧ bytes.length < 2 ^ 60 ∧
    es.map Entry.toStream = completeEntries tops ∧ tops.length = 1 ∧
    (Dump.main pf bytes).2 = .ok () := by
  have hs : (streamBytes 0xdec04342 exDumped).map (fun x => (x.1.length, x.2.map Entry.toStream)) =
      some (36, completeEntries [({ blockId := 13, len := 24 },
        .record { abbrevId := none, code := 1, fields := [76, 76, 86, 77] }
          (.block { blockId := 8, len := 4 }
            (.record { abbrevId := none, code := 2, fields := [] } .nil) .nil))]) := by
    decide +kernel
  obtain ⟨⟨bytes, es⟩, hx, e⟩ := Option.map_eq_some_iff.1 hs
  simp only [Prod.mk.injEq] at e
  obtain ⟨l, -, h⟩ := C61_written pf hx (by decide) (by omega) e.2
  exact ⟨bytes, es, _, hx, by omega, e.2, rfl, by rw [h]⟩

/-- A stream that is cut inside a block: what it gave is printed. The program does not say that the block was never closed. -/
example : Dump.main .debug (exMagic ++ pack 8 (exEnter 8 3)) =
    ("Entered bitstream; magic: 0xDEC04342\nBLOCK 8 {\n".toList, .ok ()) := by
  decide +kernel

end Verif
