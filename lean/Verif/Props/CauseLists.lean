import Verif.Props.Causes

/-! The messages of an error and its causes determine the error, for each type of errors. -/

namespace Verif.Props
open Verif.Spec

/-! ## Tools -/

/-- Closes the goals with different constructors, whose messages have different numbers, and those without arguments. -/
macro "constructors " h:ident : tactic => `(tactic| first | rfl | (exfalso; cases $h:ident; done) | skip)

theorem heads_inj {l : List String} (hl : ∃ cs, Literals l cs ∧ allClash cs = true) {i j : Nat} {s t : Str} (hi : Begins l i s)
    (hj : Begins l j t) (he : s = t) : i = j := by
  obtain ⟨cs, h1, h2⟩ := hl
  exact begins_inj h1 h2 hi hj he

/-- The first message begins with the `i`-th of the literals. -/
def Leads (l : List String) (i : Nat) (ms : List Str) : Prop := ∃ s ss, ms = s :: ss ∧ Begins l i s

theorem leads_inj {l : List String} (hl : ∃ cs, Literals l cs ∧ allClash cs = true) {i j : Nat} {s t : List Str} (hi : Leads l i s)
    (hj : Leads l j t) (he : s = t) : i = j := by
  obtain ⟨a, as, rfl, h1⟩ := hi
  obtain ⟨b, bs, h2, h3⟩ := hj
  exact heads_inj hl h1 h3 (List.cons.inj (he.trans h2)).1

/-- The text is the `i`-th of the literals. -/
def Named (l : List String) (i : Nat) (s : Str) : Prop := ∃ p, l[i]? = some p ∧ s = p.toList

/-- Names that differ if `c` follows. -/
def Names (c : Char) (l : List String) : Prop := ∃ cs, Literals l cs ∧ allClash (cs.map (· ++ [c])) = true

theorem named_then {l : List String} {c : Char} (hl : Names c l) {i j : Nat} {s t x y : Str} (hi : Named l i s) (hj : Named l j t)
    (he : s ++ (c :: x) = t ++ (c :: y)) : i = j ∧ x = y := by
  obtain ⟨cs, h1, h2⟩ := hl
  obtain ⟨p, h3, rfl⟩ := hi
  obtain ⟨q, h4, rfl⟩ := hj
  have hij : i = j := by
    apply Classical.byContradiction
    intro hne
    have hp := literals_get h1 h3
    have hq := literals_get h1 h4
    refine clash_ne (allClash_get h2 (i := i) (j := j) (a := p.toList ++ [c]) (b := q.toList ++ [c]) ?_ ?_ hne) x y ?_
    · rw [List.getElem?_map, hp]; rfl
    · rw [List.getElem?_map, hq]; rfl
    · rw [List.append_assoc, List.append_assoc]; exact he
  subst hij
  rw [h3, Option.some.injEq] at h4
  subst h4
  exact ⟨rfl, (List.cons.inj (List.append_cancel_left he)).2⟩

theorem named_end {l : List String} {c : Char} (hl : Names c l) {i j : Nat} {s t : Str} (hi : Named l i s) (hj : Named l j t)
    (he : s = t) : i = j :=
  (named_then hl hi hj (x := []) (y := []) (congrArg (· ++ [c]) he)).1

theorem tuple_inj {name a b : Str} (h : Stderr.debugTuple name a = Stderr.debugTuple name b) : a = b := by
  unfold Stderr.debugTuple at h
  exact List.append_cancel_right (List.append_cancel_left (List.append_cancel_left h))

theorem one_number {p q : Str} {n m : Nat} (h : p ++ decimal n ++ q = p ++ decimal m ++ q) : n = m :=
  decimal_inj (List.append_cancel_left (List.append_cancel_right h))

theorem two_numbers {p q r : Str} (hq : nonDigit q = true) {n m n' m' : Nat}
    (h : p ++ decimal n ++ q ++ decimal m ++ r = p ++ decimal n' ++ q ++ decimal m' ++ r) : n = n' ∧ m = m' := by
  have h := List.append_cancel_right h
  rw [List.append_assoc, List.append_assoc, List.append_assoc, List.append_assoc] at h
  have h := decimal_then_same hq (List.append_cancel_left h)
  exact ⟨h.1, decimal_inj h.2⟩

theorem two_numbers_end {p q : Str} (hq : nonDigit q = true) {n m n' m' : Nat}
    (h : p ++ decimal n ++ q ++ decimal m = p ++ decimal n' ++ q ++ decimal m') : n = n' ∧ m = m' :=
  two_numbers (r := []) hq (congrArg (· ++ []) h)

/-! ## The bitstream -/

def cursorNames : List String := ["Eof", "InvalidLength", "BadCast", "InvalidReadSize", "InvalidVbrWidth", "Short"]

theorem cursorNames_differ : Names ' ' cursorNames := ⟨_, by unfold cursorNames; repeat constructor, by decide +kernel⟩

theorem cursorName_inj {a b : CErr} (h : Stderr.cursorName a = Stderr.cursorName b) : a = b := by
  have named : ∀ e, Named cursorNames (CErr.ctorIdx e) (Stderr.cursorName e) := by intro e; cases e <;> exact ⟨_, rfl, rfl⟩
  rw [← CErr.ofNat_ctorIdx a, named_end cursorNames_differ (named a) (named b) h, CErr.ofNat_ctorIdx]

def cursorHeads : List String := ["EOF while reading", "invalid length for buffer supplied to cursor", "loss of data with cast",
  "invalid read size (zero or too large)", "invalid VBR width (must be > 1 but <= system word width)",
  "too little data to service request"]

theorem cursorHeads_differ : ∃ cs, Literals cursorHeads cs ∧ allClash cs = true :=
  ⟨_, by unfold cursorHeads; repeat constructor, by decide +kernel⟩

theorem cursorText_inj {a b : CErr} (h : Stderr.cursorText a = Stderr.cursorText b) : a = b := by
  have begins : ∀ e, Begins cursorHeads (CErr.ctorIdx e) (Stderr.cursorText e) := by intro e; cases e <;> exact begins_bare rfl
  rw [← CErr.ofNat_ctorIdx a, heads_inj cursorHeads_differ (begins a) (begins b) h, CErr.ofNat_ctorIdx]

theorem ioDebug_inj {a b : Cursor.IoErr} (h : Stderr.ioDebug a = Stderr.ioDebug b) : a = b := by
  cases a <;> cases b <;> first | rfl | exact absurd h (by decide +kernel)

def encodingNames : List String := ["Fixed", "Vbr", "Array", "Char6", "Blob"]

theorem encodingNames_differ : Names ' ' encodingNames := ⟨_, by unfold encodingNames; repeat constructor, by decide +kernel⟩

theorem encodingName_inj {a b : AbbrevOpEnc} (h : Stderr.encodingName a = Stderr.encodingName b) : a = b := by
  have named : ∀ e, Named encodingNames (AbbrevOpEnc.ctorIdx e) (Stderr.encodingName e) := by intro e; cases e <;> exact ⟨_, rfl, rfl⟩
  rw [← AbbrevOpEnc.ofNat_ctorIdx a, named_end encodingNames_differ (named a) (named b) h, AbbrevOpEnc.ofNat_ctorIdx]

def containerHeads : List String := ["input is not 4-byte aligned", "bitstream should have begun with magic, but errored: "]

theorem containerHeads_differ : ∃ cs, Literals containerHeads cs ∧ allClash cs = true :=
  ⟨_, by unfold containerHeads; repeat constructor, by decide +kernel⟩

theorem containerText_inj {a b : ContainerMsg} (h : Stderr.containerText a = Stderr.containerText b) : a = b := by
  have begins : ∀ e, Begins containerHeads (ContainerMsg.ctorIdx e) (Stderr.containerText e) := by
    intro e
    cases e with
    | unaligned => exact begins_bare rfl
    | magic => exact begins_with rfl
  have hk := heads_inj containerHeads_differ (begins a) (begins b) h
  cases a <;> cases b <;> constructors hk
  rw [cursorName_inj (List.append_cancel_left h)]

def streamHeads : List String := ["couldn't seek past bitcode wrapper: ", "DEFINE_ABBREV in BLOCKINFO but no preceding SETBID",
  "UNABBREV_RECORD outside of any block scope"]

theorem streamHeads_differ : ∃ cs, Literals streamHeads cs ∧ allClash cs = true :=
  ⟨_, by unfold streamHeads; repeat constructor, by decide +kernel⟩

theorem streamText_inj {a b : StreamMsg} (h : Stderr.streamText a = Stderr.streamText b) : a = b := by
  have begins : ∀ e, Begins streamHeads (StreamMsg.ctorIdx e) (Stderr.streamText e) := by
    intro e
    cases e with
    | seek => exact begins_with rfl
    | _ => exact begins_bare rfl
  have hk := heads_inj streamHeads_differ (begins a) (begins b) h
  cases a <;> cases b <;> constructors hk
  rw [ioDebug_inj (List.append_cancel_left h)]

def abbrevHeads : List String := ["expected at least one abbrev operand", "array operand at invalid index",
  "invalid element type for an array: ", "blob operand at invalid index"]

theorem abbrevHeads_differ : ∃ cs, Literals abbrevHeads cs ∧ allClash cs = true :=
  ⟨_, by unfold abbrevHeads; repeat constructor, by decide +kernel⟩

theorem abbrevText_inj {a b : AbbrevMsg} (h : Stderr.abbrevText a = Stderr.abbrevText b) : a = b := by
  have begins : ∀ e, Begins abbrevHeads (AbbrevMsg.ctorIdx e) (Stderr.abbrevText e) := by
    intro e
    cases e with
    | arrayElement => exact begins_with rfl
    | _ => exact begins_bare rfl
  have hk := heads_inj abbrevHeads_differ (begins a) (begins b) h
  cases a <;> cases b <;> constructors hk
  rw [encodingName_inj (List.append_cancel_left h)]

def scopeHeads : List String := ["non-block scope cannot reference abbreviations", "non-block scope cannot contain records",
  "can't set BLOCKINFO block ID for non-BLOCKINFO scope", "can't enter block: invalid code side: ",
  "malformed stream: cannot perform END_BLOCK because scope stack is empty"]

theorem scopeHeads_differ : ∃ cs, Literals scopeHeads cs ∧ allClash cs = true :=
  ⟨_, by unfold scopeHeads; repeat constructor, by decide +kernel⟩

theorem scopeText_inj {a b : ScopeMsg} (h : Stderr.scopeText a = Stderr.scopeText b) : a = b := by
  have begins : ∀ e, Begins scopeHeads (ScopeMsg.ctorIdx e) (Stderr.scopeText e) := by
    intro e
    cases e with
    | width => exact begins_with rfl
    | _ => exact begins_bare rfl
  have hk := heads_inj scopeHeads_differ (begins a) (begins b) h
  cases a <;> cases b <;> constructors hk
  rw [bits_decimal (List.append_cancel_left h)]

def bitstreamHeads : List String := ["bitstream has been exhausted", "underlying bitcursor error",
  "couldn't parse bitstream container: ", "bad record code for BLOCKINFO block", "bad operand code for DEFINE_ABBREV operand",
  "error while parsing stream: ", "error while parsing abbrev record: ", "unknown abbreviation for ID: ",
  "error while parsing block scope: "]

theorem bitstream_leads (e : BErr) : Leads bitstreamHeads e.ctorIdx (Stderr.bitstreamCauses e) := by
  cases e with
  | exhausted | cursor | badBlockInfoCode | badAbbrevOpEnc => exact ⟨_, _, rfl, begins_bare rfl⟩
  | _ => exact ⟨_, _, rfl, begins_with rfl⟩

theorem bitstreamHeads_differ : ∃ cs, Literals bitstreamHeads cs ∧ allClash cs = true :=
  ⟨_, by unfold bitstreamHeads; repeat constructor, by decide +kernel⟩

theorem bitstream_inj {a b : BErr} (h : Stderr.bitstreamCauses a = Stderr.bitstreamCauses b) : a = b := by
  have hk := leads_inj bitstreamHeads_differ (bitstream_leads a) (bitstream_leads b) h
  cases a <;> cases b <;> constructors hk
  all_goals have h := List.cons.inj h
  · rw [cursorText_inj (List.cons.inj h.2).1]
  · rw [containerText_inj (List.append_cancel_left h.1)]
  · rw [noDiscriminant_inj (List.cons.inj h.2).1]
  · rw [noDiscriminant_inj (List.cons.inj h.2).1]
  · rw [streamText_inj (List.append_cancel_left h.1)]
  · rw [abbrevText_inj (List.append_cancel_left h.1)]
  · rw [bits_decimal (List.append_cancel_left h.1)]
  · rw [scopeText_inj (List.append_cancel_left h.1)]

end Verif.Props
