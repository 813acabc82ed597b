import Verif.Bitstream.Records

/-!
# Properties C20–C27: iterating over any bytes

Vocabulary: `Verif/Bitstream/RunSpec.lean` (`Opened`, `Reach`, `iterate`, `items`, `observe`, `openBlocks`, `word32`)
and `Verif/Bitstream/EffectSpec.lean` (`Effect`).
-/

set_option linter.unusedSimpArgs false

namespace Verif.Props
open Verif.Spec Verif.Cursor Verif.Parser

/-- What `n` calls of `next` give on the bare stream `bytes`. Used for concrete streams only. -/
def runRaw (pf : Profile) (n : Nat) (bytes : List U8) : Option (List Bitstream.Next) :=
  match Bitstream.fromRaw bytes with
  | .ok b => some (iterate pf n b).1
  | _ => none

theorem runRaw_spec {pf : Profile} {n : Nat} {bytes : List U8} {l : List Bitstream.Next} (h : runRaw pf n bytes = some l) :
    ∃ b, Bitstream.fromRaw bytes = .ok b ∧ (iterate pf n b).1 = l := by
  unfold runRaw at h
  split at h
  · next b hb => exact ⟨b, hb, by simpa using h⟩
  · simp at h

/-- `BC`, `0xC0DE`. -/
def exMagic : List U8 := [0x42, 0x43, 0xC0, 0xDE]

/-- The bits that open a block at top level: id, width below 8, length word 0. -/
def exEnter (id w : Nat) : List Bool :=
  bitsOfNat 2 1 ++ bitsOfNat 8 id ++ bitsOfNat 4 w ++ List.replicate 18 false ++ bitsOfNat 32 0

/-! ## C20 -/

/-- C20. However many calls of `next` are made, and whatever they return, the entries they yield are properly nested:
every `EndBlock` closes the latest open `SubBlock`, records only occur inside a block. -/
theorem C20_nesting (pf : Profile) {b : Bitstream} (h : Opened pf b) (n : Nat) :
    ∃ st, openBlocks [] (items (iterate pf n b).1) = some st := by
  obtain ⟨h1, h2, -⟩ := h.start
  have := iterate_visible (pf := pf) n h1
  rw [show b.parser.visible = [] by simp [Parser.visible, h2, Scope.visibleId]] at this
  exact ⟨_, this⟩

def isSub : StreamEntry → Bool
  | .subBlock _ => true
  | _ => false

def isEnd : StreamEntry → Bool
  | .endBlock => true
  | _ => false

theorem openBlocks_count {st st' : List U64} {es : List StreamEntry} (h : openBlocks st es = some st') :
    st.length + es.countP isSub = st'.length + es.countP isEnd := by
  induction es generalizing st with
  | nil => simp [openBlocks] at h; simp [h]
  | cons e es ih =>
    cases e with
    | subBlock b =>
      have := ih (st := b.blockId :: st) (by simpa [openBlocks] using h)
      simp [isSub, isEnd, List.countP_cons] at this ⊢; omega
    | endBlock =>
      cases st with
      | nil => simp [openBlocks] at h
      | cons a st =>
        have := ih (st := st) (by simpa [openBlocks] using h)
        simp [isSub, isEnd, List.countP_cons] at this ⊢; omega
    | record x =>
      cases st with
      | nil => simp [openBlocks] at h
      | cons a st =>
        have := ih (st := a :: st) (by simpa [openBlocks] using h)
        simp [isSub, isEnd, List.countP_cons] at this ⊢; omega

/-- C20, counted: after any number of calls there are at most as many `EndBlock`s as `SubBlock`s. -/
theorem C20_no_excess_ends (pf : Profile) {b : Bitstream} (h : Opened pf b) (n : Nat) :
    (items (iterate pf n b).1).countP isEnd ≤ (items (iterate pf n b).1).countP isSub := by
  obtain ⟨st, hst⟩ := C20_nesting pf h n
  have := openBlocks_count hst
  simp at this; omega

/-- What C20 does not say: that every block is closed. A stream that is cut off inside a block ends like a complete one. -/
theorem C20_truncation_unnoticed (pf : Profile) :
    ∃ bytes b, Bitstream.fromRaw bytes = .ok b ∧
      (iterate pf 2 b).1 = [.item (.subBlock { blockId := 8, len := 0 }), .done] := by
  refine ⟨exMagic ++ pack 8 (exEnter 8 3), runRaw_spec ?_⟩
  cases pf <;> decide +kernel

/-- A stream that goes wrong: two blocks open, one closed, then an undefined abbreviation, then a record. -/
def exWrong : List U8 :=
  exMagic ++ pack 32 (exEnter 8 3 ++ bitsOfNat 3 1 ++ bitsOfNat 8 9 ++ bitsOfNat 4 3 ++ List.replicate 17 false ++
    bitsOfNat 32 0 ++ bitsOfNat 3 0 ++ List.replicate 29 false ++
    bitsOfNat 3 5 ++ bitsOfNat 3 3 ++ bitsOfNat 6 7 ++ bitsOfNat 6 1 ++ bitsOfNat 6 9)

example (pf : Profile) : runRaw pf 5 exWrong = some
    [.item (.subBlock { blockId := 8, len := 0 }), .item (.subBlock { blockId := 9, len := 0 }), .item .endBlock,
      .error (.badAbbrev 5), .item (.record { abbrevId := none, code := 7, fields := [9] })] := by
  cases pf <;> decide +kernel

/-! ## C21 -/

/-- C21, as rules: every round of the parser changes the stack of open blocks, their abbreviations and the BLOCKINFO
registry in one of the ways `Effect` lists. In particular an abbreviation is added to the innermost block only, or to the
registry inside BLOCKINFO only; a block starts with what is registered for it; leaving it uncovers the enclosing one. -/
theorem C21_context_rules (pf : Profile) (p : Parser) :
    Effect pf p.scopes p.blockinfo (Parser.step pf p).1 (Parser.step pf p).2.scopes (Parser.step pf p).2.blockinfo :=
  eff_step pf p

/-- C21, entering. When `next` announces a block, the block has exactly the abbreviations registered so far for its id, in
order, and sits on top of the enclosing context. -/
theorem C21_enter (pf : Profile) {b b' : Bitstream} {s : BBlock} (h : Reach pf b)
    (hn : Bitstream.next pf b = (.item (.subBlock s), b')) :
    ∃ w lower, w ≠ 0 ∧
      b'.parser.scopes = .block w s.blockId none ((b'.parser.blockinfo s.blockId).getD []) :: lower := by
  obtain ⟨w, lower, h1, h2, -⟩ := next_entered h.pinv hn
  exact ⟨w, lower, h1, h2⟩

/-- C21, leaving. Say `next` announces a block `s`, which leaves the enclosing context `lower` under it. Then come any
number `n` of calls during which `s` stays open, whatever they return: nested blocks, definitions, errors. If the next
call closes `s`, the context is exactly `lower` again: same widths, same abbreviations. -/
theorem C21_leave (pf : Profile) {b b₁ b₂ : Bitstream} {s : BBlock} (h : Reach pf b)
    (hn : Bitstream.next pf b = (.item (.subBlock s), b₁)) {top : Scope} {lower : List Scope}
    (hs : b₁.parser.scopes = top :: lower) (n : Nat)
    (hopen : ∀ m, m ≤ n → ∃ t, openBlocks [s.blockId] (items (iterate pf m b₁).1) = some (t ++ [s.blockId]))
    (hlast : openBlocks [s.blockId] (items (iterate pf n b₁).1) = some [s.blockId])
    (hend : Bitstream.next pf (iterate pf n b₁).2 = (.item .endBlock, b₂)) : b₂.parser.scopes = lower := by
  obtain ⟨w, lower', -, h2, h3⟩ := next_entered h.pinv hn
  rw [hs] at h2
  simp only [List.cons.injEq] at h2
  obtain ⟨rfl, rfl⟩ := h2
  have hp1 : PInv b₁.parser := by have := next_pinv (pf := pf) h.pinv; rwa [hn] at this
  have hv : Scope.visibleId (.block w s.blockId none ((b₁.parser.blockinfo s.blockId).getD [])) = some s.blockId := by
    simp only [Scope.visibleId]; rw [if_neg h3]
  have hA : Above lower s.blockId [] b₁.parser := ⟨[], _, by rw [hs]; rfl, hv, rfl⟩
  have hAn := hA.iterate n (pf := pf) (st' := []) hp1 hopen hlast
  rcases (hAn.next (pf := pf) (iterate_pinv n hp1)).2 .endBlock (by rw [hend]) with ⟨t, ht, -⟩ | ⟨-, -, h⟩ | ⟨x, hx, -⟩
  · simp [openBlocks] at ht
  · rw [hend] at h; exact h
  · simp at hx

/-- C21, using. An id that stands for no abbreviation of the innermost block is `BadAbbrev`, and nothing but the id is
consumed. -/
theorem C21_bad_abbrev (pf : Profile) {b : Bitstream} (h : Reach pf b)
    {w id : U64} {bid : Option U64} {l : List Abbrev} {rest : List Scope} (hs : b.parser.scopes = .block w id bid l :: rest)
    {a : U64} {c' : Cursor} (hne : b.pos ≠ b.len) (hr : Cursor.read w.toNat b.parser.cursor = (.ok a, c'))
    (ha : 4 + l.length ≤ a.toNat) :
    ∃ b', Bitstream.next pf b = (.error (.badAbbrev a), b') ∧ b'.parser.scopes = b.parser.scopes ∧
      b'.parser.cursor = c' :=
  ⟨_, next_badAbbrev pf h.pinv hs hne hr ha, rfl, rfl⟩

/-- A stream for C21: block 8 defines an abbreviation `[lit 1, vbr6]`, opens block 9 which defines two of its own and
closes; then block 8 uses id 4, and then id 5, which it does not have. -/
def exScopes : List U8 :=
  let d : List Bool := bitsOfNat 3 2 ++ ({ scalars := [.lit 1, .enc (.vbr 6)], tail := .nothing } : Def).bits
  let e : List Bool := bitsOfNat 3 2 ++ ({ scalars := [.lit 2], tail := .nothing } : Def).bits
  let a : List Bool := exEnter 8 3 ++ d ++ bitsOfNat 3 1 ++ bitsOfNat 8 9 ++ bitsOfNat 4 3
  let a := a ++ List.replicate ((32 - a.length % 32) % 32) false ++ bitsOfNat 32 0 ++ e ++ e ++ bitsOfNat 3 5 ++ bitsOfNat 3 0
  let a := a ++ List.replicate ((32 - a.length % 32) % 32) false
  let a := a ++ bitsOfNat 3 4 ++ bitsOfNat 6 17 ++ bitsOfNat 3 5
  exMagic ++ pack (4 * ((a.length + 31) / 32)) a

/-- In it, block 9 is announced by the second call, stays open for one more call, and is closed by the one after. -/
example (pf : Profile) : (runRaw pf 6 exScopes) = some
    [.item (.subBlock { blockId := 8, len := 0 }), .item (.subBlock { blockId := 9, len := 0 }),
      .item (.record { abbrevId := some 5, code := 2, fields := [] }), .item .endBlock,
      .item (.record { abbrevId := some 4, code := 1, fields := [17] }), .error (.badAbbrev 5)] := by
  cases pf <;> decide +kernel

/-- So the hypotheses of `C21_leave` hold of it, with `n = 1`. -/
example (pf : Profile) : ∃ b b₁ b₂ s top lower, Reach pf b ∧ Bitstream.next pf b = (.item (.subBlock s), b₁) ∧
    b₁.parser.scopes = top :: lower ∧ lower.length = 2 ∧
    (∀ m, m ≤ 1 → ∃ t, openBlocks [s.blockId] (items (iterate pf m b₁).1) = some (t ++ [s.blockId])) ∧
    openBlocks [s.blockId] (items (iterate pf 1 b₁).1) = some [s.blockId] ∧
    Bitstream.next pf (iterate pf 1 b₁).2 = (.item .endBlock, b₂) := by
  have h4 : runRaw pf 4 exScopes = some [.item (.subBlock { blockId := 8, len := 0 }),
      .item (.subBlock { blockId := 9, len := 0 }), .item (.record { abbrevId := some 5, code := 2, fields := [] }),
      .item .endBlock] := by cases pf <;> decide +kernel
  have h2 : (match Bitstream.fromRaw exScopes with
      | .ok b => (iterate pf 2 b).2.parser.scopes.length
      | _ => 0) = 3 := by cases pf <;> decide +kernel
  obtain ⟨b0, hb, hi⟩ := runRaw_spec h4
  rw [hb] at h2
  simp only [iterate, List.cons.injEq] at hi h2
  obtain ⟨i1, i2, i3, i4, -⟩ := hi
  have hR : Reach pf b0 := .opened (.raw hb)
  match hsc : (Bitstream.next pf (Bitstream.next pf b0).2).2.parser.scopes, h2 with
  | top :: lower, hlen =>
    refine ⟨(Bitstream.next pf b0).2, _, _, { blockId := 9, len := 0 }, top, lower, hR.next, Prod.ext i2 rfl, hsc, ?_, ?_, ?_,
      Prod.ext i4 rfl⟩
    · simpa using hlen
    · intro m hm
      match m, hm with
      | 0, _ => exact ⟨[], rfl⟩
      | 1, _ => exact ⟨[], by simp only [iterate]; rw [i3]; rfl⟩
    · simp only [iterate]; rw [i3]; rfl

/-! ## C22 -/

/-- C22. Every call returns; the position never moves back nor past the end; an entry costs at least one bit. -/
theorem C22_progress (pf : Profile) {b : Bitstream} (h : Reach pf b) :
    (Bitstream.next pf b).1 ≠ .diverge ∧ (Bitstream.next pf b).2.len = b.len ∧
    b.pos ≤ (Bitstream.next pf b).2.pos ∧ (Bitstream.next pf b).2.pos ≤ b.len ∧
    (Bitstream.next pf b).2.magic = b.magic ∧
    (∀ e, (Bitstream.next pf b).1 = .item e → b.pos + 1 ≤ (Bitstream.next pf b).2.pos) := by
  obtain ⟨h1, h2, h3, h4, h5, h6, -⟩ := next_progress (pf := pf) h.pinv
  exact ⟨h1, h2, h3, h4, h5, h6⟩

/-- C22, for whole iterations: any number of calls yields at most as many entries as there are bits left. -/
theorem C22_entries_bounded (pf : Profile) {b : Bitstream} (h : Reach pf b) (n : Nat) :
    (items (iterate pf n b).1).length ≤ b.len - b.pos := by
  obtain ⟨h1, -, h3⟩ := iterate_bound (pf := pf) n h.pinv
  omega

/-- `Reach` holds of the stream above, and the bound is not 0. -/
example : ∃ b, Bitstream.fromRaw exScopes = .ok b ∧ Reach .debug b ∧ b.len - b.pos ≠ 0 := by
  have hr : (runRaw .debug 1 exScopes).isSome := by decide +kernel
  obtain ⟨l, hl⟩ := Option.isSome_iff_exists.1 hr
  obtain ⟨b, hb, hi⟩ := runRaw_spec hl
  have hR : Reach .debug b := .opened (.raw hb)
  refine ⟨b, hb, hR, ?_⟩
  have hb1 := C22_entries_bounded .debug hR 1
  have h2 : (runRaw .debug 1 exScopes).map (fun l => (items l).length) = some 1 := by decide +kernel
  rw [hl] at h2
  simp only [Option.map_some, Option.some.injEq] at h2
  rw [hi, h2] at hb1
  omega

/-! ## C23 -/

/-- C23, opening: no bytes make opening a stream panic. -/
theorem C23_open_no_panic (pf : Profile) (bytes : List U8) (s : PanicSite) :
    Bitstream.fromRaw bytes ≠ .panic s ∧ Bitstream.fromWrapped pf bytes ≠ .panic s ∧
    Bitstream.from pf bytes ≠ .panic s := by
  have hc : ∀ c, Cursor.Inv c → Bitstream.fromCursor c ≠ .panic s := by
    intro c hi
    rcases fromCursor_spec hi with ⟨-, -, v, c', e, -⟩ | ⟨-, e⟩ <;> rw [e] <;> simp
  have hraw : Bitstream.fromRaw bytes ≠ .panic s := hc _ (inv_new _)
  have hwr : Bitstream.fromWrapped pf bytes ≠ .panic s := by
    rcases fromWrapped_spec pf bytes with ⟨w, -, hs, ho, e⟩ | ⟨w, -, -, e⟩ | ⟨w, -, -, -, e⟩ | ⟨-, e⟩
    · rw [e]
      have := hc _ (inv_window hs ho)
      cases hx : Bitstream.fromCursor (windowCursor bytes (w.size.toNat + 20) w.offset.toNat) with
      | panic q => rw [hx] at this; simpa [Out.bind] using this
      | _ => simp [Out.bind]
    · rw [e]; simp
    · rw [e]; simp
    · rw [e]; simp
  refine ⟨hraw, hwr, ?_⟩
  rcases from_spec pf bytes with ⟨-, e⟩ | ⟨-, -, e⟩ | ⟨-, -, e⟩
  · rw [e]; simp
  · rw [e]
    cases hx : Bitstream.fromWrapped pf bytes with
    | panic q => rw [hx] at hwr; simpa [Out.bind] using hwr
    | _ => simp [Out.bind]
  · rw [e]
    cases hx : Bitstream.fromRaw bytes with
    | panic q => rw [hx] at hraw; simpa [Out.bind] using hraw
    | _ => simp [Out.bind]

/-- C23, iterating, as far as it holds: a call of `next` can only panic in one of five places, two of them in debug builds
only. Missing: those five, each of which does happen (`C23_panics`). -/
theorem C23_panic_sites_partial (pf : Profile) {b : Bitstream} (h : Reach pf b) (s : PanicSite)
    (hs : (Bitstream.next pf b).1 = .panic s) :
    (s = .vbrShift ∧ pf = .debug) ∨ (s = .abbrevArraySub ∧ pf = .debug) ∨ s = .capacity ∨ s = .setBidField ∨
      s = .recordCodeRemove := by
  obtain ⟨-, -, -, -, -, -, h7⟩ := next_progress (pf := pf) h.pinv
  exact h7 s hs

/-- C23 is false: for each place there is a stream that reaches it. In order: a VBR with too many continuation chunks; a
definition with one operand that is an array; an unabbreviated record announcing 2^60 operands; a SETBID record with no
operand; an abbreviated record whose first operand is an empty array. -/
theorem C23_panics (pf : Profile) (s : PanicSite)
    (hs : (s = .vbrShift ∧ pf = .debug) ∨ (s = .abbrevArraySub ∧ pf = .debug) ∨ s = .capacity ∨ s = .setBidField ∨
      s = .recordCodeRemove) :
    ∃ bytes b n, Bitstream.fromRaw bytes = .ok b ∧ .panic s ∈ (iterate pf n b).1 := by
  have key : ∀ (bytes : List U8) (n : Nat), (runRaw pf n bytes).map (fun l => decide (.panic s ∈ l)) = some true →
      ∃ bytes b n, Bitstream.fromRaw bytes = .ok b ∧ .panic s ∈ (iterate pf n b).1 := by
    intro bytes n h
    rw [Option.map_eq_some_iff] at h
    obtain ⟨l, hl, hm⟩ := h
    obtain ⟨b, hb, rfl⟩ := runRaw_spec hl
    exact ⟨bytes, b, n, hb, by simpa using hm⟩
  rcases hs with ⟨rfl, rfl⟩ | ⟨rfl, rfl⟩ | rfl | rfl | rfl
  · exact key (exMagic ++ [0xFD] ++ List.replicate 15 0xFF) 1 (by decide +kernel)
  · exact key (exMagic ++ [0x06, 0x03, 0, 0]) 1 (by decide +kernel)
  · exact key (exMagic ++ pack 32 (exEnter 8 3 ++ bitsOfNat 3 3 ++ bitsOfNat 6 1 ++ encVbr 6 (2 ^ 60))) 2
      (by cases pf <;> decide +kernel)
  · exact key (exMagic ++ pack 12 (exEnter 0 3 ++ bitsOfNat 3 3 ++ bitsOfNat 6 1 ++ bitsOfNat 6 0)) 1
      (by cases pf <;> decide +kernel)
  · exact key (exMagic ++ pack 16 (exEnter 8 3 ++ bitsOfNat 3 2 ++
      ({ scalars := [], tail := .array .char6 } : Def).bits ++ bitsOfNat 3 4 ++ bitsOfNat 6 0)) 2
      (by cases pf <;> decide +kernel)

/-! ## C24 -/

/-- C24, first half. `None` is returned when all bits are consumed, and only then; from then on it is returned forever. -/
theorem C24_none_iff (pf : Profile) {b : Bitstream} (h : Reach pf b) :
    (b.pos = b.len → Bitstream.next pf b = (.done, b)) ∧
    ((Bitstream.next pf b).1 = .done →
      (Bitstream.next pf b).2.pos = b.len ∧ Bitstream.next pf (Bitstream.next pf b).2 = (.done, (Bitstream.next pf b).2)) := by
  constructor
  · intro he
    obtain ⟨m, p⟩ := b
    exact next_exhausted h.pinv ((exhausted_iff h.pinv.cur).2 he)
  · intro hd
    have hl := (next_progress (pf := pf) h.pinv).2.1
    rcases next_cases (pf := pf) h.pinv with ⟨-, hx, hn⟩ | ⟨he, -⟩ | ⟨hne, -⟩
    · exact ⟨by rw [← hl]; exact (exhausted_iff (next_pinv h.pinv).cur).1 hx, hn⟩
    · rw [he] at hd; simp at hd
    · exact absurd hd hne

/-- C24, second half, as far as it holds. A loop that goes on after errors reaches, within about two calls per bit, either
the end, or a block whose announced abbreviation id width is 64 or more; there every further call gives the same error.
Missing: the latter does happen, see `C24_endless_errors`. -/
theorem C24_loop_ends_partial (pf : Profile) {b : Bitstream} (h : Reach pf b) :
    ∃ n, n ≤ 2 * (b.len - b.pos) + 1 ∧ let r := Bitstream.next pf (iterate pf n b).2
      (r.1 = .done ∧ Bitstream.next pf r.2 = (.done, r.2)) ∨
      (r.1 = .error (.cursor .invalidReadSize) ∧ Bitstream.next pf r.2 = r ∧
        ∃ w id bid l rest, r.2.parser.scopes = .block w id bid l :: rest ∧ 64 ≤ w.toNat) := by
  have key : ∀ k (b : Bitstream), Reach pf b → measure b.parser ≤ k → ∃ n, n ≤ k ∧
      let r := Bitstream.next pf (iterate pf n b).2
      (r.1 = .done ∧ Bitstream.next pf r.2 = (.done, r.2)) ∨
      (r.1 = .error (.cursor .invalidReadSize) ∧ Bitstream.next pf r.2 = r ∧
        ∃ w id bid l rest, r.2.parser.scopes = .block w id bid l :: rest ∧ 64 ≤ w.toNat) := by
    intro k
    induction k with
    | zero =>
      intro b hb hm
      refine ⟨0, by omega, ?_⟩
      rcases next_cases (pf := pf) hb.pinv with ⟨h1, h2, h3⟩ | ⟨h1, h2, h3, s, rest, h4, h5⟩ | ⟨-, h2⟩
      · exact .inl ⟨h1, h3⟩
      · refine .inr ⟨h1, h3, ?_⟩
        have hw := hb.next.width s (by rw [h4]; simp)
        cases s with
        | initial => simp [Scope.abbrevIdWidth] at h5
        | block w i bid l =>
          refine ⟨w, i, bid, l, rest, h4, ?_⟩
          rcases h5 with h5 | h5
          · exact absurd (BitVec.eq_of_toNat_eq h5) hw
          · exact h5
      · omega
    | succ k ih =>
      intro b hb hm
      rcases next_cases (pf := pf) hb.pinv with ⟨h1, h2, h3⟩ | ⟨h1, h2, h3, s, rest, h4, h5⟩ | ⟨-, h2⟩
      · exact ⟨0, by omega, .inl ⟨h1, h3⟩⟩
      · refine ⟨0, by omega, .inr ⟨h1, h3, ?_⟩⟩
        have hw := hb.next.width s (by rw [h4]; simp)
        cases s with
        | initial => simp [Scope.abbrevIdWidth] at h5
        | block w i bid l =>
          refine ⟨w, i, bid, l, rest, h4, ?_⟩
          rcases h5 with h5 | h5
          · exact absurd (BitVec.eq_of_toNat_eq h5) hw
          · exact h5
      · obtain ⟨n, hn, hr⟩ := ih _ hb.next (by omega)
        exact ⟨n + 1, by omega, hr⟩
  refine key _ b h ?_
  have := rest_length h.pinv.cur
  unfold measure Bitstream.len Bitstream.pos bitLen
  rw [this]
  split <;> omega

/-- In a block whose abbreviation id width is 64 or more, unless the input ends there, every call gives the same error and
changes nothing. -/
theorem C24_stuck (pf : Profile) {b : Bitstream} (h : Reach pf b) {w id : U64} {bid : Option U64} {l : List Abbrev}
    {rest : List Scope} (hs : b.parser.scopes = .block w id bid l :: rest) (hw : 64 ≤ w.toNat) (hne : b.pos ≠ b.len)
    (n : Nat) : iterate pf n b = (List.replicate n (.error (.cursor .invalidReadSize)), b) := by
  have hx : b.parser.cursor.exhausted ≠ true := by
    rw [ne_eq, exhausted_iff h.pinv.cur]; exact hne
  have hst : Parser.step pf b.parser = (.err (.cursor .invalidReadSize), b.parser) := by
    rw [step_eq hs hx]
    have hr : Cursor.read (Scope.block w id bid l).abbrevIdWidth.toNat b.parser.cursor =
        (.err .invalidReadSize, b.parser.cursor) := by
      rcases read_cases h.pinv.cur (Scope.block w id bid l).abbrevIdWidth.toNat with ⟨-, e⟩ | ⟨-, g, -⟩ | ⟨-, g, -⟩ | ⟨-, g, -⟩
      · exact e
      all_goals exact absurd (show w.toNat ≤ 63 from g) (by omega)
    refine StM.bind_err ?_
    simp only [onCursor, cur, StM.mapErr, hr]
    rfl
  have hn : Bitstream.next pf b = (.error (.cursor .invalidReadSize), b) :=
    next_of_step_err h.pinv (by simp) hst
  induction n with
  | zero => rfl
  | succ n ih => simp only [iterate, hn, ih, List.replicate_succ]

/-- The open blocks and the position after `n` calls on the bare stream `bytes`. Used for concrete streams only. -/
def stateRaw (pf : Profile) (n : Nat) (bytes : List U8) : Option (List Bitstream.Next × List Scope × Nat × Nat) :=
  match Bitstream.fromRaw bytes with
  | .ok b => some ((iterate pf n b).1, (iterate pf n b).2.parser.scopes, (iterate pf n b).2.pos, (iterate pf n b).2.len)
  | _ => none

theorem stateRaw_spec {pf : Profile} {n : Nat} {bytes : List U8} {l : List Bitstream.Next} {sc : List Scope} {p q : Nat}
    (h : stateRaw pf n bytes = some (l, sc, p, q)) :
    ∃ b, Bitstream.fromRaw bytes = .ok b ∧ (iterate pf n b).1 = l ∧ (iterate pf n b).2.parser.scopes = sc ∧
      (iterate pf n b).2.pos = p ∧ (iterate pf n b).2.len = q := by
  unfold stateRaw at h
  split at h
  · next b hb => simp at h; exact ⟨b, hb, h.1, h.2.1, h.2.2.1, h.2.2.2⟩
  · simp at h

/-- C24 is false: in a block with abbreviation id width 64 every call returns an error, so skipping errors never ends. -/
theorem C24_endless_errors (pf : Profile) :
    ∃ bytes b, Bitstream.fromRaw bytes = .ok b ∧
      ∀ n, (iterate pf (n + 1) b).1 =
        .item (.subBlock { blockId := 8, len := 0 }) :: List.replicate n (.error (.cursor .invalidReadSize)) := by
  have h : stateRaw pf 1 (exMagic ++ pack 12 (bitsOfNat 2 1 ++ bitsOfNat 8 8 ++ encVbr 4 64 ++ List.replicate 10 false ++
      bitsOfNat 32 0)) = some ([.item (.subBlock { blockId := 8, len := 0 })], [.block 64 8 none [], .initial], 96, 128) := by
    cases pf <;> decide +kernel
  obtain ⟨b, hb, hi, hs, hp, hl⟩ := stateRaw_spec h
  refine ⟨_, b, hb, fun n => ?_⟩
  have hR : Reach pf b := .opened (.raw hb)
  simp only [iterate, List.cons.injEq, and_true] at hi hs hp hl ⊢
  refine ⟨hi, ?_⟩
  rw [C24_stuck pf hR.next hs (by decide) (by omega)]

/-! ## C25 -/

/-- C25, bare streams. -/
theorem C25_raw (bytes : List U8) :
    (bytes.length % 4 = 0 ∧ 4 ≤ bytes.length ∧ ∃ b, Bitstream.fromRaw bytes = .ok b ∧ word32 bytes = some b.magic.toNat ∧
      b.remaining = (bitsOf bytes).drop 32) ∨
    (bytes.length % 4 ≠ 0 ∧ Bitstream.fromRaw bytes = .err (.badContainer .unaligned)) ∨
    (bytes = [] ∧ Bitstream.fromRaw bytes = .err (.badContainer (.magic .eof))) := by
  have hlen := bitsOf_length bytes
  have hrest : (Cursor.new bytes).rest = bitsOf bytes := rest_new bytes
  rcases fromCursor_spec (inv_new bytes) with ⟨h4, hl, v, c', e, hv, -, -, hr, -⟩ | ⟨hh, e⟩
  · left
    rw [hrest] at hl hv hr
    refine ⟨h4, by omega, _, e, ?_, ?_⟩
    · rw [natOfBits_word _ (by omega), ← hv]
    · rw [remaining_eq]; exact hr
  · right
    rw [hrest] at hh
    have hbl : (Cursor.new bytes).byteLen = bytes.length := rfl
    rw [hbl] at hh
    by_cases h4 : bytes.length % 4 = 0
    · obtain rfl := List.eq_nil_of_length_eq_zero (show bytes.length = 0 by omega)
      exact .inr ⟨rfl, rfl⟩
    · refine .inl ⟨h4, e.trans ?_⟩
      rw [hbl, containerMsg, if_neg h4]

/-- C25, wrapped streams: `o` and `s` are the offset and size words. The stream runs from `o` to `s + 20`. -/
theorem C25_wrapped (pf : Profile) (bytes : List U8) :
    (bytes.length < 20 ∧ Bitstream.fromWrapped pf bytes = .err (.cursor (cutError (bytes.length % 4)))) ∨
    ∃ o s, word32 (bytes.drop 8) = some o ∧ word32 (bytes.drop 12) = some s ∧ 20 ≤ bytes.length ∧
      ((bytes.length < s + 20 ∧ Bitstream.fromWrapped pf bytes = .err (.cursor .invalidLength)) ∨
       (s + 20 ≤ bytes.length ∧ s + 20 < o ∧ Bitstream.fromWrapped pf bytes = .err (.streamParse (.seek .invalidInput))) ∨
       (s + 20 ≤ bytes.length ∧ o ≤ s + 20 ∧ s % 4 ≠ 0 ∧
         Bitstream.fromWrapped pf bytes = .err (.badContainer .unaligned)) ∨
       (s + 20 ≤ bytes.length ∧ o ≤ s + 20 ∧ s % 4 = 0 ∧ s + 20 < o + 4 ∧
         Bitstream.fromWrapped pf bytes = .err (.badContainer (.magic (cutError (s + 20 - o))))) ∨
       (s + 20 ≤ bytes.length ∧ o + 4 ≤ s + 20 ∧ s % 4 = 0 ∧
         ∃ w b, Bitstream.fromWrapped pf bytes = .ok (w, b) ∧ word32 bytes = some w.magic.toNat ∧
           word32 (bytes.drop 4) = some w.version.toNat ∧ w.offset.toNat = o ∧ w.size.toNat = s ∧
           word32 (bytes.drop 16) = some w.cpuType.toNat ∧ word32 (bytes.drop o) = some b.magic.toNat ∧
           b.remaining = bitsOf ((bytes.take (s + 20)).drop (o + 4)))) := by
  rcases readWrapper_spec bytes with ⟨h20, w, hw, w0, w1, w2, w3, w4⟩ | ⟨h20, -⟩
  · right
    refine ⟨_, _, w2, w3, h20, ?_⟩
    have hww : ∀ {w'}, (Bitstream.readWrapper (Cursor.new bytes)).1 = .ok w' → w' = w := by
      intro w' h; rw [hw] at h; simpa using h.symm
    rcases fromWrapped_spec pf bytes with ⟨w', h', hs, ho, e⟩ | ⟨w', h', hs, e⟩ | ⟨w', h', hs, ho, e⟩ | ⟨hc, -⟩
    · obtain rfl := hww h'
      have hlen : (windowCursor bytes (w'.size.toNat + 20) w'.offset.toNat).rest.length =
          8 * (w'.size.toNat + 20 - w'.offset.toNat) := by
        rw [rest_window, bitsOf_length]; simp; omega
      have hbl : (windowCursor bytes (w'.size.toNat + 20) w'.offset.toNat).byteLen = w'.size.toNat + 20 := rfl
      rcases fromCursor_spec (inv_window hs ho) with ⟨h4, hl, v, c', ec, hv, -, -, hr, -⟩ | ⟨hh, ec⟩
      · right; right; right; right
        rw [hlen] at hl
        rw [hbl] at h4
        refine ⟨hs, by omega, by omega, w', ⟨v, Parser.new c'⟩, by rw [e, ec]; rfl, w0, w1, rfl, rfl, w4, ?_, ?_⟩
        · rw [natOfBits_word _ (by simp; omega)]
          show some _ = some v.toNat
          rw [hv, rest_window]
          congr 2
          rw [show (32 : Nat) = 8 * 4 from rfl, ← bitsOf_take, ← bitsOf_take]
          congr 1
          rw [List.drop_take, List.take_take]
          congr 1
          omega
        · rw [remaining_eq, show ((⟨v, Parser.new c'⟩ : Bitstream).parser.cursor).rest = _ from hr, rest_window,
            show (32 : Nat) = 8 * 4 from rfl, ← bitsOf_drop,
            List.drop_drop]
      · rw [hlen, hbl] at hh ec
        rw [containerMsg] at ec
        right; right
        by_cases h4 : w'.size.toNat % 4 = 0
        · rw [if_pos (by omega)] at ec
          refine .inr (.inl ⟨hs, ho, h4, by omega, ?_⟩)
          rw [e, ec, cutError, cutError]
          simp only [show 8 * (w'.size.toNat + 20 - w'.offset.toNat) = 0 ↔ w'.size.toNat + 20 - w'.offset.toNat = 0 by omega]
          rfl
        · rw [if_neg (by omega)] at ec
          exact .inl ⟨hs, ho, h4, by rw [e, ec]; rfl⟩
    · obtain rfl := hww h'
      exact .inl ⟨hs, e⟩
    · obtain rfl := hww h'
      exact .inr (.inl ⟨hs, ho, e⟩)
    · omega
  · rcases fromWrapped_spec pf bytes with ⟨w', h', hs, ho, e⟩ | ⟨w', h', hs, e⟩ | ⟨w', h', hs, ho, e⟩ | ⟨hc, e⟩
    · rcases readWrapper_spec bytes with ⟨hc, -⟩ | ⟨-, hx⟩
      · omega
      · rw [hx] at h'; simp at h'
    · rcases readWrapper_spec bytes with ⟨hc, -⟩ | ⟨-, hx⟩
      · omega
      · rw [hx] at h'; simp at h'
    · rcases readWrapper_spec bytes with ⟨hc, -⟩ | ⟨-, hx⟩
      · omega
      · rw [hx] at h'; simp at h'
    · exact .inl ⟨h20, e⟩

/-- C25, detection: a leading wrapper magic, and nothing else, selects wrapper handling. -/
theorem C25_detect (pf : Profile) (bytes : List U8) :
    (bytes.length < 4 ∧ Bitstream.from pf bytes = .err (.cursor (cutError bytes.length))) ∨
    (4 ≤ bytes.length ∧ word32 bytes = some 0x0B17C0DE ∧
      Bitstream.from pf bytes = (Bitstream.fromWrapped pf bytes).bind fun r => .ok (some r.1, r.2)) ∨
    (4 ≤ bytes.length ∧ word32 bytes ≠ some 0x0B17C0DE ∧
      Bitstream.from pf bytes = (Bitstream.fromRaw bytes).bind fun b => .ok (none, b)) := from_spec pf bytes

/-- A wrapped stream with something after it. -/
def exWrapped : List U8 :=
  wrapperHeader 0 20 8 7 ++ (exMagic ++ [1, 2, 3, 4]) ++ [0xAA, 0xBB, 0xCC]

example : word32 exWrapped = some 0x0B17C0DE ∧ word32 (exWrapped.drop 8) = some 20 ∧ word32 (exWrapped.drop 12) = some 8 ∧
    exWrapped.length = 31 := by decide

/-! ## C26 -/

/-- C26, in general: a wrapped stream whose offset is a multiple of 4 behaves like the bare stream found between `offset`
and `size + 20`. -/
theorem C26_window (pf : Profile) (bytes : List U8) {w : BitcodeWrapper} {b : Bitstream}
    (h : Bitstream.fromWrapped pf bytes = .ok (w, b)) (h4 : w.offset.toNat % 4 = 0) :
    ∃ b', Bitstream.fromRaw ((bytes.take (w.size.toNat + 20)).drop w.offset.toNat) = .ok b' ∧ b.magic = b'.magic ∧
      ∀ n, observe pf n b = observe pf n b' := by
  rcases fromWrapped_spec pf bytes with ⟨w', -, hs, ho, e⟩ | ⟨w', -, -, e⟩ | ⟨w', -, -, -, e⟩ | ⟨-, e⟩
  · rw [e] at h
    cases hc : Bitstream.fromCursor (windowCursor bytes (w'.size.toNat + 20) w'.offset.toNat) with
    | ok b'' =>
      rw [hc] at h
      simp only [Out.bind, Out.ok.injEq, Prod.mk.injEq] at h
      obtain ⟨rfl, rfl⟩ := h
      rcases window_sim hs ho h4 pf with ⟨b₁, b', h1, h2, h3, h5⟩ | ⟨_, h1, -⟩
      · rw [h1] at hc
        simp only [Out.ok.injEq] at hc
        subst hc
        exact ⟨b', h2, h3, h5⟩
      · rw [h1] at hc; simp at hc
    | err _ => rw [hc] at h; simp [Out.bind] at h
    | panic _ => rw [hc] at h; simp [Out.bind] at h
    | diverge => rw [hc] at h; simp [Out.bind] at h
  · rw [e] at h; simp at h
  · rw [e] at h; simp at h
  · rw [e] at h; simp at h

theorem word32_leBytes (v : U32) (l : List U8) : word32 (leBytes v ++ l) = some v.toNat := by
  simp only [leBytes, List.cons_append, List.nil_append, word32, Option.some.injEq]
  simp only [BitVec.extractLsb'_toNat]
  have := v.isLt
  simp only [Nat.shiftRight_eq_div_pow]
  omega

/-- C26 for wrappers as they are normally written, with the stream right after the 20-byte header. Missing: other
offsets, for which it is false (`C26_offset_cuts`). -/
theorem C26_transparent_partial (pf : Profile) (version cpu size : U32) (payload trailer : List U8)
    (hsize : size.toNat = payload.length) :
    (∃ w b b', Bitstream.fromWrapped pf (wrapperHeader version 20 size cpu ++ payload ++ trailer) = .ok (w, b) ∧
      Bitstream.fromRaw payload = .ok b' ∧ w.version.toNat = version.toNat ∧ w.cpuType.toNat = cpu.toNat ∧
      b.magic = b'.magic ∧ ∀ n, observe pf n b = observe pf n b') ∨
    (∃ m, Bitstream.fromWrapped pf (wrapperHeader version 20 size cpu ++ payload ++ trailer) = .err (.badContainer m) ∧
      Bitstream.fromRaw payload = .err (.badContainer m)) := by
  generalize hb : wrapperHeader version 20 size cpu ++ payload ++ trailer = bytes
  have hlen : bytes.length = 20 + payload.length + trailer.length := by
    rw [← hb]; simp [wrapperHeader, leBytes]; omega
  have h1 : word32 (bytes.drop 4) = some version.toNat := by
    rw [← hb]; exact word32_leBytes version _
  have h2 : word32 (bytes.drop 8) = some 20 := by
    rw [← hb]; exact word32_leBytes 20 _
  have h3 : word32 (bytes.drop 12) = some size.toNat := by
    rw [← hb]; exact word32_leBytes size _
  have h5 : word32 (bytes.drop 16) = some cpu.toNat := by
    rw [← hb]; exact word32_leBytes cpu _
  have hwin : (bytes.take (size.toNat + 20)).drop 20 = payload := by
    rw [← hb, hsize, List.drop_take, List.append_assoc]
    rw [List.drop_left' (by simp [wrapperHeader, leBytes])]
    simp
  rcases C25_wrapped pf bytes with ⟨hc, -⟩ | ⟨o, s, ho, hs, -, hh⟩
  · omega
  · rw [h2] at ho; rw [h3] at hs
    simp only [Option.some.injEq] at ho hs
    subst ho; subst hs
    rcases hh with ⟨hc, -⟩ | ⟨-, hc, -⟩ | ⟨-, -, h4, e⟩ | ⟨-, -, h4, hl, e⟩ | ⟨-, hl, h4, w, b, e, -, e1, e2, e3, e5, -⟩
    · omega
    · omega
    · right
      refine ⟨_, e, ?_⟩
      rcases C25_raw payload with ⟨g1, g2, -⟩ | ⟨-, e'⟩ | ⟨rfl, -⟩
      · omega
      · exact e'
      · rw [hsize] at h4; exact absurd rfl h4
    · right
      refine ⟨_, e, ?_⟩
      rcases C25_raw payload with ⟨g1, g2, -⟩ | ⟨g, -⟩ | ⟨rfl, e'⟩
      · omega
      · omega
      · rw [e', hsize]; rfl
    · left
      obtain ⟨b', r1, r2, r3⟩ := C26_window pf bytes e (by rw [e2])
      rw [e2, e3, hwin] at r1
      rw [h1] at e1; rw [h5] at e5
      simp only [Option.some.injEq] at e1 e5
      exact ⟨w, b, b', e, r1, e1.symm, e5.symm, r2, r3⟩

/-- What a consumer sees in `n` calls. Used for concrete streams only. -/
def seen (pf : Profile) (n : Nat) {α : Type} (f : α → Bitstream) : Out BErr α → Option (List Bitstream.Next)
  | .ok a => some (observe pf n (f a))
  | _ => none

/-- C26 is false at other offsets: with a 12-byte stream at offset 24 and size 12, the last 4 bytes are cut off, and
the entry in them is lost. -/
theorem C26_offset_cuts (pf : Profile) :
    ∃ payload w b b', payload.length = 12 ∧
      Bitstream.fromWrapped pf (wrapperHeader 0 24 12 7 ++ [0, 0, 0, 0] ++ payload) = .ok (w, b) ∧
      Bitstream.fromRaw payload = .ok b' ∧
      observe pf 1 b' = [.item (.subBlock { blockId := 8, len := 0 })] ∧
      observe pf 1 b = [.error (.cursor .eof)] := by
  have h1 : seen pf 1 Prod.snd (Bitstream.fromWrapped pf (wrapperHeader 0 24 12 7 ++ [0, 0, 0, 0] ++
      (exMagic ++ pack 8 (exEnter 8 3)))) = some [.error (.cursor .eof)] := by cases pf <;> decide +kernel
  have h2 : seen pf 1 id (Bitstream.fromRaw (exMagic ++ pack 8 (exEnter 8 3))) =
      some [.item (.subBlock { blockId := 8, len := 0 })] := by cases pf <;> decide +kernel
  unfold seen at h1 h2
  split at h1
  · next a ha =>
    split at h2
    · next a' ha' =>
      simp only [Option.some.injEq] at h1 h2
      exact ⟨_, a.1, a.2, a', by decide, ha, ha', h2, h1⟩
    · simp at h2
  · simp at h1

example : (20 : U32).toNat = 20 ∧ (12 : U32).toNat = (exMagic ++ pack 8 (exEnter 8 3)).length := by decide

/-! ## C27 -/

theorem iterate_reach {pf : Profile} {b : Bitstream} (h : Reach pf b) (n : Nat) : Reach pf (iterate pf n b).2 := by
  induction n with
  | zero => exact h
  | succ n ih => rw [iterate_succ]; exact ih.next

/-- C27, BLOCKINFO. It is never announced, and nothing in it is delivered as a record: after a call that yields a record
the innermost open block is another one. -/
theorem C27_blockinfo_hidden (pf : Profile) {b : Bitstream} (h : Reach pf b) :
    (∀ s, (Bitstream.next pf b).1 = .item (.subBlock s) → s.blockId ≠ 0) ∧
    (∀ x, (Bitstream.next pf b).1 = .item (.record x) →
      ∃ w id bid l rest, (Bitstream.next pf b).2.parser.scopes = .block w id bid l :: rest ∧ id ≠ 0) :=
  (next_visible (pf := pf) h.pinv).2

/-- C27, BLOCKINFO, by rounds: whatever a round does inside BLOCKINFO, it surfaces nothing, unless it opens another
block there. -/
theorem C27_blockinfo_round (pf : Profile) (p : Parser) {w : U64} {bid : Option U64} {l : List Abbrev} {rest : List Scope}
    (hs : p.scopes = .block w 0 bid l :: rest) {e : StreamEntry} (he : (Parser.step pf p).1 = .ok (some e)) :
    ∃ s, e = .subBlock s ∧ s.blockId ≠ 0 := by
  have h := eff_step pf p
  unfold Eff at h
  generalize (Parser.step pf p).2.scopes = sc' at h
  generalize (Parser.step pf p).2.blockinfo = info' at h
  rw [he] at h
  generalize hx : (Out.ok (some e) : Out BErr (Option StreamEntry)) = x at h
  cases h with
  | fail hf => exact absurd hx.symm (hf _)
  | enter i w' len hw =>
    by_cases h0 : i = 0
    · rw [if_pos h0] at hx; simp at hx
    · rw [if_neg h0] at hx
      simp only [Out.ok.injEq, Option.some.injEq] at hx
      exact ⟨_, hx, h0⟩
  | exit hs' =>
    rw [hs] at hs'
    simp only [List.cons.injEq] at hs'
    obtain ⟨rfl, -⟩ := hs'
    simp [Scope.isBlockinfo] at hx
  | define hs' hid => rw [hs] at hs'; simp at hs'; exact absurd hs'.1.2.1.symm hid
  | register => simp at hx
  | setBid => simp at hx
  | ignore => simp at hx
  | record hs' hid => rw [hs] at hs'; simp at hs'; exact absurd hs'.1.2.1.symm hid

/-- C27, definitions: wherever the abbreviation id read is 2 (`DEFINE_ABBREV`), the round surfaces nothing. -/
theorem C27_definitions_hidden (pf : Profile) {p : Parser} {s : Scope} {rest : List Scope} (hs : p.scopes = s :: rest)
    {c : Cursor} (hr : Cursor.read s.abbrevIdWidth.toNat p.cursor = (.ok 2, c)) (e : StreamEntry) :
    (Parser.step pf p).1 ≠ .ok (some e) := by
  by_cases hx : p.cursor.exhausted = true
  · rw [step_exhausted hx]; simp
  · rw [step_eq hs hx, StM.bind_ok (show onCursor (cur (Cursor.read s.abbrevIdWidth.toNat)) p = (.ok 2, at' p c) by
      simp only [onCursor, cur, StM.mapErr, hr]; rfl)]
    exact define_hidden pf _ e

/-- A BLOCKINFO block with a SETBID, a name, a definition, and then an ordinary block: only the latter surfaces. -/
def exInfo : List U8 :=
  let d : List Bool := bitsOfNat 3 2 ++ ({ scalars := [.lit 1, .enc (.vbr 6)], tail := .nothing } : Def).bits
  let a : List Bool := exEnter 0 3 ++ bitsOfNat 3 3 ++ bitsOfNat 6 1 ++ bitsOfNat 6 1 ++ bitsOfNat 6 8 ++ d ++
    bitsOfNat 3 3 ++ bitsOfNat 6 2 ++ bitsOfNat 6 0 ++ bitsOfNat 3 0
  let a := a ++ List.replicate ((32 - a.length % 32) % 32) false ++ exEnter 8 3 ++ bitsOfNat 3 4 ++ bitsOfNat 6 9
  exMagic ++ pack (4 * ((a.length + 31) / 32)) a

example (pf : Profile) : runRaw pf 2 exInfo = some
    [.item (.subBlock { blockId := 8, len := 0 }), .item (.record { abbrevId := some 4, code := 1, fields := [9] })] := by
  cases pf <;> decide +kernel

end Verif.Props
