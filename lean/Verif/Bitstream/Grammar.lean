import Verif.Bitstream.LangAbbrev
import Verif.Bitstream.RoundTrip

/-!
The rounds of the parser accept exactly the items of the grammar.
-/

set_option linter.unusedSimpArgs false

namespace Verif
open Spec Cursor Parser

variable {gr : Grid}

/-- The parser is in these contexts. -/
structure At (gr : Grid) (k : Ctx) (outer : List Ctx) (p : Parser) : Prop extends Match gr k (outer.map topScope) p where
  widths : ∀ o ∈ outer, (topScope o).abbrevIdWidth = o.width

theorem onCursor_run {α : Type} {m : BM α} {p : Parser} {v : α} {c' : Cursor} (h : m p.cursor = (.ok v, c')) :
    onCursor m p = (.ok v, at' p c') := by
  simp [onCursor, h, Verif.at']

theorem onCursor_ok_inv {α : Type} {m : BM α} {p q : Parser} {v : α} (h : onCursor m p = (.ok v, q)) :
    ∃ c', m p.cursor = (.ok v, c') ∧ q = at' p c' := by
  unfold onCursor at h
  cases hm : m p.cursor with
  | mk o c' =>
    rw [hm] at h
    cases h
    exact ⟨c', rfl, rfl⟩

/-! ## Definitions -/

theorem define_run {pf : Profile} {k : Ctx} {outer : List Ctx} {p : Parser} (hm : At gr k outer p) {d : Def} {c' : Cursor}
    (hw : gr.on c') (h : Abbrev.new pf p.cursor = (.ok d.abbrev, c')) :
    (∀ k', k.define d = some k' → ∃ q, defineAbbrev pf p = (.ok (), q) ∧ q.cursor = c' ∧ At gr k' outer q) ∧
    (k.define d = none → ∀ q, defineAbbrev pf p ≠ (.ok (), q)) := by
  have hm₂ : Match gr k (outer.map topScope) (at' p c') := hm.toMatch.at' hw
  have hdef : defineAbbrev pf p = (if (topScope k).isBlockinfo then
      match (topScope k).blockinfoBlockId with
      | none => StM.throw (.streamParse .noSetBid)
      | some id => pushBlockinfo id d.abbrev
    else scopeMut (Scope.extendAbbrevs [d.abbrev])) (at' p c') := by
    unfold defineAbbrev
    rw [StM.bind_ok (onCursor_run h)]
    exact StM.bind_ok (scope_apply hm₂)
  rw [hdef, isBlockinfo_top]
  simp only [Ctx.define]
  match hb : k.block with
  | none =>
    refine ⟨fun k' hk => by simp at hk, fun _ q hq => ?_⟩
    have ht : topScope k = .initial := by simp [topScope, hb]
    simp [scopeMut, Verif.at', hm.scopes, ht, Scope.extendAbbrevs] at hq
  | some b =>
    have ht : topScope k = .block k.width b k.target (k.defs.map Def.abbrev) := by simp [topScope, hb]
    by_cases h0 : b = 0
    · subst h0
      rw [if_pos (by rfl), ht]
      simp only [Scope.blockinfoBlockId, if_true]
      match htg : k.target with
      | none => exact ⟨fun k' hk => by simp at hk, fun _ q hq => by cases hq⟩
      | some t =>
        refine ⟨fun k' hk => ?_, fun hk => by simp at hk⟩
        simp only [Option.some.injEq] at hk
        subst hk
        let bi : U64 → Option (List Abbrev) := fun id =>
          if id = t then some ((p.blockinfo t).getD [] ++ [d.abbrev]) else p.blockinfo id
        refine ⟨{ (at' p c') with blockinfo := bi }, rfl, rfl, ?_, hm.widths⟩
        refine Match.block (b := 0) rfl (hm.lower_ok (by simp [hb])) hw ?_ ?_
        · show p.scopes = _
          rw [hm.scopes, ht, htg]
        · intro id
          show (if id = t then some ((p.blockinfo t).getD [] ++ [d.abbrev]) else p.blockinfo id).getD [] = _
          by_cases hid : id = t
          · simp [hid, hm.info t]
          · simp [hid, hm.info id]
    · rw [if_neg (by simpa using h0)]
      simp only [if_neg h0]
      refine ⟨fun k' hk => ?_, fun hk => by simp at hk⟩
      simp only [Option.some.injEq] at hk
      subst hk
      have hsm : scopeMut (Scope.extendAbbrevs [d.abbrev]) (at' p c') =
          (.ok (), { (at' p c') with
            scopes := .block k.width b k.target (k.defs.map Def.abbrev ++ [d.abbrev]) :: (outer.map topScope) }) := by
        simp [scopeMut, Verif.at', hm.scopes, ht, Scope.extendAbbrevs]
      refine ⟨_, hsm, rfl, ?_, hm.widths⟩
      refine Match.block (b := b) rfl (hm.lower_ok (by simp [hb])) hw ?_ hm.info
      simp

theorem define_need {pf : Profile} {p q : Parser} (h : defineAbbrev pf p = (.ok (), q)) :
    ∃ a c', Abbrev.new pf p.cursor = (.ok a, c') := by
  unfold defineAbbrev at h
  obtain ⟨a, p₁, h₁, -⟩ := bind_inv h
  obtain ⟨c', h₁, -⟩ := onCursor_ok_inv h₁
  exact ⟨a, c', h₁⟩

/-! ## Unabbreviated records -/

/-- The cursor part of `parse_unabbrev`. -/
def unabbrevBody (pf : Profile) : BM (U64 × List U64) := do
  let code ← cur (Cursor.readVbr pf 6)
  let n ← cur (Cursor.readVbr pf 6)
  withCapacity n
  let fields ← readVbr6s pf n.toNat
  pure (code, fields)

theorem exact_unabbrevBody (pf : Profile) : Exact gr (unabbrevBody pf) (fun _ b r =>
    ∃ c n f, b = c ++ (n ++ f) ∧ IsVbr pf 6 r.1 c ∧ IsCount pf r.2.length n ∧ Many (IsVbr pf 6) r.2 f) := by
  unfold unabbrevBody
  refine ((exact_readVbr pf 6).cur.bind fun code => (exact_readVbr pf 6).cur.bind fun n => (exact_withCapacity n).bind fun _ =>
    (exact_vbr6s pf n.toNat).map fun fields => (code, fields)).congr fun pos b r => ?_
  constructor
  · rintro ⟨c, code, b₁, rfl, ⟨-, -, hc⟩, bn, n, b₂, rfl, ⟨-, -, hn⟩, b₃, _, f, rfl, ⟨rfl, hcap⟩, fields, ⟨hl, hf⟩, rfl⟩
    exact ⟨c, bn, f, by simp, hc, (count_iff pf hl).1 ⟨hn, hcap⟩, hf⟩
  · rintro ⟨c, bn, f, rfl, hc, ⟨hcap, hn⟩, hf⟩
    have := count_toNat hcap
    exact ⟨c, r.1, _, rfl, ⟨by omega, by omega, hc⟩, bn, _, f, rfl, ⟨by omega, by omega, hn⟩, [], (), f, rfl,
      ⟨rfl, by rw [this]; exact hcap⟩, r.2, ⟨this.symm, hf⟩, rfl⟩

theorem unabbrev_run {pf : Profile} {k : Ctx} {outer : List Ctx} {p : Parser} (hm : At gr k outer p) {code : U64} {fields : List U64}
    {c' : Cursor} (hw : gr.on c') (h : unabbrevBody pf p.cursor = (.ok (code, fields), c')) :
    (∀ k', k.unabbrev code fields = some k' → ∃ q, parseUnabbrev pf p =
      (.ok ((visible k (.record none code fields)).head?.map Entry.toStream), q) ∧ q.cursor = c' ∧ At gr k' outer q) ∧
    (k.unabbrev code fields = none → ∀ r q, parseUnabbrev pf p ≠ (.ok r, q)) := by
  unfold unabbrevBody at h
  obtain ⟨code', c₁, h₁, h⟩ := bind_inv h
  obtain ⟨n, c₂, h₂, h⟩ := bind_inv h
  obtain ⟨u, c₃, h₃, h⟩ := bind_inv h
  obtain ⟨fields', c₄, h₄, h⟩ := bind_inv h
  cases h
  have hcap : ¬ n.toNat * 8 > 2 ^ 63 - 1 := by
    intro hc
    unfold withCapacity at h₃
    rw [if_pos hc] at h₃
    exact panic_inv h₃
  have hc₃ : c₃ = c₂ := by
    unfold withCapacity at h₃
    rw [if_neg hcap] at h₃
    exact (pure_inv h₃).2.symm
  subst hc₃
  have hcap' : (withCapacity n : PM Unit) = pure () := by
    unfold withCapacity
    rw [if_neg hcap]
  match hb : k.block with
  | none =>
    refine ⟨fun k' hk => by simp [Ctx.unabbrev, hb] at hk, fun _ r q hq => ?_⟩
    have ht : topScope k = .initial := by simp [topScope, hb]
    unfold parseUnabbrev at hq
    rw [StM.bind_ok (scope_apply hm.toMatch), if_pos ht] at hq
    exact throw_inv hq
  | some b =>
    have ht : topScope k = .block k.width b k.target (k.defs.map Def.abbrev) := by simp [topScope, hb]
    have hpu : parseUnabbrev pf p = (if (topScope k).isBlockinfo then do
        let c ← BlockInfoCode.tryFrom code
        match c with
        | .setBid =>
          match fields with
          | [] => StM.panic .setBidField
          | bid :: _ => do
            scopeMut (Scope.setBlockinfoBlockId bid)
            pure none
        | .blockName => pure none
        | .setRecordName => pure none
      else
        (pure (some (StreamEntry.record { abbrevId := none, code := code, fields := fields })) : PM _)) (at' p c') := by
      unfold parseUnabbrev
      rw [StM.bind_ok (scope_apply hm.toMatch), if_neg (by rw [ht]; simp), StM.bind_ok (onCursor_run h₁),
        StM.bind_ok (onCursor_run (p := at' p c₁) h₂), hcap', StM.bind_ok (StM.pure_apply () _),
        StM.bind_ok (onCursor_run (p := at' (at' p c₁) c₃) h₄)]
      exact StM.bind_ok (scope_apply (hm.toMatch.at' hw))
    rw [hpu, isBlockinfo_top, hb]
    simp only [Ctx.unabbrev, hb, visible]
    clear hpu
    by_cases h0 : b = 0
    · subst h0
      simp only [decide_true, if_true]
      by_cases h1 : code = 1
      · subst h1
        simp only [if_true]
        rw [StM.bind_ok (show BlockInfoCode.tryFrom 1 (at' p c') = (.ok .setBid, at' p c') from rfl)]
        cases fields with
        | nil => exact ⟨fun k' hk => by simp at hk, fun _ r q hq => panic_inv hq⟩
        | cons t ts =>
          refine ⟨fun k' hk => ?_, fun hk => by simp at hk⟩
          simp only [Option.some.injEq] at hk
          subst hk
          have hsm : scopeMut (Scope.setBlockinfoBlockId t) (at' p c') =
              (.ok (), { (at' p c') with scopes := .block k.width 0 (some t) (k.defs.map Def.abbrev) :: outer.map topScope }) := by
            simp [scopeMut, Verif.at', hm.scopes, ht, Scope.setBlockinfoBlockId]
          refine ⟨_, StM.bind_ok hsm, rfl, ?_, hm.widths⟩
          exact Match.block (b := 0) rfl (hm.lower_ok (by simp [hb])) hw rfl hm.info
      · rw [if_neg h1]
        by_cases h23 : code = 2 ∨ code = 3
        · rw [if_pos h23]
          refine ⟨fun k' hk => ?_, fun hk => by simp at hk⟩
          simp only [Option.some.injEq] at hk
          subst hk
          refine ⟨at' p c', ?_, rfl, hm.toMatch.at' hw, hm.widths⟩
          rcases h23 with h | h
          · rw [h]; rfl
          · rw [h]; rfl
        · rw [if_neg h23]
          refine ⟨fun k' hk => by simp at hk, fun _ r q hq => ?_⟩
          have : BlockInfoCode.tryFrom code = StM.throw (.badBlockInfoCode code) := by
            unfold BlockInfoCode.tryFrom
            rw [if_neg h1, if_neg (fun h => h23 (.inl h)), if_neg (fun h => h23 (.inr h))]
          rw [this] at hq
          obtain ⟨_, _, h, _⟩ := bind_inv hq
          exact throw_inv h
    · have hne : ¬ ((some b : Option U64) = some 0) := by simpa using h0
      simp only [if_neg h0, if_neg hne]
      refine ⟨fun k' hk => ?_, fun hk => by simp at hk⟩
      simp only [Option.some.injEq] at hk
      subst hk
      refine ⟨at' p c', ?_, rfl, hm.toMatch.at' hw, hm.widths⟩
      rw [if_neg (by simpa using h0)]
      rfl

theorem unabbrev_need {pf : Profile} {p q : Parser} {r : Option StreamEntry} (h : parseUnabbrev pf p = (.ok r, q)) :
    ∃ code fields c', unabbrevBody pf p.cursor = (.ok (code, fields), c') := by
  unfold parseUnabbrev at h
  obtain ⟨s, p₁, h₁, h'⟩ := bind_inv h
  obtain ⟨-, -, rfl⟩ := scope_inv h₁
  clear h
  have h := h'
  by_cases hs : s = .initial
  · rw [if_pos hs] at h
    exact (throw_inv h).elim
  · rw [if_neg hs] at h
    obtain ⟨code, p₂, h₂, h⟩ := bind_inv h
    obtain ⟨c₂, g₂, rfl⟩ := onCursor_ok_inv h₂
    obtain ⟨n, p₃, h₃, h⟩ := bind_inv h
    obtain ⟨c₃, g₃, rfl⟩ := onCursor_ok_inv h₃
    obtain ⟨u, p₄, h₄, h⟩ := bind_inv h
    have hcap : ¬ n.toNat * 8 > 2 ^ 63 - 1 := by
      intro hc
      unfold withCapacity at h₄
      rw [if_pos hc] at h₄
      exact panic_inv h₄
    unfold withCapacity at h₄
    rw [if_neg hcap] at h₄
    obtain ⟨-, rfl⟩ := pure_inv h₄
    obtain ⟨fields, p₅, h₅, h⟩ := bind_inv h
    obtain ⟨c₅, g₅, rfl⟩ := onCursor_ok_inv h₅
    refine ⟨code, fields, c₅, ?_⟩
    unfold unabbrevBody
    rw [StM.bind_ok g₂, StM.bind_ok (s := c₂) g₃]
    unfold withCapacity
    rw [if_neg hcap, StM.bind_ok (StM.pure_apply () _), StM.bind_ok (s := c₃) g₅]
    rfl

/-! ## Abbreviated records -/

theorem abbrev_run {pf : Profile} {k : Ctx} {outer : List Ctx} {p : Parser} (hm : At gr k outer p) {id code : U64} {fields : List U64}
    {d : Def} (hid : 4 ≤ id.toNat) (hb : k.block ≠ none) (hd : k.defs[id.toNat - 4]? = some d) {c' : Cursor} (hw : gr.on c')
    (h : d.abbrev.parse pf p.cursor = (.ok (code :: fields), c')) :
    ∃ q, parseWithAbbrev pf id p = (.ok ((visible k (.record (some id) code fields)).head?.map Entry.toStream), q) ∧
      q.cursor = c' ∧ At gr k outer q := by
  match hkb : k.block with
  | none => exact absurd hkb hb
  | some b =>
    have ht : topScope k = .block k.width b k.target (k.defs.map Def.abbrev) := by simp [topScope, hkb]
    have hget : (topScope k).getAbbrev pf id = .ok d.abbrev := by
      rw [ht]
      simp only [Scope.getAbbrev]
      rw [if_neg (by omega), toNat_sub4 hid, List.getElem?_map, hd]
      rfl
    refine ⟨at' p c', ?_, rfl, hm.toMatch.at' hw, hm.widths⟩
    unfold parseWithAbbrev
    rw [StM.bind_ok (scope_apply hm.toMatch), hget, StM.bind_ok (StM.lift_apply (.ok d.abbrev) _), StM.bind_ok (onCursor_run h)]
    simp only
    rw [StM.bind_ok (scope_apply (hm.toMatch.at' hw)), isBlockinfo_top]
    unfold visible
    by_cases h0 : k.block = some 0
    · rw [if_pos (by simpa using h0), if_pos h0]; rfl
    · rw [if_neg (by simpa using h0), if_neg h0]; rfl

theorem abbrev_need {pf : Profile} {k : Ctx} {outer : List Ctx} {p q : Parser} (hm : At gr k outer p) {id : U64} (hid : 4 ≤ id.toNat)
    {r : Option StreamEntry} (h : parseWithAbbrev pf id p = (.ok r, q)) :
    k.block ≠ none ∧ ∃ d code fields c', k.defs[id.toNat - 4]? = some d ∧ d.abbrev.parse pf p.cursor = (.ok (code :: fields), c') := by
  unfold parseWithAbbrev at h
  rw [StM.bind_ok (scope_apply hm.toMatch)] at h
  obtain ⟨a, p₁, h₁, h⟩ := bind_inv h
  match hkb : k.block with
  | none =>
    have ht : topScope k = .initial := by simp [topScope, hkb]
    rw [ht] at h₁
    cases h₁
  | some b =>
    have ht : topScope k = .block k.width b k.target (k.defs.map Def.abbrev) := by simp [topScope, hkb]
    rw [ht, StM.lift_apply] at h₁
    simp only [Scope.getAbbrev] at h₁
    rw [if_neg (by omega), toNat_sub4 hid, List.getElem?_map] at h₁
    cases hd : k.defs[id.toNat - 4]? with
    | none => rw [hd] at h₁; cases h₁
    | some d =>
      rw [hd] at h₁
      cases h₁
      obtain ⟨vals, p₂, h₂, h⟩ := bind_inv h
      obtain ⟨c₂, h₃, -⟩ := onCursor_ok_inv h₂
      cases vals with
      | nil => exact (panic_inv h).elim
      | cons code fields => exact ⟨by simp, d, code, fields, c₂, rfl, h₃⟩

/-! ## Block starts -/

/-- The cursor part of `enter_block`. -/
def enterHead (pf : Profile) : BM (U64 × U64 × U64) := do
  let id ← cur (Cursor.readVbr pf 8)
  let width ← cur (Cursor.readVbr pf 4)
  align
  if width < 1 then StM.throw (.badScope (.width width))
  else do
    let words ← cur (Cursor.read 32)
    pure (id, width, words)

theorem lt_one_iff (w : U64) : w < 1 ↔ w = 0 := by
  rw [BitVec.lt_def]
  have : (1 : U64).toNat = 1 := rfl
  constructor
  · intro h
    apply BitVec.eq_of_toNat_eq
    have : (0 : U64).toNat = 0 := rfl
    omega
  · rintro rfl
    decide

theorem exact_enterHead (pf : Profile) : Exact gr (enterHead pf) (fun pos b r =>
    ∃ b₁ b₂ p, b = b₁ ++ (b₂ ++ (p ++ bitsOfNat 32 r.2.2.toNat)) ∧ IsVbr pf 8 r.1 b₁ ∧ IsVbr pf 4 r.2.1 b₂ ∧ r.2.1 ≠ 0 ∧
      IsPad gr.pad (pos + b₁.length + b₂.length) p ∧ r.2.2.toNat < 2 ^ 32) := by
  unfold enterHead
  refine ((exact_readVbr pf 8).cur.bind fun id => (exact_readVbr pf 4).cur.bind fun width => exact_align.bind fun _ =>
    Exact.ite (fun _ => exact_throw _) fun _ => (exact_read 32).cur.map fun words => (id, width, words)).congr fun pos b r => ?_
  constructor
  · rintro ⟨b₁, id, b₂, rfl, ⟨-, -, h₁⟩, b₃, width, b₄, rfl, ⟨-, -, h₂⟩, p, _, b₅, rfl, hp, h⟩
    by_cases h0 : width < 1
    · rw [if_pos h0] at h
      exact h.elim
    · rw [if_neg h0] at h
      obtain ⟨words, ⟨-, -, hw, rfl⟩, rfl⟩ := h
      exact ⟨b₁, b₃, p, rfl, h₁, h₂, fun h => h0 ((lt_one_iff _).2 h), hp, hw⟩
  · rintro ⟨b₁, b₂, p, rfl, h₁, h₂, h0, hp, hw⟩
    refine ⟨b₁, r.1, _, rfl, ⟨by omega, by omega, h₁⟩, b₂, r.2.1, _, rfl, ⟨by omega, by omega, h₂⟩, p, (), _, rfl, hp, ?_⟩
    dsimp only
    rw [if_neg (fun h => h0 ((lt_one_iff _).1 h))]
    exact ⟨r.2.2, ⟨by omega, by omega, hw, rfl⟩, rfl⟩

theorem enter_run {pf : Profile} {k : Ctx} {outer : List Ctx} {p : Parser} (hm : At gr k outer p) {id width words : U64} {c' : Cursor}
    (hw : gr.on c') (h : enterHead pf p.cursor = (.ok (id, width, words), c')) (hlt : words.toNat < 2 ^ 32) :
    ∃ q, enterBlock pf p = (.ok ((if id = 0 then [] else [Entry.start id (4 * words.toNat)]).head?.map Entry.toStream), q) ∧
      q.cursor = c' ∧ At gr (k.enter id width) (k :: outer) q := by
  unfold enterHead at h
  obtain ⟨id', c₁, h₁, h⟩ := bind_inv h
  obtain ⟨width', c₂, h₂, h⟩ := bind_inv h
  obtain ⟨_, c₃, h₃, h⟩ := bind_inv h
  by_cases h0 : width' < 1
  · rw [if_pos h0] at h
    exact (throw_inv h).elim
  rw [if_neg h0] at h
  obtain ⟨words', c₄, h₄, h⟩ := bind_inv h
  cases h
  have hlen : (words * 4 : U64) = BitVec.ofNat 64 (4 * words.toNat) := by
    apply BitVec.eq_of_toNat_eq
    rw [BitVec.toNat_mul]
    simp only [BitVec.toNat_ofNat, BitVec.ofNat_eq_ofNat]
    omega
  have hpush : ∃ q, (∀ f : PM (Option StreamEntry), (do
        pushScope (Scope.new width id)
        let p ← StM.get
        match p.blockinfo id with
        | some abbrevs => scopeMut (Scope.extendAbbrevs abbrevs)
        | none => pure ()
        f) (at' p c') = f q) ∧ q.cursor = c' ∧ q.blockinfo = p.blockinfo ∧
        q.scopes = .block width id none ((k.info id).map Def.abbrev) :: topScope k :: outer.map topScope := by
    have hinfo := hm.info id
    cases hbi : p.blockinfo id with
    | none =>
      rw [hbi] at hinfo
      refine ⟨{ (at' p c') with scopes := Scope.new width id :: p.scopes }, ?_, rfl, rfl, ?_⟩
      · intro f
        rw [StM.bind_ok (show pushScope (Scope.new width id) (at' p c') =
          (.ok (), { (at' p c') with scopes := Scope.new width id :: p.scopes }) from rfl)]
        rw [get_bind]
        simp only [Verif.at', hbi]
      · rw [← hinfo, hm.scopes]; rfl
    | some l =>
      rw [hbi] at hinfo
      refine ⟨{ (at' p c') with scopes := .block width id none ([] ++ l) :: p.scopes }, ?_, rfl, rfl, ?_⟩
      · intro f
        rw [StM.bind_ok (show pushScope (Scope.new width id) (at' p c') =
          (.ok (), { (at' p c') with scopes := Scope.new width id :: p.scopes }) from rfl)]
        rw [get_bind]
        simp only [Verif.at', hbi]
        rfl
      · rw [← hinfo, hm.scopes]; simp
  obtain ⟨q, hq, hqc, hqb, hqs⟩ := hpush
  have hmq : At gr (k.enter id width) (k :: outer) q := by
    refine ⟨Match.block (b := id) rfl hm.stack (by rw [hqc]; exact hw) hqs ?_, ?_⟩
    · intro id'; rw [hqb]; exact hm.info id'
    · intro o ho
      rcases List.mem_cons.1 ho with rfl | ho
      · exact hm.width
      · exact hm.widths o ho
  refine ⟨q, ?_, hqc, hmq⟩
  unfold enterBlock
  rw [StM.bind_ok (onCursor_run h₁), StM.bind_ok (onCursor_run (p := at' p c₁) h₂),
    StM.bind_ok (onCursor_run (p := at' (at' p c₁) c₂) h₃), if_neg h0,
    StM.bind_ok (onCursor_run (p := at' (at' (at' p c₁) c₂) c₃) h₄), mul4_ok (by omega), hlen]
  rw [StM.bind_ok (StM.pure_apply _ _)]
  refine (hq _).trans ?_
  rw [StM.bind_ok (scope_apply hmq.toMatch), isBlockinfo_top]
  show (if decide ((some id : Option U64) = some 0) = true then pure none else _ : PM (Option StreamEntry)) q = _
  by_cases h0 : id = 0
  · rw [if_pos (by simp [h0]), if_pos h0]; rfl
  · rw [if_neg (by simpa using h0), if_neg h0]; rfl

theorem enter_need {pf : Profile} {p q : Parser} {r : Option StreamEntry} (h : enterBlock pf p = (.ok r, q)) :
    ∃ x c', enterHead pf p.cursor = (.ok x, c') := by
  unfold enterBlock at h
  obtain ⟨id, p₁, h₁, h⟩ := bind_inv h
  obtain ⟨c₁, g₁, rfl⟩ := onCursor_ok_inv h₁
  obtain ⟨width, p₂, h₂, h⟩ := bind_inv h
  obtain ⟨c₂, g₂, rfl⟩ := onCursor_ok_inv h₂
  obtain ⟨_, p₃, h₃, h⟩ := bind_inv h
  obtain ⟨c₃, g₃, rfl⟩ := onCursor_ok_inv h₃
  by_cases h0 : width < 1
  · rw [if_pos h0] at h
    exact (throw_inv h).elim
  rw [if_neg h0] at h
  obtain ⟨words, p₄, h₄, h⟩ := bind_inv h
  obtain ⟨c₄, g₄, rfl⟩ := onCursor_ok_inv h₄
  refine ⟨(id, width, words), c₄, ?_⟩
  unfold enterHead
  rw [StM.bind_ok g₁, StM.bind_ok (s := c₁) g₂, StM.bind_ok (s := c₂) g₃, if_neg h0,
    StM.bind_ok (s := c₃) g₄]
  rfl

/-! ## Block ends -/

theorem exit_run {k o : Ctx} {outer : List Ctx} {p : Parser} (hm : At gr k (o :: outer) p) {c' : Cursor}
    (hw : gr.on c') (h : align p.cursor = (.ok (), c')) :
    ∃ q, exitBlock p = (.ok ((visible k .finish).head?.map Entry.toStream), q) ∧
      q.cursor = c' ∧ At gr { o with info := k.info } outer q := by
  have hto : topScope { o with info := k.info } = topScope o := rfl
  refine ⟨{ (at' p c') with scopes := topScope o :: outer.map topScope }, ?_, rfl, ⟨hw, rfl, ?_, ?_, hm.info⟩, ?_⟩
  · unfold exitBlock
    rw [StM.bind_ok (onCursor_run h), StM.bind_ok (show StM.get (at' p c') = (.ok (at' p c'), at' p c') from rfl)]
    have hsc : (at' p c').scopes = topScope k :: topScope o :: outer.map topScope := hm.scopes
    rw [hsc]
    simp only
    rw [StM.bind_ok (show (StM.set { (at' p c') with scopes := topScope o :: outer.map topScope } : PM Unit) (at' p c') =
      (.ok (), _) from rfl)]
    rw [isBlockinfo_top]
    unfold visible
    by_cases h0 : k.block = some 0
    · rw [if_pos (by simpa using h0), if_pos h0]; rfl
    · rw [if_neg (by simpa using h0), if_neg h0]; rfl
  · rw [hto]
    exact hm.stack.pop
  · rw [hto]
    exact hm.widths o (by simp)
  · exact fun o' ho => hm.widths o' (by simp [ho])

theorem exit_need {k : Ctx} {outer : List Ctx} {p q : Parser} (hm : At gr k outer p) {r : Option StreamEntry}
    (h : exitBlock p = (.ok r, q)) : ∃ o outer' c', outer = o :: outer' ∧ align p.cursor = (.ok (), c') := by
  cases outer with
  | cons o outer' => exact ⟨o, outer', _, rfl, rfl⟩
  | nil =>
    exfalso
    unfold exitBlock at h
    rw [StM.bind_ok (onCursor_run (p := p) (show align p.cursor = (.ok (), p.cursor.align32) from rfl)),
      StM.bind_ok (show StM.get (at' p p.cursor.align32) = (.ok (at' p p.cursor.align32), at' p p.cursor.align32) from rfl)] at h
    have hsc : (at' p p.cursor.align32).scopes = [topScope k] := hm.scopes
    rw [hsc] at h
    exact throw_inv h

/-! ## Rounds -/

theorem step_of_id {pf : Profile} {k : Ctx} {outer : List Ctx} {p : Parser} (hm : At gr k outer p) {id : U64} {c' : Cursor}
    (h : Cursor.read k.width.toNat p.cursor = (.ok id, c')) : Parser.step pf p = dispatch pf id (at' p c') := by
  have hne : ¬ (p.cursor.exhausted = true) := by
    rw [exhausted_iff_rest (gr.inv hm.on)]
    intro hr
    obtain ⟨b, ⟨h1, -, -, rfl⟩, hb, -⟩ := (exact_read _).sound hm.on h
    rw [hr] at hb
    have := congrArg List.length hb
    simp at this
    omega
  unfold Parser.step
  rw [StM.bind_ok (show StM.get p = (.ok p, p) from rfl), if_neg hne, StM.bind_ok (scope_apply hm.toMatch), hm.width,
    StM.bind_ok (onCursor_run (show cur (Cursor.read k.width.toNat) p.cursor = (.ok id, c') by
      simp [cur, StM.mapErr, h, Out.mapErr]))]
  rfl

theorem step_id_need {pf : Profile} {k : Ctx} {outer : List Ctx} {p q : Parser} (hm : At gr k outer p) {r : Option StreamEntry}
    (h : Parser.step pf p = (.ok r, q)) : ∃ id c', Cursor.read k.width.toNat p.cursor = (.ok id, c') := by
  unfold Parser.step at h
  rw [StM.bind_ok (show StM.get p = (.ok p, p) from rfl)] at h
  by_cases he : p.cursor.exhausted = true
  · rw [if_pos he] at h
    exact (throw_inv h).elim
  · rw [if_neg he, StM.bind_ok (scope_apply hm.toMatch), hm.width] at h
    obtain ⟨id, p₁, h₁, -⟩ := bind_inv h
    obtain ⟨c', h₁, -⟩ := onCursor_ok_inv h₁
    refine ⟨id, c', ?_⟩
    simp only [cur, StM.mapErr] at h₁
    cases hm : Cursor.read k.width.toNat p.cursor with
    | mk o c₁ =>
      rw [hm] at h₁
      cases o <;> simp_all [Out.mapErr]

theorem idBits_iff {k : Ctx} {id : U64} {i : List Bool} : idBits k id = some i ↔
    1 ≤ k.width.toNat ∧ k.width.toNat ≤ 63 ∧ id.toNat < 2 ^ k.width.toNat ∧ i = bitsOfNat k.width.toNat id.toNat := by
  constructor
  · exact idBits_spec
  · rintro ⟨h1, h2, h3, rfl⟩
    simp [idBits, h1, h2, h3]

/-- Where the parser is after an item. -/
structure After (gr : Grid) (p q : Parser) (b : List Bool) (k : Ctx) (outer : List Ctx) : Prop where
  at_ : At gr k outer q
  buf : SameBuf p.cursor q.cursor
  rest : p.cursor.rest = b ++ q.cursor.rest
  tell : gr.pos q.cursor = gr.pos p.cursor + b.length

theorem small_id {id : U64} (h : ¬ 4 ≤ id.toNat) : id = 0 ∨ id = 1 ∨ id = 2 ∨ id = 3 := by
  have h' : id.toNat = 0 ∨ id.toNat = 1 ∨ id.toNat = 2 ∨ id.toNat = 3 := by omega
  rcases h' with h | h | h | h
  · exact .inl (BitVec.eq_of_toNat_eq h)
  · exact .inr (.inl (BitVec.eq_of_toNat_eq h))
  · exact .inr (.inr (.inl (BitVec.eq_of_toNat_eq h)))
  · exact .inr (.inr (.inr (BitVec.eq_of_toNat_eq h)))

theorem dispatch_abbrev {pf : Profile} {id : U64} (h : 4 ≤ id.toNat) : dispatch pf id = parseWithAbbrev pf id := by
  have hne : ∀ n : Nat, n < 4 → ¬ id = BitVec.ofNat 64 n := by
    intro n hn hc
    rw [hc] at h
    simp at h; omega
  show (if id = 0#64 then exitBlock else if id = 1#64 then enterBlock pf else if id = 2#64 then _
    else if id = 3#64 then parseUnabbrev pf else parseWithAbbrev pf id) = _
  rw [if_neg (hne 0 (by omega)), if_neg (hne 1 (by omega)), if_neg (hne 2 (by omega)), if_neg (hne 3 (by omega))]

theorem After.mk' {p q : Parser} {c₁ : Cursor} {i b tail : List Bool} {k : Ctx} {outer : List Ctx}
    (h₁ : Moved gr p.cursor c₁ i c₁.rest) (r₁ : p.cursor.rest = i ++ c₁.rest) (h₂ : Moved gr c₁ q.cursor b tail)
    (r₂ : c₁.rest = b ++ tail) (ha : At gr k outer q) : After gr p q (i ++ b) k outer := by
  refine ⟨ha, h₁.buf.trans h₂.buf, ?_, ?_⟩
  · rw [r₁, r₂, h₂.rest, List.append_assoc]
  · rw [h₂.tell, h₁.tell, List.length_append, Nat.add_assoc]

/-- A round that succeeds has read an item. -/
theorem step_sound {pf : Profile} {k : Ctx} {outer : List Ctx} {p q : Parser} (hm : At gr k outer p) {r : Option StreamEntry}
    (h : Parser.step pf p = (.ok r, q)) :
    ∃ b es k' outer', Item pf gr.pad k outer (gr.pos p.cursor) b es k' outer' ∧ r = es.head?.map Entry.toStream ∧ After gr p q b k' outer' := by
  obtain ⟨id, c₁, hid⟩ := step_id_need hm h
  rw [step_of_id hm hid] at h
  obtain ⟨i, ⟨w1, w2, hlt, hib⟩, r₁, m₁⟩ := (exact_read _).sound hm.on hid
  have hi : idBits k id = some i := idBits_iff.2 ⟨w1, w2, hlt, hib⟩
  have hm₁ : At gr k outer (at' p c₁) := ⟨hm.toMatch.at' m₁.on, hm.widths⟩
  by_cases h4 : 4 ≤ id.toNat
  · rw [dispatch_abbrev h4] at h
    obtain ⟨hb, d, code, fields, c₂, hd, h₂⟩ := abbrev_need hm₁ h4 h
    obtain ⟨v, hv, r₂, m₂⟩ := (exact_abbrevParse pf d).sound (c := c₁) m₁.on h₂
    obtain ⟨q', e, hq, ha⟩ := abbrev_run hm₁ h4 hb hd m₂.on h₂
    rw [e] at h
    cases h
    rw [m₁.tell] at hv
    exact ⟨_, _, _, _, .abbrev hi h4 hb hd hv, rfl, .mk' m₁ r₁ (by rw [hq]; exact m₂) r₂ ha⟩
  · rcases small_id h4 with rfl | rfl | rfl | rfl
    · have h : exitBlock (at' p c₁) = (.ok r, q) := h
      obtain ⟨o, outer', c₂, rfl, h₂⟩ := exit_need hm₁ h
      obtain ⟨pd, hp, r₂, m₂⟩ := exact_align.sound (c := c₁) m₁.on h₂
      obtain ⟨q', e, hq, ha⟩ := exit_run hm₁ m₂.on h₂
      rw [e] at h
      cases h
      rw [m₁.tell] at hp
      exact ⟨_, _, _, _, .exit hi hp, rfl, .mk' m₁ r₁ (by rw [hq]; exact m₂) r₂ ha⟩
    · have h : enterBlock pf (at' p c₁) = (.ok r, q) := h
      obtain ⟨⟨bid, width, words⟩, c₂, h₂⟩ := enter_need h
      obtain ⟨b, ⟨b₁, b₂, pd, rfl, hb₁, hb₂, h0, hp, hw⟩, r₂, m₂⟩ := (exact_enterHead pf).sound (c := c₁) m₁.on h₂
      obtain ⟨q', e, hq, ha⟩ := enter_run hm₁ m₂.on h₂ hw
      rw [e] at h
      cases h
      rw [m₁.tell] at hp
      exact ⟨_, _, _, _, .enter hi hb₁ hb₂ h0 hp hw, rfl, .mk' m₁ r₁ (by rw [hq]; exact m₂) r₂ ha⟩
    · have h : (do defineAbbrev pf; pure none : PM (Option StreamEntry)) (at' p c₁) = (.ok r, q) := h
      obtain ⟨_, q', h', h''⟩ := bind_inv h
      obtain ⟨rfl, rfl⟩ := pure_inv h''
      obtain ⟨a, c₂, h₂⟩ := define_need h'
      obtain ⟨b, ⟨d, rfl, hd⟩, r₂, m₂⟩ := (exact_abbrevNew pf).sound (c := c₁) m₁.on h₂
      obtain ⟨hs, hn⟩ := define_run hm₁ m₂.on h₂
      cases hk : k.define d with
      | none => exact absurd h' (hn hk q')
      | some k' =>
        obtain ⟨q'', e, hq, ha⟩ := hs k' hk
        rw [e] at h'
        cases h'
        exact ⟨_, _, _, _, .define hi hd hk, rfl, .mk' m₁ r₁ (by rw [hq]; exact m₂) r₂ ha⟩
    · have h : parseUnabbrev pf (at' p c₁) = (.ok r, q) := h
      obtain ⟨code, fields, c₂, h₂⟩ := unabbrev_need h
      obtain ⟨b, ⟨c, n, f, rfl, hc, hn, hf⟩, r₂, m₂⟩ := (exact_unabbrevBody pf).sound (c := c₁) m₁.on h₂
      obtain ⟨hs, hno⟩ := unabbrev_run hm₁ m₂.on h₂
      cases hk : k.unabbrev code fields with
      | none => exact absurd h (hno hk r q)
      | some k' =>
        obtain ⟨q'', e, hq, ha⟩ := hs k' hk
        rw [e] at h
        cases h
        exact ⟨_, _, _, _, .unabbrev hi hc hn hf hk, rfl, .mk' m₁ r₁ (by rw [hq]; exact m₂) r₂ ha⟩

/-- An item is read by a round. -/
theorem step_complete {pf : Profile} {k k' : Ctx} {outer outer' : List Ctx} {p : Parser} (hm : At gr k outer p) {b tail : List Bool}
    {es : List Entry} (h : Item pf gr.pad k outer (gr.pos p.cursor) b es k' outer') (hr : p.cursor.rest = b ++ tail) :
    ∃ q, Parser.step pf p = (.ok (es.head?.map Entry.toStream), q) ∧ After gr p q b k' outer' ∧ q.cursor.rest = tail := by
  have key : ∀ {id : U64} {i b' : List Bool}, idBits k id = some i → p.cursor.rest = (i ++ b') ++ tail →
      ∃ c₁, Parser.step pf p = dispatch pf id (at' p c₁) ∧ Moved gr p.cursor c₁ i c₁.rest ∧ p.cursor.rest = i ++ c₁.rest ∧
        c₁.rest = b' ++ tail ∧ At gr k outer (at' p c₁) := by
    intro id i b' hi hr
    obtain ⟨w1, w2, hlt, hib⟩ := idBits_iff.1 hi
    rw [List.append_assoc] at hr
    obtain ⟨c₁, e₁, m₁⟩ := (exact_read _).complete hm.on ⟨w1, w2, hlt, hib⟩ hr
    have := m₁.rest
    exact ⟨c₁, step_of_id hm e₁, ⟨m₁.on, m₁.buf, rfl, m₁.tell⟩, by rw [this]; exact hr, this, hm.toMatch.at' m₁.on, hm.widths⟩
  cases h with
  | define hi hd hk =>
    obtain ⟨c₁, e₁, m₁, r₁, r₂, hm₁⟩ := key hi hr
    obtain ⟨c₂, e₂, m₂⟩ := (exact_abbrevNew pf).complete m₁.on ⟨_, rfl, hd⟩ r₂
    obtain ⟨q, e, hq, ha⟩ := (define_run hm₁ m₂.on e₂).1 _ hk
    have e₁' : Parser.step pf p = ((do defineAbbrev pf; pure none) : PM (Option StreamEntry)) (at' p c₁) := e₁
    exact ⟨q, by rw [e₁', StM.bind_ok e]; rfl, .mk' m₁ r₁ (by rw [hq]; exact m₂) r₂ ha, by rw [hq]; exact m₂.rest⟩
  | unabbrev hi hc hn hf hk =>
    obtain ⟨c₁, e₁, m₁, r₁, r₂, hm₁⟩ := key hi hr
    obtain ⟨c₂, e₂, m₂⟩ := (exact_unabbrevBody pf).complete (v := (_, _)) m₁.on ⟨_, _, _, rfl, hc, hn, hf⟩ r₂
    obtain ⟨q, e, hq, ha⟩ := (unabbrev_run hm₁ m₂.on e₂).1 _ hk
    exact ⟨q, e₁.trans e, .mk' m₁ r₁ (by rw [hq]; exact m₂) r₂ ha, by rw [hq]; exact m₂.rest⟩
  | «abbrev» hi h4 hb hd hv =>
    obtain ⟨c₁, e₁, m₁, r₁, r₂, hm₁⟩ := key hi hr
    obtain ⟨c₂, e₂, m₂⟩ := (exact_abbrevParse pf _).complete m₁.on (by rw [m₁.tell]; exact hv) r₂
    obtain ⟨q, e, hq, ha⟩ := abbrev_run hm₁ h4 hb hd m₂.on e₂
    exact ⟨q, by rw [e₁, dispatch_abbrev h4, e], .mk' m₁ r₁ (by rw [hq]; exact m₂) r₂ ha, by rw [hq]; exact m₂.rest⟩
  | @enter _ _ i b₁ b₂ pd id width words hi hb₁ hb₂ h0 hp hw =>
    obtain ⟨c₁, e₁, m₁, r₁, r₂, hm₁⟩ := key hi hr
    have hwn : (BitVec.ofNat 64 words).toNat = words := by
      rw [BitVec.toNat_ofNat]; exact Nat.mod_eq_of_lt (by omega)
    obtain ⟨c₂, e₂, m₂⟩ := (exact_enterHead pf).complete (v := (id, width, BitVec.ofNat 64 words)) m₁.on
      ⟨b₁, b₂, pd, by rw [hwn], hb₁, hb₂, h0, by rw [m₁.tell]; exact hp, by rw [hwn]; exact hw⟩ r₂
    obtain ⟨q, e, hq, ha⟩ := enter_run hm₁ m₂.on e₂ (by rw [hwn]; exact hw)
    rw [hwn] at e
    exact ⟨q, e₁.trans e, .mk' m₁ r₁ (by rw [hq]; exact m₂) r₂ ha, by rw [hq]; exact m₂.rest⟩
  | exit hi hp =>
    obtain ⟨c₁, e₁, m₁, r₁, r₂, hm₁⟩ := key hi hr
    obtain ⟨c₂, e₂, m₂⟩ := exact_align.complete (v := ()) m₁.on (by rw [m₁.tell]; exact hp) r₂
    obtain ⟨q, e, hq, ha⟩ := exit_run hm₁ m₂.on e₂
    exact ⟨q, e₁.trans e, .mk' m₁ r₁ (by rw [hq]; exact m₂) r₂ ha, by rw [hq]; exact m₂.rest⟩

end Verif
