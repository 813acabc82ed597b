import Verif.Bitstream.Faults

/-!
The rounds of the parser fail exactly as specified.
-/

set_option linter.unusedSimpArgs false

namespace Verif
open Spec Cursor Parser

variable {gr : Grid} {α β σ : Type}

theorem failing_bind {m : StM σ BErr α} {g : α → StM σ BErr β} {s : σ} {f : Failure} :
    ((m >>= g) s).1.Failing f ↔ (m s).1.Failing f ∨ ∃ v s', m s = (.ok v, s') ∧ (g v s').1.Failing f := by
  match hm : m s with
  | (.ok v, s') =>
    rw [StM.bind_ok hm]
    constructor
    · exact fun h => .inr ⟨v, s', rfl, h⟩
    · rintro (h | ⟨_, _, e, h⟩)
      · exact absurd h failing_ok
      · cases e; exact h
  | (.err e, s') => rw [StM.bind_err hm]; simp
  | (.panic e, s') => rw [StM.bind_panic hm]; simp
  | (.diverge, s') => rw [StM.bind_diverge hm]; simp

theorem failing_onCursor {m : BM α} {g : α → PM β} {p : Parser} {f : Failure} :
    ((onCursor m >>= g) p).1.Failing f ↔
      (m p.cursor).1.Failing f ∨ ∃ v c', m p.cursor = (.ok v, c') ∧ (g v (at' p c')).1.Failing f := by
  rw [failing_bind]
  constructor
  · rintro (h | ⟨v, s', e, h⟩)
    · exact .inl h
    · obtain ⟨c', e', rfl⟩ := onCursor_ok_inv e
      exact .inr ⟨v, c', e', h⟩
  · rintro (h | ⟨v, c', e, h⟩)
    · exact .inl h
    · exact .inr ⟨v, _, onCursor_run e, h⟩

/-! ## Block starts -/

def EnterFlaw (pf : Profile) (pad : Nat → Nat) (pos : Nat) (b : List Bool) (f : Failure) : Prop :=
  NoVbr pf 8 b f ∨ ∃ t id b₁, b = t ++ b₁ ∧ IsVbr pf 8 id t ∧ (NoVbr pf 4 b₁ f ∨
    ∃ w width b₂, b₁ = w ++ b₂ ∧ IsVbr pf 4 width w ∧ (width = 0 ∧ f = .error (.badScope (.width 0)) ∨
      width ≠ 0 ∧ ∃ p b₃, b₂ = p ++ b₃ ∧ IsPad pad (pos + t.length + w.length) p ∧ NoFixed 32 b₃ f))

theorem fails_enterHead (pf : Profile) : Fails gr (enterHead pf) (fun pos b f => EnterFlaw pf gr.pad pos b f) := by
  unfold enterHead
  refine (Fails.bind (exact_readVbr pf 8).cur (fails_readVbr pf 8) fun id => Fails.bind (exact_readVbr pf 4).cur (fails_readVbr pf 4)
    fun width => Fails.bind exact_align fails_align fun _ => Fails.ite (fun _ => fails_throw _) fun _ =>
    Fails.map (exact_read 32).cur (fails_read 32) fun words => (id, width, words)).congr fun pos b f he => ?_
  constructor
  · rintro (h | ⟨t, id, b₁, rfl, ⟨-, -, h₁⟩, h | ⟨w, width, b₂, rfl, ⟨-, -, h₂⟩, h | ⟨p, _, b₃, rfl, hp, ⟨h0, rfl⟩ | ⟨h0, h⟩⟩⟩⟩)
    · exact .inl h
    · exact .inr ⟨t, id, b₁, rfl, h₁, .inl h⟩
    · exact h.elim
    · exact .inr ⟨t, id, _, rfl, h₁, .inr ⟨w, width, _, rfl, h₂, .inl ⟨(lt_one_iff _).1 h0, by rw [(lt_one_iff _).1 h0]⟩⟩⟩
    · exact .inr ⟨t, id, _, rfl, h₁, .inr ⟨w, width, _, rfl, h₂, .inr ⟨fun h => h0 ((lt_one_iff _).2 h), p, b₃, rfl, hp, h⟩⟩⟩
  · rintro (h | ⟨t, id, b₁, rfl, h₁, h | ⟨w, width, b₂, rfl, h₂, ⟨h0, rfl⟩ | ⟨h0, p, b₃, rfl, hp, h⟩⟩⟩)
    · exact .inl h
    · exact .inr ⟨t, id, b₁, rfl, ⟨by omega, by omega, h₁⟩, .inl h⟩
    · obtain ⟨p, b₃, rfl, hp⟩ := exists_pad (gr := gr) (pos := pos + t.length + w.length) (b := b₂) (by
        simpa only [List.length_append, Nat.add_assoc] using he)
      exact .inr ⟨t, id, _, rfl, ⟨by omega, by omega, h₁⟩, .inr ⟨w, width, _, rfl, ⟨by omega, by omega, h₂⟩,
        .inr ⟨p, (), b₃, rfl, hp, .inl ⟨(lt_one_iff _).2 h0, by rw [h0]⟩⟩⟩⟩
    · exact .inr ⟨t, id, _, rfl, ⟨by omega, by omega, h₁⟩, .inr ⟨w, width, _, rfl, ⟨by omega, by omega, h₂⟩,
        .inr ⟨p, (), b₃, rfl, hp, .inr ⟨fun h => h0 ((lt_one_iff _).1 h), h⟩⟩⟩⟩

theorem enter_fails {pf : Profile} {k : Ctx} {outer : List Ctx} {p : Parser} (hm : At gr k outer p) (f : Failure) :
    (enterBlock pf p).1.Failing f ↔ EnterFlaw pf gr.pad (gr.pos p.cursor) p.cursor.rest f := by
  rw [← show _ ↔ EnterFlaw pf gr.pad (gr.pos p.cursor) p.cursor.rest f from fails_enterHead pf p.cursor hm.on f]
  by_cases hok : ∃ x c', enterHead pf p.cursor = (.ok x, c')
  · obtain ⟨⟨id, width, words⟩, c', he⟩ := hok
    obtain ⟨b, ⟨_, _, _, _, _, _, _, _, hlt⟩, -, mv⟩ := (exact_enterHead pf).sound hm.on he
    obtain ⟨q, e, -⟩ := enter_run hm mv.on he hlt
    rw [e, he]
    simp
  · unfold enterBlock
    unfold enterHead at hok ⊢
    rw [failing_onCursor, failing_bind]
    refine or_congr Iff.rfl (exists_congr fun v₁ => exists_congr fun c₁ => and_congr_right fun e₁ => ?_)
    rw [failing_onCursor, failing_bind]
    refine or_congr Iff.rfl (exists_congr fun v₂ => exists_congr fun c₂ => and_congr_right fun e₂ => ?_)
    rw [failing_onCursor, failing_bind]
    refine or_congr Iff.rfl (exists_congr fun v₃ => exists_congr fun c₃ => and_congr_right fun e₃ => ?_)
    by_cases h0 : v₂ < 1
    · rw [if_pos h0, if_pos h0]
      simp [StM.throw_apply]
    · rw [if_neg h0, if_neg h0, failing_onCursor, failing_bind]
      refine or_congr Iff.rfl (exists_congr fun v₄ => exists_congr fun c₄ => and_congr_right fun e₄ => ?_)
      refine absurd ⟨(v₁, v₂, v₄), c₄, ?_⟩ hok
      rw [StM.bind_ok e₁, StM.bind_ok (s := c₁) e₂, StM.bind_ok (s := c₂) e₃, if_neg h0, StM.bind_ok (s := c₃) e₄]
      rfl

/-! ## Block ends -/

theorem exit_fails {k : Ctx} {outer : List Ctx} {p : Parser} (hm : At gr k outer p) (f : Failure) :
    (exitBlock p).1.Failing f ↔ outer = [] ∧ f = .error (.badScope .emptyStack) := by
  obtain ⟨_, -, -, mv⟩ := exact_align.sound hm.on (show align p.cursor = (.ok (), p.cursor.align32) from rfl)
  cases outer with
  | cons o outer =>
    obtain ⟨q, e, -⟩ := exit_run hm mv.on rfl
    rw [e]
    simp
  | nil =>
    unfold exitBlock
    rw [StM.bind_ok (onCursor_run (p := p) (show align p.cursor = (.ok (), p.cursor.align32) from rfl)),
      StM.bind_ok (show StM.get (at' p p.cursor.align32) = (.ok (at' p p.cursor.align32), at' p p.cursor.align32) from rfl)]
    have hsc : (at' p p.cursor.align32).scopes = [topScope k] := hm.scopes
    rw [hsc]
    simp [StM.throw_apply]

/-! ## Definitions -/

theorem define_fails {pf : Profile} {k : Ctx} {outer : List Ctx} {p : Parser} (hm : At gr k outer p) (f : Failure) :
    (defineAbbrev pf p).1.Failing f ↔ NoDef pf p.cursor.rest f ∨ ∃ t tail d, p.cursor.rest = t ++ tail ∧ Def.IsDef pf d t ∧
      (k.block = none ∧ f = .error (.badScope .noAbbrevs) ∨ k.block = some 0 ∧ k.target = none ∧ f = .error (.streamParse .noSetBid)) := by
  rw [← show _ ↔ NoDef pf p.cursor.rest f from fails_abbrevNew pf p.cursor hm.on f]
  unfold defineAbbrev
  rw [failing_onCursor]
  refine or_congr Iff.rfl ?_
  have leaf : ∀ {a : Abbrev} {c' : Cursor}, gr.on c' → (((do
        let s ← scope
        if s.isBlockinfo then
          match s.blockinfoBlockId with
          | none => StM.throw (.streamParse .noSetBid)
          | some id => pushBlockinfo id a
        else
          scopeMut (Scope.extendAbbrevs [a]) : PM Unit) (at' p c')).1.Failing f ↔
      (k.block = none ∧ f = .error (.badScope .noAbbrevs) ∨ k.block = some 0 ∧ k.target = none ∧ f = .error (.streamParse .noSetBid))) := by
    intro a c' hw
    rw [StM.bind_ok (scope_apply (hm.toMatch.at' hw)), isBlockinfo_top]
    cases hb : k.block with
    | none =>
      have ht : topScope k = .initial := by simp [topScope, hb]
      simp [scopeMut, Verif.at', hm.scopes, ht, Scope.extendAbbrevs]
    | some b =>
      have ht : topScope k = .block k.width b k.target (k.defs.map Def.abbrev) := by simp [topScope, hb]
      by_cases h0 : b = 0
      · subst h0
        rw [if_pos (by rfl), ht]
        simp only [Scope.blockinfoBlockId]
        cases k.target with
        | none => simp [StM.throw_apply]
        | some t => simp [pushBlockinfo, StM.modify]
      · rw [if_neg (by simpa using h0)]
        simp [scopeMut, Verif.at', hm.scopes, ht, Scope.extendAbbrevs, show ¬ b = 0#64 from h0]
  constructor
  · rintro ⟨a, c', e, h⟩
    obtain ⟨b, ⟨d, rfl, hd⟩, hr, mv⟩ := (exact_abbrevNew pf).sound hm.on e
    exact ⟨b, _, d, hr, hd, (leaf mv.on).1 h⟩
  · rintro ⟨t, tail, d, hr, hd, h⟩
    obtain ⟨c', e, mv⟩ := (exact_abbrevNew pf).complete hm.on ⟨d, rfl, hd⟩ hr
    exact ⟨_, c', e, (leaf mv.on).2 h⟩

/-! ## Unabbreviated records -/

def BodyFlaw (pf : Profile) (pos : Nat) (b : List Bool) (f : Failure) : Prop :=
  NoVbr pf 6 b f ∨ ∃ c code tail, b = c ++ tail ∧ IsVbr pf 6 code c ∧
    NoCounted pf (fun n _ => Stuck (IsVbr pf 6) (NoVbr pf 6) n) (pos + c.length) tail f

theorem fails_unabbrevBody (pf : Profile) : Fails gr (unabbrevBody pf) (fun pos b f => BodyFlaw pf pos b f) := by
  unfold unabbrevBody
  refine (Fails.bind (exact_readVbr pf 6).cur (fails_readVbr pf 6) fun code => Fails.bind (exact_readVbr pf 6).cur
    (fails_readVbr pf 6) fun n => Fails.bind (exact_withCapacity n) (fails_withCapacity n) fun _ =>
    Fails.map (exact_vbr6s pf n.toNat) (fails_vbr6s pf n.toNat) fun fields => (code, fields)).congr fun pos b f _ => ?_
  constructor
  · rintro (h | ⟨c, code, b₁, rfl, ⟨-, -, h₁⟩, h | ⟨bn, n, b₂, rfl, ⟨-, -, h₂⟩, ⟨hc, rfl⟩ | ⟨b₃, _, b₄, rfl, ⟨rfl, hc⟩, h⟩⟩⟩)
    · exact .inl h
    · exact .inr ⟨c, code, _, rfl, h₁, .count h⟩
    · exact .inr ⟨c, code, _, rfl, h₁, .size rfl h₂ hc⟩
    · exact .inr ⟨c, code, _, rfl, h₁, .counted rfl h₂ hc h⟩
  · rintro (h | ⟨c, code, b₁, rfl, h₁, h⟩)
    · exact .inl h
    · refine .inr ⟨c, code, b₁, rfl, ⟨by omega, by omega, h₁⟩, ?_⟩
      cases h with
      | count h => exact .inl h
      | size hb h₂ hc => exact .inr ⟨_, _, _, hb, ⟨by omega, by omega, h₂⟩, .inl ⟨hc, rfl⟩⟩
      | counted hb h₂ hc h => exact .inr ⟨_, _, _, hb, ⟨by omega, by omega, h₂⟩, .inr ⟨[], (), _, rfl, ⟨rfl, hc⟩, h⟩⟩

theorem unabbrev_fails {pf : Profile} {k : Ctx} {outer : List Ctx} {p : Parser} (hm : At gr k outer p) (f : Failure) :
    (parseUnabbrev pf p).1.Failing f ↔ k.block = none ∧ f = .error (.streamParse .recordOutside) ∨ k.block ≠ none ∧
      (BodyFlaw pf (gr.pos p.cursor) p.cursor.rest f ∨ k.block = some 0 ∧ ∃ c n t tail code fields,
        p.cursor.rest = (c ++ (n ++ t)) ++ tail ∧ IsVbr pf 6 code c ∧ IsCount pf fields.length n ∧ Many (IsVbr pf 6) fields t ∧
        (code = 1 ∧ fields = [] ∧ f = .panic .setBidField ∨
          code ≠ 1 ∧ code ≠ 2 ∧ code ≠ 3 ∧ f = .error (.badBlockInfoCode code))) := by
  rw [← show _ ↔ BodyFlaw pf (gr.pos p.cursor) p.cursor.rest f from fails_unabbrevBody pf p.cursor hm.on f]
  unfold parseUnabbrev
  rw [StM.bind_ok (scope_apply hm.toMatch)]
  cases hb : k.block with
  | none =>
    have ht : topScope k = .initial := by simp [topScope, hb]
    rw [if_pos ht]
    simp [StM.throw_apply]
  | some b =>
    have ht : topScope k = .block k.width b k.target (k.defs.map Def.abbrev) := by simp [topScope, hb]
    rw [if_neg (by rw [ht]; simp)]
    have hbody : ∀ {code n : U64} {fields : List U64} {c₁ c₂ c' : Cursor}, cur (Cursor.readVbr pf 6) p.cursor = (.ok code, c₁) →
        cur (Cursor.readVbr pf 6) c₁ = (.ok n, c₂) → ¬ n.toNat * 8 > 2 ^ 63 - 1 → readVbr6s pf n.toNat c₂ = (.ok fields, c') →
        unabbrevBody pf p.cursor = (.ok (code, fields), c') := by
      intro code n fields c₁ c₂ c' e₁ e₂ hcap e₄
      unfold unabbrevBody
      rw [StM.bind_ok e₁, StM.bind_ok e₂]
      unfold withCapacity
      rw [if_neg hcap, StM.bind_ok (StM.pure_apply () _), StM.bind_ok e₄]
      rfl
    have leaf : ∀ {code : U64} {fields : List U64} {c' : Cursor}, gr.on c' → (((do
          let s ← scope
          if s.isBlockinfo then do
            let c ← BlockInfoCode.tryFrom code
            match c with
            | .setBid =>
              match fields with
              | [] => StM.panic .setBidField
              | bid :: _ => do
                scopeMut (Scope.setBlockinfoBlockId bid)
                pure none
            | .blockName => pure none
            | .setRecordName => pure none
          else
            pure (some (.record { abbrevId := none, code := code, fields := fields })) : PM (Option StreamEntry)) (at' p c')).1.Failing f ↔
        k.block = some 0 ∧ (code = 1 ∧ fields = [] ∧ f = .panic .setBidField ∨
          code ≠ 1 ∧ code ≠ 2 ∧ code ≠ 3 ∧ f = .error (.badBlockInfoCode code))) := by
      intro code fields c' hw
      rw [StM.bind_ok (scope_apply (hm.toMatch.at' hw)), isBlockinfo_top, hb]
      by_cases h0 : b = 0
      · subst h0
        rw [if_pos (by rfl)]
        by_cases h1 : code = 1
        · subst h1
          rw [StM.bind_ok (show BlockInfoCode.tryFrom 1 (at' p c') = (.ok .setBid, at' p c') from rfl)]
          cases fields with
          | nil => simp [StM.panic_apply]
          | cons t ts =>
            have hsm : scopeMut (Scope.setBlockinfoBlockId t) (at' p c') =
                (.ok (), { (at' p c') with scopes := .block k.width 0 (some t) (k.defs.map Def.abbrev) :: outer.map topScope }) := by
              simp [scopeMut, Verif.at', hm.scopes, ht, Scope.setBlockinfoBlockId]
            simp only
            rw [StM.bind_ok hsm]
            simp [StM.pure_apply]
        · by_cases h2 : code = 2
          · subst h2
            rw [StM.bind_ok (show BlockInfoCode.tryFrom 2 (at' p c') = (.ok .blockName, at' p c') from rfl)]
            simp [StM.pure_apply]
          · by_cases h3 : code = 3
            · subst h3
              rw [StM.bind_ok (show BlockInfoCode.tryFrom 3 (at' p c') = (.ok .setRecordName, at' p c') from rfl)]
              simp [StM.pure_apply]
            · have : BlockInfoCode.tryFrom code = StM.throw (.badBlockInfoCode code) := by
                unfold BlockInfoCode.tryFrom
                rw [if_neg h1, if_neg h2, if_neg h3]
              rw [this, StM.bind_err (StM.throw_apply _ _)]
              simp [show ¬ code = 1#64 from h1, show ¬ code = 2#64 from h2, show ¬ code = 3#64 from h3]
      · rw [if_neg (by simpa using h0)]
        simp [StM.pure_apply, show ¬ b = 0#64 from h0]
    rw [hb] at leaf
    by_cases hok : ∃ x c', unabbrevBody pf p.cursor = (.ok x, c')
    · obtain ⟨⟨code, fields⟩, c', he⟩ := hok
      obtain ⟨bb, ⟨c, n, t, rfl, hc, hn, ht'⟩, hr, mv⟩ := (exact_unabbrevBody pf).sound hm.on he
      have hfail : ∀ x : Failure, ¬ (unabbrevBody pf p.cursor).1.Failing x := by rw [he]; simp
      have he' := he
      unfold unabbrevBody at he'
      obtain ⟨code', c₁, h₁, he'⟩ := bind_inv he'
      obtain ⟨m, c₂, h₂, he'⟩ := bind_inv he'
      obtain ⟨u, c₃, h₃, he'⟩ := bind_inv he'
      obtain ⟨fields', c₄, h₄, he'⟩ := bind_inv he'
      cases he'
      have hcap : ¬ m.toNat * 8 > 2 ^ 63 - 1 := by
        intro hc
        unfold withCapacity at h₃
        rw [if_pos hc] at h₃
        exact panic_inv h₃
      have hc₃ : c₃ = c₂ := by
        unfold withCapacity at h₃
        rw [if_neg hcap] at h₃
        exact (pure_inv h₃).2.symm
      subst hc₃
      have hcap' : (withCapacity m : PM Unit) = pure () := by
        unfold withCapacity
        rw [if_neg hcap]
      rw [StM.bind_ok (onCursor_run h₁), StM.bind_ok (onCursor_run (p := at' p c₁) h₂), hcap', StM.bind_ok (StM.pure_apply () _),
        StM.bind_ok (onCursor_run (p := at' (at' p c₁) c₃) h₄)]
      have hl := leaf (code := code) (fields := fields) mv.on
      refine hl.trans ?_
      constructor
      · rintro ⟨h0, h⟩
        exact .inr ⟨by simp, .inr ⟨h0, c, n, t, _, code, fields, hr, hc, hn, ht', h⟩⟩
      · rintro (⟨h, -⟩ | ⟨-, h | ⟨h0, c', n', t', tail, code', fields', hr', hc', hn', ht'', h⟩⟩)
        · cases h
        · exact absurd h (hfail f)
        · obtain ⟨c₅, e₅, -⟩ := (exact_unabbrevBody pf).complete (v := (code', fields')) hm.on ⟨_, _, _, rfl, hc', hn', ht''⟩ hr'
          rw [he] at e₅
          cases e₅
          exact ⟨h0, h⟩
    · have hno : ∀ {P : Prop}, ¬ (∃ c n t tail code fields, p.cursor.rest = (c ++ (n ++ t)) ++ tail ∧ IsVbr pf 6 code c ∧
          IsCount pf (fields : List U64).length n ∧ Many (IsVbr pf 6) fields t ∧
          (code = 1 ∧ fields = [] ∧ f = .panic .setBidField ∨ code ≠ 1 ∧ code ≠ 2 ∧ code ≠ 3 ∧ f = .error (.badBlockInfoCode code))) := by
        rintro P ⟨c, n, t, tail, code, fields, hr, hc, hn, ht', -⟩
        obtain ⟨c₅, e₅, -⟩ := (exact_unabbrevBody pf).complete (v := (code, fields)) hm.on ⟨_, _, _, rfl, hc, hn, ht'⟩ hr
        exact hok ⟨_, _, e₅⟩
      have hno := hno (P := True)
      simp only [hno, and_false, or_false, false_and, false_or, ne_eq, reduceCtorEq, not_false_eq_true, true_and]
      unfold unabbrevBody
      rw [failing_onCursor, failing_bind]
      refine or_congr Iff.rfl (exists_congr fun v₁ => exists_congr fun c₁ => and_congr_right fun e₁ => ?_)
      rw [failing_onCursor, failing_bind]
      refine or_congr Iff.rfl (exists_congr fun v₂ => exists_congr fun c₂ => and_congr_right fun e₂ => ?_)
      unfold withCapacity
      by_cases hcap : v₂.toNat * 8 > 2 ^ 63 - 1
      · rw [if_pos hcap, if_pos hcap, StM.bind_panic (StM.panic_apply _ _), StM.bind_panic (StM.panic_apply _ _)]
        simp
      · rw [if_neg hcap, if_neg hcap, StM.bind_ok (StM.pure_apply () _), StM.bind_ok (StM.pure_apply () _), failing_onCursor,
          failing_bind]
        refine or_congr Iff.rfl (exists_congr fun v₃ => exists_congr fun c₃ => and_congr_right fun e₃ => ?_)
        exact absurd ⟨_, _, hbody e₁ e₂ hcap e₃⟩ hok

/-! ## Abbreviated records -/

theorem abbrev_fails {pf : Profile} {k : Ctx} {outer : List Ctx} {p : Parser} (hm : At gr k outer p) {id : U64} (hid : 4 ≤ id.toNat)
    (hb : k.block ≠ none) (f : Failure) :
    (parseWithAbbrev pf id p).1.Failing f ↔ k.defs.length + 4 ≤ id.toNat ∧ f = .error (.badAbbrev id) ∨
      ∃ d, k.defs[id.toNat - 4]? = some d ∧ (NoVals pf gr.pad d.tail (gr.pos p.cursor) d.scalars p.cursor.rest f ∨
        ∃ v tail, p.cursor.rest = v ++ tail ∧ IsVals pf gr.pad d.tail (gr.pos p.cursor) d.scalars [] v ∧ f = .panic .recordCodeRemove) := by
  unfold parseWithAbbrev
  rw [StM.bind_ok (scope_apply hm.toMatch)]
  cases hkb : k.block with
  | none => exact absurd hkb hb
  | some b =>
    have ht : topScope k = .block k.width b k.target (k.defs.map Def.abbrev) := by simp [topScope, hkb]
    have hget : (topScope k).getAbbrev pf id = Out.ofOption (.badAbbrev id) ((k.defs[id.toNat - 4]?).map Def.abbrev) := by
      rw [ht]
      simp only [Scope.getAbbrev]
      rw [if_neg (by omega), toNat_sub4 hid, List.getElem?_map]
    rw [hget]
    cases hd : k.defs[id.toNat - 4]? with
    | none =>
      have hlen : k.defs.length + 4 ≤ id.toNat := by
        have := List.getElem?_eq_none_iff.1 hd
        omega
      rw [StM.bind_err (StM.lift_apply (Out.ofOption (BErr.badAbbrev id) (Option.map Def.abbrev none)) p)]
      simp [hlen]
    | some d =>
      have hlen : ¬ k.defs.length + 4 ≤ id.toNat := by
        have := (List.getElem?_eq_some_iff.1 hd).1
        omega
      rw [StM.bind_ok (StM.lift_apply (Out.ofOption (BErr.badAbbrev id) (Option.map Def.abbrev (some d))) p), failing_onCursor,
        show _ ↔ NoVals pf gr.pad d.tail (gr.pos p.cursor) d.scalars p.cursor.rest f from fails_abbrevParse pf d p.cursor hm.on f]
      simp only [hlen, false_and, false_or, Option.some.injEq, exists_eq_left']
      refine or_congr Iff.rfl ?_
      constructor
      · rintro ⟨vals, c', e, h⟩
        obtain ⟨v, hv, hr, mv⟩ := (exact_abbrevParse pf d).sound hm.on e
        cases vals with
        | nil =>
          simp only [StM.panic_apply, failing_panic] at h
          exact ⟨v, _, hr, hv, h⟩
        | cons code fields =>
          exfalso
          simp only at h
          rw [StM.bind_ok (scope_apply (hm.toMatch.at' mv.on))] at h
          by_cases h0 : (topScope k).isBlockinfo = true
          · rw [if_pos h0] at h
            simp [StM.pure_apply] at h
          · rw [if_neg h0] at h
            simp [StM.pure_apply] at h
      · rintro ⟨v, tail, hr, hv, rfl⟩
        obtain ⟨c', e, -⟩ := (exact_abbrevParse pf d).complete hm.on hv hr
        exact ⟨[], c', e, rfl⟩

/-! ## Rounds -/

/-- What can be wrong after an abbreviation id. -/
def NoBody (pf : Profile) (pad : Nat → Nat) (k : Ctx) (outer : List Ctx) (pos : Nat) (id : U64) (b : List Bool) (f : Failure) : Prop :=
  id = 0 ∧ outer = [] ∧ f = .error (.badScope .emptyStack) ∨
  id = 1 ∧ EnterFlaw pf pad pos b f ∨
  id = 2 ∧ (NoDef pf b f ∨ ∃ t tail d, b = t ++ tail ∧ Def.IsDef pf d t ∧
      (k.block = none ∧ f = .error (.badScope .noAbbrevs) ∨ k.block = some 0 ∧ k.target = none ∧ f = .error (.streamParse .noSetBid))) ∨
  id = 3 ∧ (k.block = none ∧ f = .error (.streamParse .recordOutside) ∨ k.block ≠ none ∧
      (BodyFlaw pf pos b f ∨ k.block = some 0 ∧ ∃ c n t tail code fields,
        b = (c ++ (n ++ t)) ++ tail ∧ IsVbr pf 6 code c ∧ IsCount pf fields.length n ∧ Many (IsVbr pf 6) fields t ∧
        (code = 1 ∧ fields = [] ∧ f = .panic .setBidField ∨
          code ≠ 1 ∧ code ≠ 2 ∧ code ≠ 3 ∧ f = .error (.badBlockInfoCode code)))) ∨
  4 ≤ id.toNat ∧ k.block ≠ none ∧ (k.defs.length + 4 ≤ id.toNat ∧ f = .error (.badAbbrev id) ∨
      ∃ d, k.defs[id.toNat - 4]? = some d ∧ (NoVals pf pad d.tail pos d.scalars b f ∨
        ∃ v tail, b = v ++ tail ∧ IsVals pf pad d.tail pos d.scalars [] v ∧ f = .panic .recordCodeRemove))

theorem noItem_iff {pf : Profile} {pad : Nat → Nat} {k : Ctx} {outer : List Ctx} {pos : Nat} {b : List Bool} {f : Failure} :
    NoItem pf pad k outer pos b f ↔ b ≠ [] ∧ NoFixed k.width.toNat b f ∨
      ∃ id i tail, b = i ++ tail ∧ idBits k id = some i ∧ NoBody pf pad k outer (pos + i.length) id tail f := by
  constructor
  · intro h
    cases h with
    | id hne h => exact .inl ⟨hne, h⟩
    | exit hb hi ho => exact .inr ⟨0, _, _, hb, hi, .inl ⟨rfl, ho, rfl⟩⟩
    | enterId hb hi h => exact .inr ⟨1, _, _, hb, hi, .inr (.inl ⟨rfl, .inl h⟩)⟩
    | enterWidth hb hi h₁ h => exact .inr ⟨1, _, _, hb, hi, .inr (.inl ⟨rfl, .inr ⟨_, _, _, rfl, h₁, .inl h⟩⟩)⟩
    | enterZero hb hi h₁ h₂ =>
      exact .inr ⟨1, _, _, hb, hi, .inr (.inl ⟨rfl, .inr ⟨_, _, _, rfl, h₁, .inr ⟨_, _, _, rfl, h₂, .inl ⟨rfl, rfl⟩⟩⟩⟩)⟩
    | enterLength hb hi h₁ h₂ h0 hp h =>
      exact .inr ⟨1, _, _, hb, hi, .inr (.inl ⟨rfl, .inr ⟨_, _, _, rfl, h₁, .inr ⟨_, _, _, rfl, h₂, .inr ⟨h0, _, _, rfl, hp, h⟩⟩⟩⟩)⟩
    | define hb hi h => exact .inr ⟨2, _, _, hb, hi, .inr (.inr (.inl ⟨rfl, .inl h⟩))⟩
    | defineOutside hb hi hd h => exact .inr ⟨2, _, _, hb, hi, .inr (.inr (.inl ⟨rfl, .inr ⟨_, _, _, rfl, hd, .inl ⟨h, rfl⟩⟩⟩))⟩
    | defineFor hb hi hd h h' =>
      exact .inr ⟨2, _, _, hb, hi, .inr (.inr (.inl ⟨rfl, .inr ⟨_, _, _, rfl, hd, .inr ⟨h, h', rfl⟩⟩⟩))⟩
    | recordOutside hb hi h => exact .inr ⟨3, _, _, hb, hi, .inr (.inr (.inr (.inl ⟨rfl, .inl ⟨h, rfl⟩⟩)))⟩
    | code hb hi hk h => exact .inr ⟨3, _, _, hb, hi, .inr (.inr (.inr (.inl ⟨rfl, .inr ⟨hk, .inl (.inl h)⟩⟩)))⟩
    | fields hb hi hk hc h =>
      exact .inr ⟨3, _, _, hb, hi, .inr (.inr (.inr (.inl ⟨rfl, .inr ⟨hk, .inl (.inr ⟨_, _, _, rfl, hc, h⟩)⟩⟩)))⟩
    | @setBid i c n tail hb hi hk hc hn =>
      exact .inr ⟨3, _, _, hb, hi, .inr (.inr (.inr (.inl ⟨rfl, .inr ⟨by simp [hk], .inr ⟨hk, c, n, [], tail, 1, [], by simp, hc, hn, rfl,
        .inl ⟨rfl, rfl, rfl⟩⟩⟩⟩)))⟩
    | @infoCode i c n t tail code fields hb hi hk hc hn ht h1 h2 h3 =>
      exact .inr ⟨3, _, _, hb, hi, .inr (.inr (.inr (.inl ⟨rfl, .inr ⟨by simp [hk], .inr ⟨hk, c, n, t, tail, code, fields, by simp, hc, hn,
        ht, .inr ⟨h1, h2, h3, rfl⟩⟩⟩⟩)))⟩
    | undefined hb hi h4 hk h => exact .inr ⟨_, _, _, hb, hi, .inr (.inr (.inr (.inr ⟨h4, hk, .inl ⟨h, rfl⟩⟩)))⟩
    | values hb hi h4 hk hd h => exact .inr ⟨_, _, _, hb, hi, .inr (.inr (.inr (.inr ⟨h4, hk, .inr ⟨_, hd, .inl h⟩⟩)))⟩
    | noCode hb hi h4 hk hd h =>
      exact .inr ⟨_, _, _, hb, hi, .inr (.inr (.inr (.inr ⟨h4, hk, .inr ⟨_, hd, .inr ⟨_, _, rfl, h, rfl⟩⟩⟩)))⟩
  · rintro (⟨hne, h⟩ | ⟨id, i, tail, rfl, hi, h⟩)
    · exact .id hne h
    · rcases h with ⟨rfl, ho, rfl⟩ | ⟨rfl, h⟩ | ⟨rfl, h⟩ | ⟨rfl, h⟩ | ⟨h4, hk, h⟩
      · exact .exit rfl hi ho
      · rcases h with h | ⟨t, id, b₁, rfl, h₁, h | ⟨w, width, b₂, rfl, h₂, ⟨rfl, rfl⟩ | ⟨h0, p, b₃, rfl, hp, h⟩⟩⟩
        · exact .enterId rfl hi h
        · exact .enterWidth rfl hi h₁ h
        · exact .enterZero rfl hi h₁ h₂
        · exact .enterLength rfl hi h₁ h₂ h0 hp h
      · rcases h with h | ⟨t, tail, d, rfl, hd, ⟨hk, rfl⟩ | ⟨hk, ht, rfl⟩⟩
        · exact .define rfl hi h
        · exact .defineOutside rfl hi hd hk
        · exact .defineFor rfl hi hd hk ht
      · rcases h with ⟨hk, rfl⟩ | ⟨hk, (h | ⟨c, code, tail, rfl, hc, h⟩) |
          ⟨hk, c, n, t, tail, code, fields, rfl, hc, hn, ht, ⟨rfl, rfl, rfl⟩ | ⟨h1, h2, h3, rfl⟩⟩⟩
        · exact .recordOutside rfl hi hk
        · exact .code rfl hi hk h
        · exact .fields rfl hi hk hc h
        · obtain rfl : t = [] := ht
          exact .setBid (tail := tail) (by simp) hi hk hc hn
        · exact .infoCode (tail := tail) (by simp) hi hk hc hn ht h1 h2 h3
      · rcases h with ⟨h, rfl⟩ | ⟨d, hd, h | ⟨v, tail, rfl, hv, rfl⟩⟩
        · exact .undefined rfl hi h4 hk h
        · exact .values rfl hi h4 hk hd h
        · exact .noCode rfl hi h4 hk hd hv

theorem dispatch_fails {pf : Profile} {k : Ctx} {outer : List Ctx} {p : Parser} (hm : At gr k outer p) {id : U64}
    (hid : id.toNat < 2 ^ k.width.toNat) (f : Failure) :
    (dispatch pf id p).1.Failing f ↔ NoBody pf gr.pad k outer (gr.pos p.cursor) id p.cursor.rest f := by
  unfold NoBody
  by_cases h4 : 4 ≤ id.toNat
  · have hb : k.block ≠ none := by
      intro hb
      have hw := hm.width
      have ht : topScope k = .initial := by simp [topScope, hb]
      rw [ht] at hw
      have : k.width.toNat = 2 := by rw [← hw]; rfl
      rw [this] at hid
      omega
    have hne : ∀ n : Nat, n < 4 → ¬ id = BitVec.ofNat 64 n := by
      intro n hn hc
      rw [hc] at h4
      simp at h4; omega
    have h0 : ¬ id = 0 := hne 0 (by omega)
    have h1 : ¬ id = 1 := hne 1 (by omega)
    have h2 : ¬ id = 2 := hne 2 (by omega)
    have h3 : ¬ id = 3 := hne 3 (by omega)
    rw [dispatch_abbrev h4, abbrev_fails hm h4 hb]
    simp only [h0, h1, h2, h3, h4, false_and, false_or, true_and]
    simp only [hb, ne_eq, not_false_eq_true, true_and]
  · have h4' : ¬ 4 ≤ id.toNat := h4
    rcases small_id h4 with rfl | rfl | rfl | rfl
    · rw [show dispatch pf 0 p = exitBlock p from rfl, exit_fails hm]
      simp
    · rw [show dispatch pf 1 p = enterBlock pf p from rfl, enter_fails hm]
      simp
    · rw [show dispatch pf 2 p = (do defineAbbrev pf; pure none : PM (Option StreamEntry)) p from rfl, failing_bind, define_fails hm]
      simp [StM.pure_apply]
    · rw [show dispatch pf 3 p = parseUnabbrev pf p from rfl, unabbrev_fails hm]
      simp

/-- The abbreviation id cannot be read. -/
theorem stepRead {pf : Profile} {k : Ctx} {outer : List Ctx} {p : Parser} (hm : At gr k outer p) (hr : p.cursor.rest ≠ [])
    {f : Failure} (hno : ∀ v, (Cursor.read k.width.toNat p.cursor).1 ≠ .ok v) :
    (Parser.step pf p).1.Failing f ↔ NoFixed k.width.toNat p.cursor.rest f ∨
      ∃ id i tail, p.cursor.rest = i ++ tail ∧ idBits k id = some i ∧ NoBody pf gr.pad k outer (gr.pos p.cursor + i.length) id tail f := by
  have hx : ¬ p.cursor.exhausted = true := by rw [exhausted_iff_rest (gr.inv hm.on)]; exact hr
  have hno' : ¬ ∃ id i tail, p.cursor.rest = i ++ tail ∧ idBits k id = some i ∧
      NoBody pf gr.pad k outer (gr.pos p.cursor + i.length) id tail f := by
    rintro ⟨id, i, tail, hb, hi, -⟩
    obtain ⟨h1, h2, h3, h4⟩ := idBits_iff.1 hi
    obtain ⟨c', e, -⟩ := (exact_read _).complete hm.on ⟨h1, h2, h3, h4⟩ hb
    rw [e] at hno
    exact hno id rfl
  rw [or_iff_left hno', ← show _ ↔ NoFixed k.width.toNat p.cursor.rest f from fails_read _ p.cursor hm.on f]
  unfold Parser.step
  rw [StM.bind_ok (show StM.get p = (.ok p, p) from rfl), if_neg hx, StM.bind_ok (scope_apply hm.toMatch), hm.width, failing_onCursor]
  refine or_iff_left ?_
  rintro ⟨v, c', e, -⟩
  have := congrArg Prod.fst e
  rw [cur_fst] at this
  cases hc : (Cursor.read k.width.toNat p.cursor).1 with
  | ok v => exact hno v hc
  | err => rw [hc] at this; cases this
  | panic => rw [hc] at this; cases this
  | diverge => rw [hc] at this; cases this

/-- A round fails exactly so. At the end of the data it says so. -/
theorem step_fails {pf : Profile} {k : Ctx} {outer : List Ctx} {p : Parser} (hm : At gr k outer p) (f : Failure) :
    (Parser.step pf p).1.Failing f ↔
      p.cursor.rest = [] ∧ f = .error .exhausted ∨ NoItem pf gr.pad k outer (gr.pos p.cursor) p.cursor.rest f := by
  rw [noItem_iff]
  by_cases hr : p.cursor.rest = []
  · have hx := (exhausted_iff_rest (gr.inv hm.on)).2 hr
    have hno : ¬ ∃ id i tail, p.cursor.rest = i ++ tail ∧ idBits k id = some i ∧
        NoBody pf gr.pad k outer (gr.pos p.cursor + i.length) id tail f := by
      rintro ⟨id, i, tail, hb, hi, -⟩
      obtain ⟨h1, -, -, rfl⟩ := idBits_iff.1 hi
      have := congrArg List.length hb
      rw [hr] at this
      simp at this
      omega
    have : Parser.step pf p = (.err .exhausted, p) := by
      unfold Parser.step
      rw [StM.bind_ok (show StM.get p = (.ok p, p) from rfl), if_pos hx]
      rfl
    simp only [this, failing_err, hr, true_and, ne_eq, not_true, false_and, false_or]
    rw [hr] at hno
    simp only [hno, or_false]
  · simp only [hr, false_and, false_or, ne_eq, not_false_eq_true, true_and]
    match hread : Cursor.read k.width.toNat p.cursor with
    | (.ok id, c₁) =>
      obtain ⟨i, ⟨w1, w2, hlt, hib⟩, r₁, m₁⟩ := (exact_read _).sound hm.on hread
      have hi : idBits k id = some i := idBits_iff.2 ⟨w1, w2, hlt, hib⟩
      have hm₁ : At gr k outer (at' p c₁) := ⟨hm.toMatch.at' m₁.on, hm.widths⟩
      rw [step_of_id hm hread, dispatch_fails hm₁ hlt]
      have hnf : ¬ NoFixed k.width.toNat p.cursor.rest f := by
        rw [← show _ ↔ NoFixed k.width.toNat p.cursor.rest f from fails_read _ p.cursor hm.on f, cur_fst, hread]
        simp [Out.mapErr]
      rw [or_iff_right hnf]
      have e : (at' p c₁).cursor = c₁ := rfl
      rw [e, m₁.tell]
      constructor
      · exact fun h => ⟨id, i, _, r₁, hi, h⟩
      · rintro ⟨id', i', tail, hb, hi', h⟩
        obtain ⟨-, -, hlt', hib'⟩ := idBits_iff.1 hi'
        rw [r₁] at hb
        obtain ⟨e1, e2⟩ := List.append_inj hb (by rw [hib, hib']; simp)
        subst e1 e2
        have : id = id' := by
          apply BitVec.eq_of_toNat_eq
          have := congrArg natOfBits (hib.symm.trans hib')
          rwa [natOfBits_bitsOfNat_of_lt hlt, natOfBits_bitsOfNat_of_lt hlt'] at this
        rw [this]
        exact h
    | (.err x, c₁) => exact stepRead hm hr (by rw [hread]; simp)
    | (.panic x, c₁) => exact stepRead hm hr (by rw [hread]; simp)
    | (.diverge, c₁) => exact stepRead hm hr (by rw [hread]; simp)

end Verif
