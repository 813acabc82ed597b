import Verif.Props.ModuleVerdict
import Verif.Props.Content
import Verif.Props.ErrorCases

/-! C67: what mapping ends in if several things are wrong with the input: files. -/

namespace Verif
open Spec

/-! ## The blocks of a stream are determined -/

theorem run_unique {pf : Profile} {b b₁ b₁' b₂ b₂' : Bitstream} {es es' : List StreamEntry} {r r' : Bitstream.Next}
    (h : iterate pf es.length b = (es.map .item, b₁)) (hn : Bitstream.next pf b₁ = (r, b₂)) (hr : ∀ e, r ≠ .item e)
    (h' : iterate pf es'.length b = (es'.map .item, b₁')) (hn' : Bitstream.next pf b₁' = (r', b₂')) (hr' : ∀ e, r' ≠ .item e) :
    es = es' ∧ r = r' := by
  induction es generalizing es' b with
  | nil =>
    simp only [List.length_nil, iterate, Prod.mk.injEq] at h
    obtain ⟨-, rfl⟩ := h
    cases es' with
    | nil =>
      simp only [List.length_nil, iterate, Prod.mk.injEq] at h'
      obtain ⟨-, rfl⟩ := h'
      cases hn.symm.trans hn'
      exact ⟨rfl, rfl⟩
    | cons e' es' =>
      simp only [List.length_cons, iterate, List.map_cons, Prod.mk.injEq, List.cons.injEq] at h'
      rw [hn] at h'
      exact absurd h'.1.1 (hr e')
  | cons e es ih =>
    simp only [List.length_cons, iterate, List.map_cons, Prod.mk.injEq, List.cons.injEq] at h
    cases es' with
    | nil =>
      simp only [List.length_nil, iterate, Prod.mk.injEq] at h'
      obtain ⟨-, rfl⟩ := h'
      rw [hn'] at h
      exact absurd h.1.1 (hr' e)
    | cons e' es' =>
      simp only [List.length_cons, iterate, List.map_cons, Prod.mk.injEq, List.cons.injEq] at h'
      obtain ⟨⟨h1, h2⟩, h3⟩ := h
      obtain ⟨⟨h1', h2'⟩, h3'⟩ := h'
      obtain ⟨rfl, rfl⟩ := ih (b := (Bitstream.next pf b).2) (Prod.ext h2 h3) (Prod.ext h2' h3')
      cases h1.symm.trans h1'
      exact ⟨rfl, rfl⟩

/-- The bytes determine the complete blocks, the open ones and what comes next. -/
theorem begins_unique {pf : Profile} {bytes : List U8} {tops tops' P P' : List (BBlock × Forest)} {r r' : Bitstream.Next}
    (h : Begins pf bytes tops P r) (h' : Begins pf bytes tops' P' r') : tops = tops' ∧ P = P' ∧ r = r' := by
  obtain ⟨w, b, b₁, b₂, es, h1, h2, h3, h4, h5⟩ := h
  obtain ⟨w', b', b₁', b₂', es', h1', h2', h3', h4', h5'⟩ := h'
  cases h1.symm.trans h1'
  obtain ⟨he, hr⟩ := run_unique h3 h4 h5 h3' h4' h5'
  subst h2 h2'
  obtain ⟨ht, hP⟩ := entries_unique he
  exact ⟨ht, hP, hr⟩

/-! ## The order of the top-level blocks -/

theorem takeWhile_any {α : Type} (p q : α → Bool) (l : List α) : (l.takeWhile p).any q = true ↔
    ∃ a d b, l = a ++ d :: b ∧ (∀ x ∈ a, p x = true) ∧ p d = true ∧ q d = true := by
  induction l with
  | nil => simp
  | cons x l ih =>
    rw [List.takeWhile_cons]
    cases hx : p x with
    | false =>
      simp only [Bool.false_eq_true, if_false, List.any_nil, false_iff]
      rintro ⟨a, d, b, he, h1, h2, h3⟩
      cases a with
      | nil => cases he; rw [hx] at h2; cases h2
      | cons y a => cases he; have := h1 x (by simp); rw [hx] at this; cases this
    | true =>
      simp only [if_true, List.any_cons, Bool.or_eq_true, ih]
      constructor
      · rintro (h | ⟨a, d, b, rfl, h1, h2, h3⟩)
        · exact ⟨[], x, l, rfl, by simp, hx, h⟩
        · exact ⟨x :: a, d, b, rfl, List.forall_mem_cons.2 ⟨hx, h1⟩, h2, h3⟩
      · rintro ⟨a, d, b, he, h1, h2, h3⟩
        cases a with
        | nil => cases he; exact .inl h3
        | cons y a =>
          cases he
          exact .inr ⟨a, d, b, rfl, (List.forall_mem_cons.1 h1).2, h2, h3⟩

theorem each_mem {α β : Type} {P Q : α → β → Prop} {l : List α} {m : List β} (h : Each P l m)
    (hPQ : ∀ a b, a ∈ l → b ∈ m → P a b → Q a b) : Each Q l m :=
  ⟨h.1, fun i a b ha hb => hPQ a b (List.mem_of_getElem? ha) (List.mem_of_getElem? hb) (h.2 i a b ha hb)⟩

theorem each_map {α β γ : Type} {P : α → β → Prop} {f : α → γ} {g : β → γ} (hfg : ∀ a b, P a b → g b = f a) {l : List α}
    {m : List β} (h : Each P l m) : m.map g = l.map f := by
  induction l generalizing m with
  | nil => rw [each_nil_left.1 h]; rfl
  | cons a l ih =>
    obtain ⟨b, m, rfl, h1, h2⟩ := each_cons_left.1 h
    rw [List.map_cons, List.map_cons, hfg _ _ h1, ih h2]

theorem top_iff {pre : List (BBlock × Forest)} {upre : List UBlock} (h : Each StandsFor pre upre) {c : BBlock × Forest} {u : UBlock}
    (hu : StandsFor c u) (b : Bad MapperError) : TopBad pre c b ↔ ∃ m, offence upre u = some m ∧ b = .error (.unroll m) := by
  have hmap : upre.map (fun v => (isIdentification v, isModule v)) =
      pre.map (fun d => (d.1.blockId == 13, d.1.blockId == 8)) :=
    each_map (fun a v hav => by rw [hav.kinds.1, hav.kinds.2.1]) h
  have hall : (upre.all fun v => !isIdentification v) = true ↔ ∀ d ∈ pre, d.1.blockId ≠ 13 := by
    rw [show (upre.all fun v => !isIdentification v) = (upre.map (fun v => (isIdentification v, isModule v))).all (fun x => !x.1) by
      simp [List.all_map, Function.comp_def], hmap]
    simp
  have hany : ((upre.reverse.takeWhile fun v => !isIdentification v).any isModule) = true ↔
      ∃ a d between, pre = a ++ d :: between ∧ d.1.blockId = 8 ∧ ∀ x ∈ between, x.1.blockId ≠ 13 := by
    rw [show ((upre.reverse.takeWhile fun v => !isIdentification v).any isModule) =
      (((upre.map (fun v => (isIdentification v, isModule v))).reverse.takeWhile fun x => !x.1).any (·.2)) by
        simp [← List.map_reverse, List.takeWhile_map, List.any_map, Function.comp_def], hmap]
    simp only [← List.map_reverse, List.takeWhile_map, List.any_map, Function.comp_def]
    rw [takeWhile_any]
    constructor
    · rintro ⟨a, d, b, he, h1, h2, h3⟩
      refine ⟨b.reverse, d, a.reverse, ?_, by simpa using h3, fun x hx => ?_⟩
      · rw [← List.reverse_inj, he]; simp
      · simpa using h1 x (by simpa using hx)
    · rintro ⟨a, d, b, he, h1, h2⟩
      refine ⟨b.reverse, d, a.reverse, by rw [he]; simp, fun x hx => ?_, by simp [h1], by simp [h1]⟩
      simpa using h2 x (by simpa using hx)
  have hin : c.1.blockId.toNat ∈ [8, 13, 23, 25] ↔ c.1.blockId = 8 ∨ c.1.blockId = 13 ∨ c.1.blockId = 23 ∨ c.1.blockId = 25 := by
    simp only [List.mem_cons, List.not_mem_nil, or_false]
    rw [BitVec.toNat_eq, BitVec.toNat_eq, BitVec.toNat_eq, BitVec.toNat_eq]
    rfl
  suffices hj : Judges (match offence upre u with
      | none => .ok ()
      | some m => .err (.unroll m) : Out MapperError Unit) (TopBad pre c) by
    rw [← hj b]
    cases offence upre u with
    | none => simp [ok_ends]
    | some m => simp [err_ends]
  unfold TopBad offence
  simp only [hu.kinds.1, hu.kinds.2.1, hu.kinds.2.2.1, hu.kinds.2.2.2, hu.id]
  by_cases h8 : c.1.blockId = 8
  · refine judges_skip (fun b hb => hb.1 (hin.2 (.inl h8))) ?_
    rw [if_pos (beq_iff_eq.2 h8)]
    by_cases hA : ∀ d ∈ pre, d.1.blockId ≠ 13
    · rw [if_pos (hall.2 hA)]
      exact judges_found (b := .error (.unroll .moduleWithoutIdentification)) (fun b => by
        rw [err_ends]; exact ⟨fun hb => ⟨⟨h8, hA⟩, hb⟩, fun hb => hb.2⟩) rfl
    · refine judges_skip (fun b hb => hA hb.1.2) ?_
      rw [if_neg fun hx => hA (hall.1 hx)]
      by_cases hC : ∃ a d between, pre = a ++ d :: between ∧ d.1.blockId = 8 ∧ ∀ x ∈ between, x.1.blockId ≠ 13
      · rw [if_pos (hany.2 hC)]
        exact judges_found (b := .error (.unroll .adjacentModules)) (fun b => by
          rw [err_ends]; exact ⟨fun hb => ⟨⟨h8, hC⟩, hb⟩, fun hb => hb.2⟩) rfl
      · rw [if_neg fun hx => hC (hany.1 hx)]
        exact judges_skip (fun b hb => hC hb.1.2) judges_ok
  · rw [if_neg fun hx => h8 (beq_iff_eq.1 hx)]
    by_cases hk : c.1.blockId = 13 ∨ c.1.blockId = 23 ∨ c.1.blockId = 25
    · rw [if_pos (by simpa [or_assoc] using hk)]
      exact judges_skip (fun b hb => hb.1 (hin.2 (.inr hk))) (judges_skip (fun b hb => h8 hb.1.1)
        (judges_skip (fun b hb => h8 hb.1.1) judges_ok))
    · rw [if_neg (by simpa [or_assoc] using hk)]
      exact judges_found (b := .error (.unroll (.unexpectedTopLevel (.ofU64 c.1.blockId)))) (fun b => by
        rw [err_ends]; exact ⟨fun hb => ⟨fun hx => (hin.1 hx).elim h8 hk, hb⟩, fun hb => hb.2⟩) rfl

theorem each_take {α β : Type} {P : α → β → Prop} {l : List α} {m : List β} (h : Each P l m) (n : Nat) :
    Each P (l.take n) (m.take n) := by
  refine ⟨by simp [h.1], fun i a b ha hb => h.2 i a b ?_ ?_⟩
  · rw [List.getElem?_take] at ha
    split at ha
    · exact ha
    · cases ha
  · rw [List.getElem?_take] at hb
    split at hb
    · exact hb
    · cases hb

theorem topAt_iff {tops : List (BBlock × Forest)} {us : List UBlock} (h : Each StandsFor tops us) {i : Nat} {u : UBlock}
    (hi : us[i]? = some u) (b : Bad MapperError) :
    (∃ c, tops[i]? = some c ∧ TopBad (tops.take i) c b) ↔ ∃ m, offence (us.take i) u = some m ∧ b = .error (.unroll m) := by
  have hlt : i < tops.length := by rw [← h.1]; exact (List.getElem?_eq_some_iff.1 hi).1
  have hc := List.getElem?_eq_getElem hlt
  rw [← top_iff (each_take h i) (h.2 i _ u hc hi)]
  constructor
  · rintro ⟨c, hc', h⟩
    cases hc.symm.trans hc'
    exact h
  · intro h; exact ⟨_, hc, h⟩

theorem tops_none {tops : List (BBlock × Forest)} {us : List UBlock} (h : Each StandsFor tops us) (ho : Orderly us)
    (b : Bad MapperError) : ¬ TopsBad tops b := by
  unfold TopsBad
  rw [all_iff]
  rintro ⟨pre, i, post, he, -, hb⟩
  have hi : i < us.length := by
    have : i ∈ List.range tops.length := by rw [he]; simp
    rw [h.1]; exact List.mem_range.1 this
  rw [topAt_iff h (List.getElem?_eq_getElem hi)] at hb
  obtain ⟨m, hm, -⟩ := hb
  rw [ho (us.take i) us[i] (us.drop (i + 1)) (by simp)] at hm
  cases hm

theorem tops_some {tops : List (BBlock × Forest)} {us : List UBlock} (h : Each StandsFor tops us) {pre post : List UBlock}
    {u : UBlock} {m : UnrollMsg} (he : us = pre ++ u :: post) (ho : Orderly pre) (hm : offence pre u = some m)
    (b : Bad MapperError) : TopsBad tops b ↔ b = .error (.unroll m) := by
  have hex : TopsBad tops (.error (.unroll m)) := by
    unfold TopsBad
    rw [all_iff]
    have hlen : tops.length = us.length := h.1.symm
    refine ⟨List.range pre.length, pre.length, (List.range post.length).map (pre.length + 1 + ·), ?_, fun i hi y hb => ?_, ?_⟩
    · rw [hlen, he, List.length_append, List.length_cons, List.range_add, List.range_succ_eq_map]
      simp [Function.comp_def, Nat.add_assoc, Nat.add_comm 1]
    · have hi := List.mem_range.1 hi
      have hui : us[i]? = some pre[i] := by rw [he, List.getElem?_append_left hi]; simp
      rw [topAt_iff h hui] at hb
      obtain ⟨m', hm', -⟩ := hb
      rw [he, List.take_append_of_le_length (by omega),
        ho (pre.take i) pre[i] (pre.drop (i + 1)) (by simp)] at hm'
      cases hm'
    · rw [topAt_iff h (u := u) (by rw [he]; simp)]
      refine ⟨m, ?_, rfl⟩
      rw [he, List.take_left]; exact hm
  refine ⟨fun hb => ?_, fun hb => hb ▸ hex⟩
  unfold TopsBad at hb hex
  rw [all_iff] at hb hex
  obtain ⟨p1, i1, q1, e1, n1, b1⟩ := hb
  obtain ⟨p2, i2, q2, e2, n2, b2⟩ := hex
  have hi1 : i1 = p1.length := by
    have : (List.range tops.length)[p1.length]? = some i1 := by rw [e1]; simp
    rw [List.getElem?_range (by have := congrArg List.length e1; simp at this; omega)] at this
    exact (Option.some.inj this).symm
  have hi2 : i2 = p2.length := by
    have : (List.range tops.length)[p2.length]? = some i2 := by rw [e2]; simp
    rw [List.getElem?_range (by have := congrArg List.length e2; simp at this; omega)] at this
    exact (Option.some.inj this).symm
  have hmem : ∀ {p q : List Nat} {i j : Nat}, List.range tops.length = p ++ i :: q → i = p.length → j < i → j ∈ p := by
    intro p q i j he hi hj
    have hx : (List.range tops.length)[j]? = some p[j] := by
      rw [he, List.getElem?_append_left (by omega), List.getElem?_eq_getElem]
    rw [List.getElem?_range (by have := congrArg List.length he; simp at this; omega)] at hx
    rw [Option.some.inj hx]
    exact List.getElem_mem _
  rcases Nat.lt_trichotomy i1 i2 with hlt | heq | hgt
  · exact absurd b1 (n2 i1 (hmem e2 hi2 hlt) b)
  · subst heq
    have hlt : i1 < us.length := by
      have : i1 ∈ List.range tops.length := by rw [e1]; simp
      rw [h.1]; exact List.mem_range.1 this
    rw [topAt_iff h (List.getElem?_eq_getElem hlt)] at b1 b2
    obtain ⟨m1, h1, rfl⟩ := b1
    obtain ⟨m2, h2, h3⟩ := b2
    rw [h3]
    cases h1.symm.trans h2
    rfl
  · exact absurd b2 (n1 i2 (hmem e1 hi1 hgt) _)

/-! ## Files -/

theorem parts_judges (pf : Profile) (target : Str) {p : Parts (BBlock × Forest)} {q : PartialModule}
    (hs : ∀ c bs, p.strtab = some c → TableSays pf c.2.records bs → bs.length < 2 ^ 64)
    (hi : StandsFor p.identification q.identification)
    (hm : OptEach StandsFor p.module q.module) (hst : OptEach StandsFor p.strtab q.strtab)
    (hsy : OptEach StandsFor p.symtab q.symtab) : Judges (q.reify pf target) (PartsBad pf p) := by
  have hnone : ∀ {o : Option (BBlock × Forest)} {o' : Option UBlock}, OptEach StandsFor o o' → (o' = none ↔ o = none) := by
    intro o o' h
    cases o <;> cases o' <;> simp [OptEach] at h ⊢
  unfold PartialModule.reify PartsBad
  refine (judges_ofOption (hnone hst)).bind fun sb hsb => ?_
  rw [ofOption_eq_ok] at hsb
  rw [hsb] at hst
  obtain ⟨sc, hsc, hss⟩ := optEach_some hst
  rw [hsc]
  refine Judges.bind ?_ fun strtab hstr => ?_
  · refine (C67_strtab pf sb).mapErr.congr fun b => ?_
    rw [hss.records]
    exact ⟨fun h => ⟨sc, rfl, h⟩, fun ⟨c, h1, h2⟩ => by cases h1; exact h2⟩
  rw [Out.mapErr_eq_ok] at hstr
  have hsay := (strtab_says pf hss strtab).1 hstr
  refine Judges.bind ?_ fun _ _ => ?_
  · refine (C67_identification pf q.identification).mapErr.congr fun b => ?_
    rw [hi.records]
  refine (judges_ofOption (hnone hm)).bind fun mb hmb => ?_
  rw [ofOption_eq_ok] at hmb
  rw [hmb] at hm
  obtain ⟨mc, hmc, hms⟩ := optEach_some hm
  rw [hmc]
  refine Judges.bind ?_ fun _ _ => judges_one ?_
  · have hj : Judges (Module.tryFrom pf target mb { PartialMapCtx.default with strtab }) (ModuleBad pf strtab mc.2) :=
      C67_module pf target hms strtab (hs sc _ hsc hsay)
    refine hj.mapErr.congr fun b => ?_
    constructor
    · intro h; exact ⟨sc, strtab.bytes, mc, rfl, hsay, rfl, h⟩
    · rintro ⟨c, bytes, d, h1, h2, h3, h4⟩
      cases h1; cases h3
      have h2 : TableSays pf sc.2.records (⟨bytes⟩ : Strtab).bytes := h2
      rw [← strtab_says pf hss] at h2
      cases hstr.symm.trans h2
      exact h4
  refine Judges.andThen ?_
  cases hq : q.symtab with
  | none =>
    rw [hq] at hsy
    rw [(hnone hsy).1 rfl]
    intro b
    exact ⟨fun h => (ok_ends h).elim, fun ⟨c, h, _⟩ => by cases h⟩
  | some sy =>
    rw [hq] at hsy
    obtain ⟨x, hx, hxs⟩ := optEach_some hsy
    rw [hx]
    unfold optSymtab
    refine Judges.congr (Judges.mapErr (C67_symtab pf sy).andThen) fun b => ?_
    rw [hxs.records]
    exact ⟨fun h => ⟨x, rfl, h⟩, fun ⟨c, h1, h2⟩ => by cases h1; exact h2⟩

/-- C67, for files: what mapping bytes ends in, unless they are mapped, is what the first check finds that finds anything. -/
theorem C67_file (pf : Profile) (target : Str) (bytes : List U8) (hlen : bytes.length ≤ 2 ^ 61) (bad : Bad MapperError) :
    (Bitcode.tryFrom pf target bytes).Ends bad ↔ FileBad pf bytes bad := by
  unfold Bitcode.tryFrom FileBad
  cases hfrom : Bitstream.from pf bytes with
  | err e =>
    show (Out.err (.parse e) : Out MapperError Bitcode).Ends bad ↔ _
    rw [err_ends]
    constructor
    · rintro rfl; exact .inl ⟨e, rfl, rfl⟩
    · rintro (⟨e', h, rfl⟩ | ⟨tops, P, r, ⟨w, b, b₁, b₂, es, h, -⟩, -⟩)
      · cases h; rfl
      · rw [hfrom] at h; cases h
  | panic p => exact absurd hfrom (Props.C23_open_no_panic pf bytes p).2.2
  | diverge => exact absurd hfrom (from_terminates pf bytes)
  | ok wb =>
    obtain ⟨w, b⟩ := wb
    obtain ⟨tops, P, us, r, b₁, b₂, ⟨es, hes, hit⟩, hn, hne, hnd, hlen', hun, hok, herr⟩ := C28_unroll pf (.auto hfrom)
    have hbeg : Begins pf bytes tops P r := ⟨w, b, b₁, b₂, es, hfrom, hes, hit, hn, hne⟩
    have hs : Each StandsFor tops us := ⟨hlen', hun⟩
    suffices hj : Judges (Bitcode.ofStream pf target b) (First [TopsBad tops, EndBad r,
        fails (P ≠ []) (.unroll .unexpectedEnd), All (PartsBad pf) (parts tops)]) by
      refine (hj bad).trans ⟨fun h => .inr ⟨tops, P, r, hbeg, h⟩, ?_⟩
      rintro (⟨e, h, -⟩ | ⟨tops', P', r', hbeg', h⟩)
      · cases h
      · obtain ⟨rfl, rfl, rfl⟩ := begins_unique hbeg hbeg'
        exact h
    unfold Bitcode.ofStream
    rcases orderly_or us with ho | ⟨pre, u, post, m, he, ho, hm⟩
    · refine judges_skip (tops_none hs ho) ?_
      rw [hok ho]
      cases r with
      | item x => exact absurd rfl (hne x)
      | diverge => exact absurd rfl hnd
      | panic p =>
        refine judges_found (b := .stop (.panic p)) (fun b => ?_) rfl
        show (Out.panic p : Out _ _).Ends b ↔ _
        rw [panic_ends]
        simp [EndBad]
      | error x =>
        refine judges_found (b := .error (.parse x)) (fun b => ?_) rfl
        show (Out.err (.parse x) : Out _ _).Ends b ↔ _
        rw [err_ends]
        simp [EndBad]
      | done =>
        refine judges_skip (fun b h => by rcases h with ⟨_, h, _⟩ | ⟨_, h, _⟩ <;> cases h) ?_
        unfold ending
        by_cases hP : P = []
        · subst hP
          simp only [if_true]
          refine judges_skip (fun b h => h.1 rfl) (judges_one ?_)
          show Judges (mapOut (PartialModule.reify pf target) (pairs us) >>= fun ms => .ok (Bitcode.mk ms)) _
          refine Judges.andThen ?_
          have hp := parts_pairs hs
          refine Judges.congr (judges_mapOut (c := fun q b => (q.reify pf target).Ends b) fun q _ b => Iff.rfl) fun x => ?_
          refine all_congr (each_mem hp.flip fun q p hq hpm h => ?_) x
          obtain ⟨g1, g2, g3, g4⟩ := h
          refine parts_judges pf target (fun c bs hc hbs => ?_) g1 g2 g3 g4
          have hl := from_len hfrom
          have hds : items (iterate pf es.length b).1 = completeEntries tops := by
            rw [hit]
            simp only [hes, openEntries, List.flatMap_nil, List.append_nil]
            exact items_map _
          have := table_small (.auto hfrom) hds (parts_strtab_mem hpm hc) hbs
          omega
        · rw [if_neg hP]
          refine judges_found (b := .error (.unroll .unexpectedEnd)) (fun b => ?_) rfl
          show (Out.err (.unroll .unexpectedEnd) : Out _ _).Ends b ↔ _
          rw [err_ends]
          simp [fails, hP]
    · rw [herr pre u post m he ho hm]
      refine judges_found (b := .error (.unroll m)) (fun b => ?_) rfl
      show (Out.err (.unroll m) : Out _ _).Ends b ↔ _
      rw [err_ends, tops_some hs he ho hm]

/-- C67: bytes are mapped exactly if no check finds anything. -/
theorem C67_accepts (pf : Profile) (target : Str) (bytes : List U8) (hlen : bytes.length ≤ 2 ^ 61) :
    (∃ f, Bitcode.tryFrom pf target bytes = .ok f) ↔ ∀ bad, ¬ FileBad pf bytes bad := by
  constructor
  · rintro ⟨f, hf⟩ bad hb
    exact ((C67_file pf target bytes hlen bad).2 hb).not_ok hf
  · intro h
    rcases (Bitcode.tryFrom pf target bytes).ok_or_ends with hf | ⟨bad, hb⟩
    · exact hf
    · exact absurd ((C67_file pf target bytes hlen bad).1 hb) (h bad)

/-- C67: only one thing is found. -/
theorem C67_unique (pf : Profile) (bytes : List U8) (hlen : bytes.length ≤ 2 ^ 61) {bad bad' : Bad MapperError}
    (h : FileBad pf bytes bad) (h' : FileBad pf bytes bad') : bad = bad' :=
  ((C67_file pf [] bytes hlen bad).2 h).unique ((C67_file pf [] bytes hlen bad').2 h')

/-- C67: the target triple of the crate has no influence on which bytes are mapped, or on what happens to others. -/
theorem C67_target (pf : Profile) (target target' : Str) (bytes : List U8) (hlen : bytes.length ≤ 2 ^ 61) (bad : Bad MapperError) :
    (Bitcode.tryFrom pf target bytes).Ends bad ↔ (Bitcode.tryFrom pf target' bytes).Ends bad :=
  (C67_file pf target bytes hlen bad).trans (C67_file pf target' bytes hlen bad).symm

/-! ## Examples -/

/-- A module without version, with two triples and without types, and then what comes after the string table. -/
def exFaulty (after : Items) : Items :=
  .block 13 5 (.unabbrev 1 [76, 76, 86, 77] (.unabbrev 2 [0] .nil)) <|
  .block 8 3 (.unabbrev 2 [120, 56] <| .unabbrev 2 [120, 56] <| .block 12 3 .nil .nil) <|
  .block 23 3 (.unabbrev 1 [97, 98] .nil) after

/-- A version is looked for first, but a block that does not belong at the top comes before anything in the module. -/
example (pf : Profile) : mapFile pf (exFaulty .nil) =
    some (.err (.map (.module (.map (.inconsistent (.missingRecord 1)))))) ∧
    mapFile pf (exFaulty (.block 7 3 .nil .nil)) = some (.err (.unroll (.unexpectedTopLevel (.ofU64 7)))) := by
  cases pf <;> decide +kernel

/-- So that is what the checks find in such bytes. -/
example (pf : Profile) : ∃ x, streamBytes 0xdec04342 (exFaulty .nil) = some x ∧
    FileBad pf x.1 (.error (.map (.module (.map (.inconsistent (.missingRecord 1)))))) := by
  obtain ⟨x, hx⟩ : ∃ x, streamBytes 0xdec04342 (exFaulty .nil) = some x := Option.isSome_iff_exists.1 (by decide +kernel)
  have hl : (streamBytes 0xdec04342 (exFaulty .nil)).all fun x => decide (x.1.length ≤ 200) := by decide +kernel
  have h : mapFile pf (exFaulty .nil) = some (.err (.map (.module (.map (.inconsistent (.missingRecord 1)))))) := by
    cases pf <;> decide +kernel
  unfold mapFile at h
  rw [hx] at h hl
  refine ⟨x, hx, (C67_file pf "t".toList x.1 ?_ _).1 (Option.some.inj h)⟩
  have := of_decide_eq_true hl
  omega

/-- Several faults of a function: its calling convention, its section and its visibility. The first counts. -/
example (pf : Profile) : FunctionBad pf exampleCtx [0, 4, 1, 3, 0, 3, 0, 5, 7, 9] (.error (.callingConvention 3)) := by
  have h : FunctionRecord.tryMap pf ⟨none, 8, [0, 4, 1, 3, 0, 3, 0, 5, 7, 9]⟩ exampleCtx = .err (.callingConvention 3) := by
    cases pf <;> decide +kernel
  exact (C67_function pf ⟨none, 8, _⟩ exampleCtx (by decide +kernel) _).1 h

/-- An alias with too large a type number and an unknown visibility; a COMDAT with a bad name and an unknown kind. -/
example (pf : Profile) : AliasBad pf exampleCtx [0, 4, 2, 0, 0, 9] (.error (.type 2)) ∧
    ComdatBad pf 2 (utf8 "mainx".toList) [3, 3, 9] (.error (.name .badRange)) := by
  have h : Alias.tryMap pf ⟨none, 14, [0, 4, 2, 0, 0, 9]⟩ exampleCtx = .err (.type 2) := by cases pf <;> decide +kernel
  refine ⟨(C67_alias pf ⟨none, 14, _⟩ exampleCtx (by decide +kernel) _).1 h, ?_⟩
  have h : Comdat.tryMap pf ⟨none, 12, [3, 3, 9]⟩ { PartialMapCtx.default with version := some 2, strtab := ⟨utf8 "mainx".toList⟩ } =
      .err (.name .badRange) := by cases pf <;> decide +kernel
  exact (C67_comdat pf ⟨none, 12, [3, 3, 9]⟩ { PartialMapCtx.default with version := some 2, strtab := ⟨utf8 "mainx".toList⟩ } 2
    rfl (by decide +kernel) (.error (.name .badRange))).1 h

/-- Two checks of a name in the string table, without the theorem: the name is too long, so its characters do not matter. -/
example (pf : Profile) : NameBad pf [255] [0, 2] (.error .badRange) := by
  refine .later (fun x h => absurd h.1 (by decide)) (.later (fun x h => absurd h.1 (by decide)) (.here ⟨by decide, rfl⟩))

/-- A module of nothing has no version. -/
example (pf : Profile) (strtab : Strtab) : ModuleBad pf strtab .nil (.error (.map (.inconsistent (.missingRecord 1)))) :=
  .here ⟨.error (.missingRecord 1), .here ⟨rfl, rfl⟩, rfl⟩

/-- A block of these records. -/
def ofRecords (id : U64) (rs : List BRecord) : UBlock := .mk (.ofU64 id) rs []

/-- A producer that is not a text and no epoch; a value of a string table that is not a byte. -/
example (pf : Profile) : IdentificationBad pf [⟨none, 1, [300]⟩] (.error .badProducer) ∧
    StrtabBad pf [⟨none, 1, [97, 300]⟩] (.error (.badBlob .badByte)) := by
  have h : Identification.tryFrom pf (ofRecords 13 [⟨none, 1, [300]⟩]) = .err .badProducer := by cases pf <;> decide +kernel
  have h' : Strtab.tryFrom pf (ofRecords 23 [⟨none, 1, [97, 300]⟩]) = .err (.badBlob .badByte) := by
    cases pf <;> decide +kernel
  exact ⟨(C67_identification pf (ofRecords 13 _) _).1 h, (C67_strtab pf (ofRecords 23 _) _).1 h'⟩

/-- A body with an unknown instruction after a store of two fields, and no number of blocks. -/
example : BodyBad [] [⟨none, 44, [1, 2]⟩, ⟨none, 99, []⟩] (.error (.map (.inconsistent (.missingRecord 1)))) ∧
    BodyBad [] [⟨none, 1, [1]⟩, ⟨none, 44, [1, 2]⟩, ⟨none, 99, []⟩] (.error (.badInst .instStore (.fields 4 2))) ∧
    BodyBad [] [⟨none, 1, [1]⟩] (.stop (.panic .unimplemented)) := by
  refine ⟨(C67_body (ofRecords 12 _) [] _).1 ?_, (C67_body (ofRecords 12 _) [] _).1 ?_, (C67_body (ofRecords 12 _) [] _).1 ?_⟩
  · exact (by decide +kernel : FunctionBlock.tryFrom (ofRecords 12 [⟨none, 44, [1, 2]⟩, ⟨none, 99, []⟩]) [] =
      .err (.map (.inconsistent (.missingRecord 1))))
  · exact (by decide +kernel : FunctionBlock.tryFrom (ofRecords 12 [⟨none, 1, [1]⟩, ⟨none, 44, [1, 2]⟩, ⟨none, 99, []⟩]) [] =
      .err (.badInst .instStore (.fields 4 2)))
  · exact (by decide +kernel : FunctionBlock.tryFrom (ofRecords 12 [⟨none, 1, [1]⟩]) [] = .panic .unimplemented)

/-- A list of attributes that uses two groups that are not there. -/
example : All (ListBad []) [⟨none, 2, [5, 4]⟩, ⟨none, 7, []⟩] (.error (.badAttributeGroup 5)) :=
  (C67_lists (ofRecords 9 _) [] (by simp [Sorted]) _).1 (by decide +kernel :
    Attributes.tryFrom (ofRecords 9 [⟨none, 2, [5, 4]⟩, ⟨none, 7, []⟩]) [] = .err (.badAttributeGroup 5))

end Verif
