import Verif.Mapper.PairLemmas
import Verif.Mapper.Tables
import Verif.Props.Iteration

/-! C28-C32: unrolling, lookups, strings and the string table. -/

namespace Verif
open Spec

/-! ## C28 -/

/-- C28, with C29. Any opened stream gives complete top-level blocks, then possibly blocks that stay open, and then
something that is not an entry. There is one unrolled block per complete top-level block; each stands for the block's
contents, record by record and sub-block by sub-block to any depth. If the top-level blocks come in order, the result is
the modules with their tables, or what the way the stream ends makes of them; otherwise it is the error for the first
block that is out of order. -/
theorem C28_unroll (pf : Profile) {b : Bitstream} (h : Opened pf b) :
    ∃ (tops stillOpen : List (BBlock × Forest)) (us : List UBlock) (r : Bitstream.Next) (b₁ b₂ : Bitstream),
      (∃ es, es = completeEntries tops ++ openEntries stillOpen ∧ iterate pf es.length b = (es.map .item, b₁)) ∧
      Bitstream.next pf b₁ = (r, b₂) ∧ (∀ e, r ≠ .item e) ∧ r ≠ .diverge ∧
      us.length = tops.length ∧
      (∀ (i : Nat) (c : BBlock × Forest) (u : UBlock), tops[i]? = some c → us[i]? = some u →
        Unrolled c.1.blockId c.2 u) ∧
      (Orderly us → unroll pf b = ending stillOpen r (pairs us)) ∧
      (∀ pre u post m, us = pre ++ u :: post → Orderly pre → offence pre u = some m →
        unroll pf b = .err (.unroll m)) := by
  obtain ⟨h1, h2, -⟩ := h.start
  obtain ⟨es, b₁, r, b₂, g1, g2, g3, g4, g5⟩ := stops (pf := pf) h1
  have hv := iterate_visible (pf := pf) es.length h1
  rw [show b.parser.visible = [] by simp [Parser.visible, h2, Scope.visibleId], g1.iterate] at hv
  have hit : ∀ l : List StreamEntry, items (l.map .item) = l := by
    intro l
    induction l with
    | nil => rfl
    | cons e l ih => simp [items, ih]
  rw [hit] at hv
  obtain ⟨tops, P, hes, -⟩ := nested_decomposes es hv
  have hfuel : (completeEntries tops ++ openEntries P).length < unrollFuel b := by
    rw [← hes]
    have : b.len = b.parser.cursor.bitLen := rfl
    unfold unrollFuel; omega
  have key : unroll pf b = ((unrollBlocks tops).foldlM addTop [] >>= ending P r) :=
    unrollLoop_spec tops (hes ▸ g1) g2 g3 hfuel
  refine ⟨tops, P, unrollBlocks tops, r, b₁, b₂, ⟨es, hes, g1.iterate⟩, g2, g3, g4, by simp [unrollBlocks], ?_, ?_, ?_⟩
  · intro i c u hc hu
    simp only [unrollBlocks, List.getElem?_map, hc, Option.map_some, Option.some.injEq] at hu
    subst hu
    exact addTo_unrolled _ _
  · intro ho
    rw [key, foldl_addTop_ok _ ho]; rfl
  · intro pre u post m he ho hm
    rw [key, he, foldl_addTop_err ho hm]; rfl

/-- C28. If the entries of a stream are those of complete top-level blocks, each is unrolled to a block that stands for it;
nothing else enters the result. -/
theorem C28_complete (pf : Profile) {b : Bitstream} {tops : List (BBlock × Forest)}
    (hd : Delivers pf b (completeEntries tops)) (hl : (completeEntries tops).length < unrollFuel b) :
    ∃ us : List UBlock, us.length = tops.length ∧
      (∀ (i : Nat) (c : BBlock × Forest) (u : UBlock), tops[i]? = some c → us[i]? = some u →
        Unrolled c.1.blockId c.2 u) ∧
      (Orderly us → unroll pf b = .ok (pairs us)) ∧
      (∀ pre u post m, us = pre ++ u :: post → Orderly pre → offence pre u = some m →
        unroll pf b = .err (.unroll m)) := by
  have gd : ∀ (es : List StreamEntry) (b : Bitstream), Delivers pf b es →
      ∃ b₁ b₂, Gives pf b es b₁ ∧ Bitstream.next pf b₁ = (.done, b₂) := by
    intro es
    induction es with
    | nil => rintro b ⟨b', h1, -⟩; exact ⟨b, b', .nil _, h1⟩
    | cons e es ih =>
      rintro b ⟨b', h1, h2⟩
      obtain ⟨b₁, b₂, h3, h4⟩ := ih b' h2
      exact ⟨b₁, b₂, .cons h1 h3, h4⟩
  obtain ⟨b₁, b₂, g1, g2⟩ := gd _ _ hd
  have key : unroll pf b = ((unrollBlocks tops).foldlM addTop [] >>= ending [] .done) :=
    unrollLoop_spec (P := []) tops (by simpa [openEntries] using g1) g2 (by simp) (by simpa [openEntries] using hl)
  refine ⟨unrollBlocks tops, by simp [unrollBlocks], ?_, ?_, ?_⟩
  · intro i c u hc hu
    simp only [unrollBlocks, List.getElem?_map, hc, Option.map_some, Option.some.injEq] at hu
    subst hu
    exact addTo_unrolled _ _
  · intro ho
    rw [key, foldl_addTop_ok _ ho]; rfl
  · intro pre u post m he ho hm
    rw [key, he, foldl_addTop_err ho hm]; rfl

theorem offence_ne_end {pre : List UBlock} {u : UBlock} {m : UnrollMsg} (h : offence pre u = some m) :
    m ≠ .unexpectedEnd ∧ m ≠ .topLevelNonBlock ∧ m ≠ .missingStrtab ∧ m ≠ .missingModule := by
  unfold offence at h
  repeat' split at h
  all_goals simp only [Option.some.injEq, reduceCtorEq] at h
  all_goals subst h; simp

/-- C28, continued: unrolling always ends, and it panics only if the bitstream parser does. -/
theorem C28_terminates (pf : Profile) {b : Bitstream} (h : Opened pf b) :
    unroll pf b ≠ .diverge ∧ ∀ p, unroll pf b = .panic p → StreamPanic pf p := by
  obtain ⟨tops, P, us, r, b₁, b₂, ⟨es, -, hit⟩, hn, hne, hnd, -, -, hok, herr⟩ := C28_unroll pf h
  rcases orderly_or us with ho | ⟨pre, u, post, m, he, ho, hm⟩
  · rw [hok ho]
    have hp : PInv b₁.parser := by
      have := iterate_pinv (pf := pf) es.length h.start.1
      rwa [hit] at this
    cases r with
    | item e => exact absurd rfl (hne e)
    | diverge => exact absurd rfl hnd
    | done => by_cases hP : P = [] <;> simp [ending, hP]
    | error e => simp [ending]
    | panic p =>
      refine ⟨by simp [ending], fun q hq => ?_⟩
      simp only [ending, Out.panic.injEq] at hq
      subst hq
      exact (next_progress (pf := pf) hp).2.2.2.2.2.2 p (by rw [hn])
  · rw [herr pre u post m he ho hm]; simp

/-- C28, continued: the entries a stream gives before it ends inside a block never become a result. -/
theorem C28_truncated (pf : Profile) {b b₁ b₂ : Bitstream} (h : Opened pf b) {es : List StreamEntry}
    (hit : iterate pf es.length b = (es.map .item, b₁)) (hdone : Bitstream.next pf b₁ = (.done, b₂))
    {id : U64} {st : List U64} (hopen : openBlocks [] es = some (id :: st)) :
    (∀ ps, unroll pf b ≠ .ok ps) ∧
    (unroll pf b = .err (.unroll .unexpectedEnd) ∨ ∃ m, m ≠ .unexpectedEnd ∧ unroll pf b = .err (.unroll m)) := by
  obtain ⟨tops, P, us, r, b₁', b₂', ⟨es', hes, hit'⟩, hn, hne, hnd, -, -, hok, herr⟩ := C28_unroll pf h
  -- both runs stop at the same place
  have huniq : ∀ {b c : Bitstream} {l m : List StreamEntry} {x y : Bitstream}, Gives pf b l x → Gives pf b m y →
      (∀ e, (Bitstream.next pf x).1 ≠ .item e) → (∀ e, (Bitstream.next pf y).1 ≠ .item e) → l = m ∧ x = y := by
    intro b c l m x y h1
    induction h1 generalizing m y with
    | nil b =>
      intro h2 hx hy
      cases h2 with
      | nil => exact ⟨rfl, rfl⟩
      | cons h3 h4 => exact absurd (congrArg Prod.fst h3) (hx _)
    | cons h3 h4 ih =>
      intro h2 hx hy
      cases h2 with
      | nil => exact absurd (congrArg Prod.fst h3) (hy _)
      | cons h5 h6 =>
        rw [h3] at h5
        simp only [Prod.mk.injEq, Bitstream.Next.item.injEq] at h5
        obtain ⟨rfl, rfl⟩ := h5
        obtain ⟨rfl, rfl⟩ := ih h6 hx hy
        exact ⟨rfl, rfl⟩
  obtain ⟨rfl, rfl⟩ := huniq (c := b) (gives_of_iterate hit) (gives_of_iterate hit') (by simp [hdone])
    (by simp only [hn]; exact hne)
  rw [hdone] at hn
  simp only [Prod.mk.injEq] at hn
  obtain ⟨rfl, rfl⟩ := hn
  have hP : P ≠ [] := by
    rintro rfl
    have hc : ∀ (t : Forest) (st : List U64) (l : List StreamEntry), st ≠ [] →
        openBlocks st (t.entries ++ l) = openBlocks st l := by
      intro t
      induction t with
      | nil => intro st l _; rfl
      | record r rest ih =>
        intro st l hs
        cases st with
        | nil => exact absurd rfl hs
        | cons a st => simp only [Forest.entries, List.cons_append, openBlocks]; exact ih _ _ hs
      | block s body rest ihb ihr =>
        intro st l hs
        simp only [Forest.entries, List.cons_append, openBlocks, List.append_assoc]
        rw [ihb _ _ (by simp)]
        simp only [openBlocks]
        exact ihr _ _ hs
    have : ∀ l : List (BBlock × Forest), openBlocks [] (completeEntries l) = some [] := by
      intro l
      induction l with
      | nil => rfl
      | cons c l ih =>
        rw [show completeEntries (c :: l) = .subBlock c.1 :: (c.2.entries ++ .endBlock :: completeEntries l) by
          simp [completeEntries]]
        simp only [openBlocks]
        rw [hc _ _ _ (by simp)]
        exact ih
    rw [hes] at hopen
    simp [openEntries, this] at hopen
  rcases orderly_or us with ho | ⟨pre, u, post, m, he, ho, hm⟩
  · rw [hok ho]
    simp [ending, hP]
  · rw [herr pre u post m he ho hm]
    simp only [ne_eq, reduceCtorEq, not_false_eq_true, implies_true, true_and]
    exact .inr ⟨m, (offence_ne_end hm).1, rfl⟩

/-- C28, continued: whatever the bytes, the stream never gives a record or an end outside any block, so that error of
`unroll` does not occur. -/
theorem C28_only_blocks_at_top (pf : Profile) {b : Bitstream} (h : Opened pf b) :
    unroll pf b ≠ .err (.unroll .topLevelNonBlock) := by
  obtain ⟨tops, P, us, r, b₁, b₂, -, -, -, -, -, -, hok, herr⟩ := C28_unroll pf h
  rcases orderly_or us with ho | ⟨pre, u, post, m, he, ho, hm⟩
  · rw [hok ho]
    cases r <;> simp [ending]
    split <;> simp
  · rw [herr pre u post m he ho hm]
    simp [(offence_ne_end hm).2.1]

/-- A stream for C28: an identification block, a module block with two sub-blocks of the same id around another one, with
records in between, and a string table. -/
def exUnroll : Items :=
  .block 13 5 (.unabbrev 1 [76, 76] (.unabbrev 2 [0] .nil)) <|
  .block 8 3 (.unabbrev 1 [2] <|
    .block 12 4 (.unabbrev 7 [] (.block 12 4 (.unabbrev 8 [] .nil) .nil)) <|
    .unabbrev 2 [120, 56, 54] <|
    .block 17 4 .nil <|
    .block 12 4 (.unabbrev 9 [] .nil) .nil) <|
  .block 23 3 (.unabbrev 1 [97, 98] .nil) .nil

/-- What can be seen of a module by lookups under the ids used above, two levels deep. -/
structure ModShape where
  id : Option BlockId
  codes : List U64
  functions : List (List U64)
  nested : List (List (List U64))
  strtab : Bool
  symtab : Bool
deriving DecidableEq

def modShape (p : PartialModule) : ModShape :=
  let m := p.module.getD p.identification
  let fs := Blocks.byId m.blocks (.ir .function)
  { id := p.module.map (·.id), codes := m.records.map (·.code), functions := fs.map (·.records.map (·.code)),
    nested := fs.map fun v => (Blocks.byId v.blocks (.ir .function)).map (·.records.map (·.code)),
    strtab := p.strtab.isSome, symtab := p.symtab.isSome }

def unrollShape (pf : Profile) (bytes : List U8) : Out UErr (List ModShape) :=
  match Bitstream.fromRaw bytes with
  | .ok b => unroll pf b >>= fun ps => .ok (ps.map modShape)
  | _ => .diverge

example (pf : Profile) : ((streamBytes 0xdec04342 exUnroll).map fun x => unrollShape pf x.1) =
    some (.ok [⟨some (.ir .module), [1, 2], [[7], [9]], [[[8]], []], true, false⟩]) := by
  cases pf <;> decide +kernel

/-- The same stream cut off inside the second block, and one with a module first. -/
example (pf : Profile) : ((streamBytes 0xdec04342 exUnroll).map fun x => unrollShape pf (x.1.take 60)) =
    some (.err (.unroll .unexpectedEnd)) := by
  cases pf <;> decide +kernel

example (pf : Profile) : ((streamBytes 0xdec04342 (.block 8 3 .nil .nil)).map fun x => unrollShape pf x.1) =
    some (.err (.unroll .moduleWithoutIdentification)) := by
  cases pf <;> decide +kernel

/-! ## C29 -/

/-- C29. Complete top-level blocks in order become one entry per identification block, in order, with its module, and the
first string and symbol table after it (`pairs`). -/
theorem C29_pairing (pf : Profile) {b : Bitstream} (h : Opened pf b) {ps : List PartialModule} (hok : unroll pf b = .ok ps) :
    ∃ (tops : List (BBlock × Forest)) (us : List UBlock), Delivers pf b (completeEntries tops) ∧
      us.length = tops.length ∧
      (∀ (i : Nat) (c : BBlock × Forest) (u : UBlock), tops[i]? = some c → us[i]? = some u →
        Unrolled c.1.blockId c.2 u) ∧
      Orderly us ∧ ps = pairs us := by
  obtain ⟨tops, P, us, r, b₁, b₂, ⟨es, hes, hit⟩, hn, hne, hnd, hlen, hun, hord, herr⟩ := C28_unroll pf h
  rcases orderly_or us with ho | ⟨pre, u, post, m, he, ho, hm⟩
  · rw [hord ho] at hok
    cases r with
    | item e => exact absurd rfl (hne e)
    | diverge => exact absurd rfl hnd
    | error e => simp [ending] at hok
    | panic p => simp [ending] at hok
    | done =>
      simp only [ending] at hok
      split at hok
      · next hP =>
        simp only [Out.ok.injEq] at hok
        subst hP
        have hg := gives_of_iterate hit
        have hp1 : PInv b₁.parser := by
          have := iterate_pinv (pf := pf) es.length h.start.1
          rwa [hit] at this
        refine ⟨tops, us, ?_, hlen, hun, ho, hok.symm⟩
        rw [show completeEntries tops = es by simp [hes, openEntries]]
        clear hit hes
        have hd : Delivers pf b₁ [] := by
          refine ⟨b₂, hn, ?_⟩
          rcases next_cases (pf := pf) hp1 with ⟨-, -, hx⟩ | ⟨hx, -⟩ | ⟨hx, -⟩
          · rw [hn] at hx; exact hx
          · rw [hn] at hx; simp at hx
          · rw [hn] at hx; exact absurd rfl hx
        clear hord herr hlen hun h hn hp1
        induction hg with
        | nil => exact hd
        | cons h1 h2 ih => exact ⟨_, h1, ih hd⟩
      · simp at hok
  · rw [herr pre u post m he ho hm] at hok
    simp at hok

/-- What `Orderly` excludes: each of these, after blocks that are in order, is an error. -/
theorem C29_errors {pre : List UBlock} {u : UBlock} :
    (u.id = .ir .module → (∀ v ∈ pre, v.id ≠ .ir .identification) →
      offence pre u = some .moduleWithoutIdentification) ∧
    (∀ a i m c, pre = a ++ i :: (m ++ c) → u.id = .ir .module → i.id = .ir .identification →
      (∀ v ∈ m ++ c, v.id ≠ .ir .identification) → (∃ v ∈ m, v.id = .ir .module) →
      offence pre u = some .adjacentModules) ∧
    (u.id ≠ .ir .identification → u.id ≠ .ir .module → u.id ≠ .ir .strtab → u.id ≠ .ir .symtab →
      offence pre u = some (.unexpectedTopLevel u.id)) ∧
    (u.id = .ir .identification ∨ u.id = .ir .strtab ∨ u.id = .ir .symtab → offence pre u = none) := by
  refine ⟨fun hu hp => ?_, fun a i m c hpre hu hi hno hm => ?_, fun h1 h2 h3 h4 => ?_, fun h => ?_⟩
  · unfold offence
    rw [if_pos (by simp [isModule, hu]), if_pos (by simpa [isIdentification] using hp)]
  · unfold offence
    subst hpre
    rw [if_pos (by simp [isModule, hu]), if_neg (by simp [isIdentification, hi]), if_pos]
    obtain ⟨v, hv, hvm⟩ := hm
    rw [List.reverse_append, List.reverse_cons, List.append_assoc, List.singleton_append]
    rw [List.takeWhile_append_of_pos (by
      intro x hx
      have := hno x (by simpa [or_comm] using hx)
      simp [isIdentification, this])]
    rw [List.any_eq_true]
    exact ⟨v, by simp [hv], by simp [isModule, hvm]⟩
  · rcases id_cases u with ⟨-, -, -, -, h5⟩ | ⟨-, -, -, -, h5⟩ | ⟨-, -, -, -, h5⟩ | ⟨-, -, -, -, h5⟩ |
      ⟨g1, g2, g3, g4, -⟩
    · exact absurd h5 h1
    · exact absurd h5 h2
    · exact absurd h5 h3
    · exact absurd h5 h4
    · simp [offence, g1, g2, g3, g4]
  · unfold offence
    rcases h with h | h | h <;> simp [isModule, isIdentification, isStrtab, isSymtab, h]

/-- What `pairs` gives for an identification block: the spec's own reading in terms of positions. -/
theorem C29_tables (pre post : List UBlock) (i : UBlock) (hi : i.id = .ir .identification) :
    ∃ before p after, pairs (pre ++ i :: post) = before ++ p :: after ∧
      before.length = pre.countP isIdentification ∧ p.identification = i ∧
      (∀ a t c, post = a ++ t :: c → t.id = .ir .strtab → (∀ v ∈ a, v.id ≠ .ir .strtab) → p.strtab = some t) ∧
      ((∀ v ∈ post, v.id ≠ .ir .strtab) → p.strtab = none) ∧
      (∀ a t c, post = a ++ t :: c → t.id = .ir .symtab → (∀ v ∈ a, v.id ≠ .ir .symtab) → p.symtab = some t) ∧
      ((∀ v ∈ post, v.id ≠ .ir .symtab) → p.symtab = none) ∧
      (∀ a m c, post = a ++ m :: c → m.id = .ir .module →
        (∀ v ∈ a, v.id ≠ .ir .module ∧ v.id ≠ .ir .identification) → p.module = some m) := by
  induction pre with
  | cons v pre ih =>
    obtain ⟨before, p, after, h1, h2, h3⟩ := ih
    rw [List.cons_append, pairs]
    cases hv : isIdentification v
    · exact ⟨before, p, after, by simpa using h1, by simp [hv, h2], h3⟩
    · exact ⟨_ :: before, p, after, by rw [h1]; rfl, by simp [hv, h2], h3⟩
  | nil =>
    refine ⟨[], _, pairs post, by rw [List.nil_append, pairs, if_pos (by simp [isIdentification, hi])]; rfl, by simp, rfl,
      ?_, ?_, ?_, ?_, ?_⟩
    · rintro a t c rfl ht ha
      dsimp only
      rw [List.find?_append, List.find?_eq_none.2 (by intro x hx; simp [isStrtab, ha x hx])]
      simp [isStrtab, ht]
    · intro hp
      exact List.find?_eq_none.2 (by intro x hx; simp [isStrtab, hp x hx])
    · rintro a t c rfl ht ha
      dsimp only
      rw [List.find?_append, List.find?_eq_none.2 (by intro x hx; simp [isSymtab, ha x hx])]
      simp [isSymtab, ht]
    · intro hp
      exact List.find?_eq_none.2 (by intro x hx; simp [isSymtab, hp x hx])
    · rintro a m c rfl hm ha
      dsimp only
      rw [List.takeWhile_append_of_pos (by intro x hx; simp [isIdentification, (ha x hx).2]),
        List.takeWhile_cons, if_pos (by simp [isIdentification, hm]), List.find?_append,
        List.find?_eq_none.2 (by intro x hx; simp [isModule, (ha x hx).1])]
      simp [isModule, hm]

/-- Two modules before a common string table and symbol table, then another module with its own. -/
example : (pairs [.mk (.ir .identification) [] [], .mk (.ir .module) [] [],
      .mk (.ir .identification) [] [], .mk (.ir .module) [] [], .mk (.ir .symtab) [] [],
      .mk (.ir .strtab) [⟨none, 1, []⟩] [], .mk (.ir .identification) [] [], .mk (.ir .module) [] [],
      .mk (.ir .strtab) [⟨none, 2, []⟩] []]).map
      (fun p => (p.module.isSome, p.strtab.elim 0 (·.records.length), (p.strtab.bind (·.records.head?)).map (·.code),
        p.symtab.isSome)) = [(true, 1, some 1, true), (true, 1, some 1, true), (true, 1, some 2, false)] := by
  decide +kernel

/-! ## C30 -/

/-- C30, `by_code`: a part of the records in their order, all with the code, and as many of them as there are. -/
theorem C30_by_code (rs : Records) (code : U64) :
    (Records.byCode rs code).Sublist rs ∧ (∀ r, r ∈ Records.byCode rs code ↔ r ∈ rs ∧ r.code = code) ∧
    (∀ r, r.code = code → (Records.byCode rs code).count r = List.count r rs) ∧
    (Records.byCode rs code).length = rs.countP fun r => r.code = code := by
  refine ⟨List.filter_sublist, fun r => by simp [Records.byCode], fun r hr => ?_, ?_⟩
  · unfold Records.byCode
    rw [List.count_filter (by simp [hr])]
  · unfold Records.byCode
    rw [List.countP_eq_length_filter]
    congr 1

theorem byCode_cons (r : BRecord) (rs : Records) (code : U64) :
    Records.byCode (r :: rs) code = if r.code = code then r :: Records.byCode rs code else Records.byCode rs code := by
  simp [Records.byCode, List.filter_cons]

theorem byCode_nil_iff (rs : Records) (code : U64) : Records.byCode rs code = [] ↔ ∀ r ∈ rs, r.code ≠ code := by
  simp [Records.byCode, List.filter_eq_nil_iff]

theorem byCode_cons_iff (rs : Records) (code : U64) (r : BRecord) (l : List BRecord) :
    Records.byCode rs code = r :: l ↔
      ∃ pre post, rs = pre ++ r :: post ∧ r.code = code ∧ (∀ x ∈ pre, x.code ≠ code) ∧ Records.byCode post code = l := by
  constructor
  · intro h
    obtain ⟨pre, post, rfl, h1, h2, h3⟩ := List.filter_eq_cons_iff.1 h
    exact ⟨pre, post, rfl, by simpa using h2, by simpa using h1, h3⟩
  · rintro ⟨pre, post, rfl, h1, h2, h3⟩
    exact List.filter_eq_cons_iff.2 ⟨pre, post, rfl, by simpa using h2, by simpa using h1, h3⟩

/-- C30, `one`: the first record with the code, if any. -/
theorem C30_one (rs : Records) (code : U64) :
    (∀ r, Records.one rs code = some r ↔
      ∃ pre post, rs = pre ++ r :: post ∧ r.code = code ∧ ∀ x ∈ pre, x.code ≠ code) ∧
    (Records.one rs code = none ↔ ∀ r ∈ rs, r.code ≠ code) := by
  constructor
  · intro r
    unfold Records.one
    constructor
    · intro h
      cases hb : Records.byCode rs code with
      | nil => rw [hb] at h; simp at h
      | cons x l =>
        rw [hb] at h; simp at h; subst h
        obtain ⟨pre, post, h1, h2, h3, -⟩ := (byCode_cons_iff rs code x l).1 hb
        exact ⟨pre, post, h1, h2, h3⟩
    · rintro ⟨pre, post, h1, h2, h3⟩
      rw [(byCode_cons_iff rs code r _).2 ⟨pre, post, h1, h2, h3, rfl⟩]; rfl
  · rw [← byCode_nil_iff]
    unfold Records.one
    cases Records.byCode rs code <;> simp

/-- C30, `exactly_one`: succeeds iff exactly one record has the code, and returns it; the error says which way it failed. -/
theorem C30_exactly_one (rs : Records) (code : U64) :
    (∀ r, Records.exactlyOne rs code = .ok r ↔
      ∃ pre post, rs = pre ++ r :: post ∧ r.code = code ∧ ∀ x ∈ pre ++ post, x.code ≠ code) ∧
    (Records.exactlyOne rs code = .err (.missingRecord code) ↔ rs.countP (fun r => r.code = code) = 0) ∧
    (Records.exactlyOne rs code = .err (.tooManyRecords code) ↔ 2 ≤ rs.countP fun r => r.code = code) := by
  rw [← (C30_by_code rs code).2.2.2]
  unfold Records.exactlyOne
  cases hb : Records.byCode rs code with
  | nil =>
    refine ⟨fun r => ⟨by simp, ?_⟩, by simp, by simp⟩
    rintro ⟨pre, post, rfl, h1, -⟩
    exact absurd h1 ((byCode_nil_iff _ _).1 hb r (by simp))
  | cons x l =>
    obtain ⟨pre, post, rfl, h1, h2, h3⟩ := (byCode_cons_iff _ _ _ _).1 hb
    cases l with
    | nil =>
      refine ⟨fun r => ⟨?_, ?_⟩, by simp, by simp⟩
      · intro h; simp at h; subst h
        refine ⟨pre, post, rfl, h1, ?_⟩
        intro y hy
        rcases List.mem_append.1 hy with hy | hy
        · exact h2 y hy
        · exact (byCode_nil_iff _ _).1 h3 y hy
      · rintro ⟨pre', post', he, h4, h5⟩
        have := (byCode_cons_iff (pre ++ x :: post) code r _).2 ⟨pre', post', he, h4, fun y hy => h5 y (by simp [hy]), rfl⟩
        rw [hb] at this
        simp at this; simp [this.1]
    | cons y l =>
      refine ⟨fun r => ⟨by simp, ?_⟩, by simp, by simp⟩
      rintro ⟨pre', post', he, h4, h5⟩
      have := (byCode_cons_iff (pre ++ x :: post) code r _).2 ⟨pre', post', he, h4, fun y hy => h5 y (by simp [hy]), rfl⟩
      rw [hb, (byCode_nil_iff post' code).2 (fun y hy => h5 y (by simp [hy]))] at this
      simp at this

/-- C30, `one_or_none`: fails iff two or more records have the code; otherwise returns the one, or nothing. -/
theorem C30_one_or_none (rs : Records) (code : U64) :
    (∀ r, Records.oneOrNone rs code = .ok (some r) ↔ Records.exactlyOne rs code = .ok r) ∧
    (Records.oneOrNone rs code = .ok none ↔ rs.countP (fun r => r.code = code) = 0) ∧
    (Records.oneOrNone rs code = .err (.tooManyRecords code) ↔ 2 ≤ rs.countP fun r => r.code = code) := by
  rw [← (C30_by_code rs code).2.2.2]
  unfold Records.oneOrNone Records.exactlyOne
  cases Records.byCode rs code with
  | nil => simp
  | cons x l => cases l <;> simp

example : Records.exactlyOne [⟨none, 1, []⟩, ⟨none, 2, [5]⟩, ⟨none, 1, [6]⟩] 2 = .ok ⟨none, 2, [5]⟩ ∧
    Records.exactlyOne [⟨none, 1, []⟩, ⟨none, 2, [5]⟩, ⟨none, 1, [6]⟩] 1 = .err (.tooManyRecords 1) := by decide +kernel

/-- The collection that arises from inserting sub-blocks one after the other. -/
def insertAll (l : List UBlock) : Blocks := l.foldl (fun m u => Blocks.push m u.id u) []

/-- C30, `by_id`: after any insertions, a lookup gives the inserted blocks with the id, in order of insertion. -/
theorem C30_by_id (l : List UBlock) (id : BlockId) :
    Blocks.byId (insertAll l) id = l.filter fun u => u.id = id := by
  unfold insertAll
  induction l using snocInduction with
  | nil => rfl
  | snoc l u ih =>
    rw [List.foldl_append, List.foldl_cons, List.foldl_nil, byId_push, ih, List.filter_append]
    by_cases h : u.id = id <;> simp [h]

/-- C30, `exactly_one` and `one_or_none` of blocks. -/
theorem C30_blocks (l : List UBlock) (id : BlockId) :
    (∀ b, Blocks.exactlyOne (insertAll l) id = .ok b ↔ l.filter (fun u => u.id = id) = [b]) ∧
    (Blocks.exactlyOne (insertAll l) id = .err (.missingBlock id) ↔ l.countP (fun u => u.id = id) = 0) ∧
    (Blocks.exactlyOne (insertAll l) id = .err (.tooManyBlocks id) ↔ 2 ≤ l.countP fun u => u.id = id) ∧
    (∀ b, Blocks.oneOrNone (insertAll l) id = .ok (some b) ↔ l.filter (fun u => u.id = id) = [b]) ∧
    (Blocks.oneOrNone (insertAll l) id = .ok none ↔ l.countP (fun u => u.id = id) = 0) ∧
    (Blocks.oneOrNone (insertAll l) id = .err (.tooManyBlocks id) ↔ 2 ≤ l.countP fun u => u.id = id) := by
  unfold Blocks.exactlyOne Blocks.oneOrNone
  rw [List.countP_eq_length_filter, C30_by_id]
  cases List.filter (fun u => decide (u.id = id)) l with
  | nil => simp
  | cons x l => cases l <;> simp

/-! ## C31 -/

theorem toBytes_iff (fs : List U64) (bs : List U8) :
    toBytes fs = some bs ↔ (∀ f ∈ fs, f.toNat < 256) ∧ bs = fs.map (·.setWidth 8) := by
  induction fs generalizing bs with
  | nil => simp [toBytes, eq_comm]
  | cons f fs ih =>
    rw [toBytes]
    by_cases hf : f.toNat < 256
    · rw [if_pos hf]
      cases h : toBytes fs with
      | none =>
        have : ¬ ∀ f ∈ fs, f.toNat < 256 := fun hc => by have := (ih _).2 ⟨hc, rfl⟩; rw [h] at this; simp at this
        simp only [reduceCtorEq, false_iff, not_and]
        intro hc; exact absurd (fun f hf => hc f (by simp [hf])) this
      | some b =>
        have := (ih b).1 h
        simp only [Option.some.injEq, List.map_cons]
        constructor
        · rintro rfl; exact ⟨by intro g hg; rcases List.mem_cons.1 hg with rfl | hg; exact hf; exact this.1 g hg, by rw [this.2]⟩
        · rintro ⟨-, rfl⟩; rw [this.2]
    · rw [if_neg hf]
      simp only [reduceCtorEq, false_iff, not_and]
      intro hc; exact absurd (hc f (by simp)) hf

theorem areBytes_iff (fs : List U64) (bs : List U8) : toBytes fs = some bs ↔ AreBytes fs bs := by
  rw [toBytes_iff]
  unfold AreBytes
  constructor
  · rintro ⟨h, rfl⟩
    rw [List.map_map]
    conv => lhs; rw [← List.map_id fs]
    refine List.map_congr_left fun f hf => ?_
    have := h f hf
    refine BitVec.eq_of_toNat_eq ?_
    simp; omega
  · rintro rfl
    refine ⟨?_, ?_⟩
    · intro f hf
      obtain ⟨b, -, rfl⟩ := List.mem_map.1 hf
      have := b.isLt
      simp; omega
    · rw [List.map_map]
      conv => lhs; rw [← List.map_id bs]
      refine List.map_congr_left fun b _ => ?_
      have := b.isLt
      refine BitVec.eq_of_toNat_eq ?_
      simp

theorem tryBlob_eq (pf : Profile) (r : BRecord) (idx : U64) (h : r.fields ≠ []) :
    r.tryBlob pf idx = if idx.toNat + 1 < r.fields.length then
      Out.ofOption .badByte (toBytes (r.fields.drop idx.toNat)) else .err (.badIndex idx.toNat r.fields.length) := by
  have hl : r.fields.length ≠ 0 := by simpa using h
  unfold BRecord.tryBlob lenMinus1 fieldsFrom
  rw [if_neg hl]
  simp only [Out.ok_bind]
  by_cases hi : idx.toNat + 1 < r.fields.length
  · rw [if_neg (by omega), if_pos (by omega), if_pos hi]; rfl
  · rw [if_pos (by omega), if_neg hi]

theorem tryString_eq (pf : Profile) (r : BRecord) (idx : U64) (h : r.fields ≠ []) :
    r.tryString pf idx = if idx.toNat + 1 < r.fields.length then
      (Out.ofOption .badCharacter (toBytes (r.fields.drop idx.toNat)) >>= fun raw =>
        Out.ofOption .badEncoding (utf8Decode raw)) else .err (.badIndex idx.toNat r.fields.length) := by
  have hl : r.fields.length ≠ 0 := by simpa using h
  unfold BRecord.tryString lenMinus1 fieldsFrom
  rw [if_neg hl]
  simp only [Out.ok_bind]
  by_cases hi : idx.toNat + 1 < r.fields.length
  · rw [if_neg (by omega), if_pos (by omega), if_pos hi]; rfl
  · rw [if_pos (by omega), if_neg hi]

/-- C31 for blobs, as far as it holds: for records with fields, `try_blob(i)` returns, and it returns the bytes iff at least
*two* fields remain from `i` on and all are bytes. Missing: records without fields, and a single remaining field; see below. -/
theorem C31_blob_partial (pf : Profile) (r : BRecord) (idx : U64) (h : r.fields ≠ []) :
    (r.tryBlob pf idx).Returns ∧
    ∀ bs, r.tryBlob pf idx = .ok bs ↔ idx.toNat + 2 ≤ r.fields.length ∧ AreBytes (r.fields.drop idx.toNat) bs := by
  rw [tryBlob_eq pf r idx h]
  split
  · next hi =>
    cases hb : toBytes (r.fields.drop idx.toNat) with
    | none =>
      refine ⟨trivial, fun bs => ?_⟩
      simp only [Out.ofOption_none, reduceCtorEq, false_iff, not_and]
      intro _ hc
      rw [← areBytes_iff, hb] at hc; simp at hc
    | some b =>
      refine ⟨trivial, fun bs => ?_⟩
      rw [← areBytes_iff, hb]
      simp; omega
  · next hi => exact ⟨trivial, fun bs => by simp; omega⟩

/-- C31 for strings, likewise: the bytes from `i` on must be the UTF-8 encoding of the text returned. -/
theorem C31_string_partial (pf : Profile) (r : BRecord) (idx : U64) (h : r.fields ≠ []) :
    (r.tryString pf idx).Returns ∧
    ∀ s, r.tryString pf idx = .ok s ↔ idx.toNat + 2 ≤ r.fields.length ∧ AreBytes (r.fields.drop idx.toNat) (utf8 s) := by
  rw [tryString_eq pf r idx h]
  split
  · next hi =>
    cases hb : toBytes (r.fields.drop idx.toNat) with
    | none =>
      refine ⟨trivial, fun s => ?_⟩
      simp only [Out.ofOption_none, Out.err_bind, reduceCtorEq, false_iff, not_and]
      intro _ hc
      rw [← areBytes_iff, hb] at hc; simp at hc
    | some b =>
      simp only [Out.ofOption_some, Out.ok_bind]
      cases hu : utf8Decode b with
      | none =>
        refine ⟨trivial, fun s => ?_⟩
        simp only [Out.ofOption_none, reduceCtorEq, false_iff, not_and]
        intro _ hc
        rw [← areBytes_iff, hb] at hc
        simp at hc
        rw [utf8Decode_eq_some.2 hc.symm] at hu; simp at hu
      | some t =>
        refine ⟨trivial, fun s => ?_⟩
        rw [← areBytes_iff, hb]
        simp only [Out.ofOption_some, Out.ok.injEq, Option.some.injEq]
        rw [utf8Decode_eq_some] at hu
        constructor
        · rintro rfl; exact ⟨by omega, hu.symm⟩
        · rintro ⟨-, rfl⟩
          have h1 := utf8Decode_complete t
          rw [hu, utf8Decode_complete] at h1
          exact (Option.some.inj h1).symm
  · next hi => exact ⟨trivial, fun s => by simp; omega⟩

/-- The errors say what is wrong: the index, a field that is no byte, or the encoding. -/
theorem C31_errors (pf : Profile) (r : BRecord) (idx : U64) (h : r.fields ≠ []) :
    (r.fields.length < idx.toNat + 2 →
      r.tryString pf idx = .err (.badIndex idx.toNat r.fields.length) ∧
      r.tryBlob pf idx = .err (.badIndex idx.toNat r.fields.length)) ∧
    (idx.toNat + 2 ≤ r.fields.length → (∃ f ∈ r.fields.drop idx.toNat, 256 ≤ f.toNat) →
      r.tryString pf idx = .err .badCharacter ∧ r.tryBlob pf idx = .err .badByte) ∧
    (∀ bs, idx.toNat + 2 ≤ r.fields.length → AreBytes (r.fields.drop idx.toNat) bs → (∀ s, utf8 s ≠ bs) →
      r.tryString pf idx = .err .badEncoding) := by
  rw [tryString_eq pf r idx h, tryBlob_eq pf r idx h]
  refine ⟨fun hi => ?_, fun hi hf => ?_, fun bs hi hb hs => ?_⟩
  · rw [if_neg (by omega), if_neg (by omega)]; exact ⟨rfl, rfl⟩
  · rw [if_pos (by omega), if_pos (by omega)]
    have : toBytes (r.fields.drop idx.toNat) = none := by
      cases hb : toBytes (r.fields.drop idx.toNat) with
      | none => rfl
      | some b =>
        obtain ⟨f, hf, h2⟩ := hf
        have := ((toBytes_iff _ _).1 hb).1 f hf
        omega
    rw [this]; exact ⟨rfl, rfl⟩
  · rw [if_pos (by omega), (areBytes_iff _ _).2 hb]
    simp only [Out.ofOption_some, Out.ok_bind]
    cases hu : utf8Decode bs with
    | none => rfl
    | some s => exact absurd (utf8Decode_eq_some.1 hu) (hs s)

/-- C31 is false: the last field alone is never accepted, so a string or blob of one byte cannot be read. -/
theorem C31_single_byte_rejected (pf : Profile) (r : BRecord) (idx : U64) (h : idx.toNat + 1 = r.fields.length) :
    r.tryString pf idx = .err (.badIndex idx.toNat r.fields.length) ∧
    r.tryBlob pf idx = .err (.badIndex idx.toNat r.fields.length) := by
  have hne : r.fields ≠ [] := by intro hc; rw [hc] at h; simp at h
  exact (C31_errors pf r idx hne).1 (by omega)

/-- C31 is false: on a record without fields every call panics in a debug build; in a release build index 0 gives an
empty string or blob, and almost every other index panics. -/
theorem C31_empty_record (r : BRecord) (h : r.fields = []) (idx : U64) :
    r.tryString .debug idx = .panic .recordLenSub ∧ r.tryBlob .debug idx = .panic .recordLenSub ∧
    (idx = 0 → r.tryString .release idx = .ok [] ∧ r.tryBlob .release idx = .ok []) ∧
    (idx ≠ 0 → idx.toNat < 2 ^ 64 - 1 →
      r.tryString .release idx = .panic .recordSlice ∧ r.tryBlob .release idx = .panic .recordSlice) := by
  unfold BRecord.tryString BRecord.tryBlob lenMinus1 fieldsFrom
  rw [h]
  refine ⟨rfl, rfl, ?_, ?_⟩
  · rintro rfl; exact ⟨rfl, rfl⟩
  · intro h0 h1
    have : idx.toNat ≠ 0 := fun hc => h0 (BitVec.eq_of_toNat_eq hc)
    simp only [List.length_nil, ite_true, Out.ok_bind]
    simp only [if_neg (show ¬ idx.toNat ≥ 2 ^ 64 - 1 by omega), if_neg (show ¬ idx.toNat ≤ 0 by omega)]
    exact ⟨rfl, rfl⟩

example (pf : Profile) : (⟨none, 1, [255, 104, 0xC3, 0xA9]⟩ : BRecord).tryString pf 1 = .ok "hé".toList ∧
    (⟨none, 1, [255, 104, 0xC3, 0xA9]⟩ : BRecord).tryString pf 0 = .err .badEncoding ∧
    (⟨none, 1, [255, 104, 256]⟩ : BRecord).tryBlob pf 0 = .err .badByte ∧
    (⟨none, 1, [255, 104, 3]⟩ : BRecord).tryBlob pf 1 = .ok [104, 3] := by
  cases pf <;> decide +kernel

/-! ## C32 -/

/-- C32, as far as it holds: if `offset + size` fits 64 bits, a lookup returns, and it returns the text whose UTF-8 bytes
are those at `[offset, offset + size)` iff the range is non-empty and inside the table. Missing: sums that overflow. -/
theorem C32_lookup_partial (pf : Profile) (t : Strtab) (s : StrtabRef) (h : s.offset.toNat + s.size.toNat < 2 ^ 64) :
    (t.tryGet pf s).Returns ∧
    ∀ v, t.tryGet pf s = .ok v ↔ 1 ≤ s.size.toNat ∧ ∃ pre post, t.bytes = pre ++ (utf8 v ++ post) ∧
      pre.length = s.offset.toNat ∧ (utf8 v).length = s.size.toNat := by
  unfold Strtab.tryGet
  by_cases h0 : s.size = 0
  · rw [if_pos h0]
    refine ⟨trivial, fun v => ?_⟩
    simp [h0]
  have h0' : s.size.toNat ≠ 0 := fun hc => h0 (BitVec.eq_of_toNat_eq hc)
  rw [if_neg h0]
  split
  · next h1 =>
    refine ⟨trivial, fun v => ?_⟩
    simp only [reduceCtorEq, false_iff, not_and, not_exists]
    intro _ pre post hb hp hs
    rw [hb] at h1
    simp at h1
    omega
  · next h1 =>
    have hsum : (s.offset + s.size).toNat = s.offset.toNat + s.size.toNat := by
      rw [BitVec.toNat_add]; omega
    simp only [addUsize, if_pos h, Out.ok_bind, hsum]
    split
    · next h2 =>
      refine ⟨trivial, fun v => ?_⟩
      simp only [reduceCtorEq, false_iff, not_and, not_exists]
      intro _ pre post hb hp hs
      rw [hb] at h2
      simp at h2
      omega
    · next h2 =>
      simp only [sliceBytes, hsum]
      rw [if_pos (by omega)]
      simp only [Out.ok_bind]
      have key : ∀ v, ((t.bytes.take (s.offset.toNat + s.size.toNat)).drop s.offset.toNat = utf8 v) ↔
          ∃ pre post, t.bytes = pre ++ (utf8 v ++ post) ∧ pre.length = s.offset.toNat ∧ (utf8 v).length = s.size.toNat := by
        intro v
        constructor
        · intro he
          refine ⟨t.bytes.take s.offset.toNat, t.bytes.drop (s.offset.toNat + s.size.toNat), ?_, ?_, ?_⟩
          · rw [← he, List.drop_take, Nat.add_sub_cancel_left, ← List.drop_drop, List.take_append_drop,
              List.take_append_drop]
          · rw [List.length_take]; omega
          · rw [← he, List.length_drop, List.length_take]; omega
        · rintro ⟨pre, post, hb, hp, hs⟩
          rw [hb, List.drop_take, ← hp, List.drop_left, Nat.add_sub_cancel_left, ← hs, List.take_left]
      cases hu : utf8Decode ((t.bytes.take (s.offset.toNat + s.size.toNat)).drop s.offset.toNat) with
      | none =>
        refine ⟨trivial, fun v => ?_⟩
        rw [← key]
        simp only [Out.ofOption_none, reduceCtorEq, false_iff, not_and]
        intro _ hc
        rw [hc, utf8Decode_complete] at hu; simp at hu
      | some w =>
        refine ⟨trivial, fun v => ?_⟩
        rw [← key]
        have hw := utf8Decode_eq_some.1 hu
        rw [← hw]
        simp only [Out.ofOption_some, Out.ok.injEq]
        constructor
        · rintro rfl; exact ⟨by omega, rfl⟩
        · rintro ⟨-, he⟩
          have h1 := utf8Decode_complete w
          rw [he, utf8Decode_complete] at h1
          exact (Option.some.inj h1).symm

/-- C32 is false exactly here: an offset inside the table with a size so large that the sum overflows. Then the lookup
panics, in every build. -/
theorem C32_overflow_panics (pf : Profile) (t : Strtab) (s : StrtabRef) :
    (¬ (t.tryGet pf s).Returns ↔ s.offset.toNat < t.bytes.length ∧ 2 ^ 64 ≤ s.offset.toNat + s.size.toNat) ∧
    (s.offset.toNat < t.bytes.length → 2 ^ 64 ≤ s.offset.toNat + s.size.toNat →
      t.tryGet pf s = .panic (match pf with | .debug => .strtabAdd | .release => .strtabSlice)) := by
  have key : s.offset.toNat < t.bytes.length → 2 ^ 64 ≤ s.offset.toNat + s.size.toNat →
      t.tryGet pf s = .panic (match pf with | .debug => .strtabAdd | .release => .strtabSlice) := by
    intro h1 h2
    have hs := s.size.isLt
    have ho := s.offset.isLt
    unfold Strtab.tryGet
    rw [if_neg (by intro hc; rw [hc] at h2; simp at h2; omega), if_neg (by omega)]
    simp only [addUsize]
    rw [if_neg (by omega)]
    cases pf with
    | debug => rfl
    | release =>
      have hsum : (s.offset + s.size).toNat = s.offset.toNat + s.size.toNat - 2 ^ 64 := by
        rw [BitVec.toNat_add]; omega
      simp only [Out.ok_bind, hsum]
      rw [if_neg (by omega)]
      simp only [sliceBytes, hsum]
      rw [if_neg (by omega)]
      rfl
  refine ⟨⟨fun hn => ?_, fun ⟨h1, h2⟩ => by rw [key h1 h2]; simp [Out.Returns]⟩, key⟩
  by_cases h : s.offset.toNat + s.size.toNat < 2 ^ 64
  · exact absurd (C32_lookup_partial pf t s h).1 hn
  · refine ⟨?_, by omega⟩
    false_or_by_contra
    apply hn
    unfold Strtab.tryGet
    rw [if_neg (by intro hc; rw [hc] at h; have := s.offset.isLt; simp at h; omega), if_pos (by omega)]
    trivial

/-- `get` is `try_get` without the error. -/
theorem C32_get (pf : Profile) (t : Strtab) (s : StrtabRef) :
    (∀ v, t.get pf s = .ok (some v) ↔ t.tryGet pf s = .ok v) ∧ (t.get pf s = .ok none ↔ ∃ e, t.tryGet pf s = .err e) ∧
    (∀ p, t.get pf s = .panic p ↔ t.tryGet pf s = .panic p) := by
  unfold Strtab.get
  cases t.tryGet pf s <;> simp

/-- `read_name` takes offset and size from the first two fields; with fewer it panics. -/
theorem C32_read_name (pf : Profile) (t : Strtab) (r : BRecord) :
    (∀ o n fs, r.fields = o :: n :: fs → t.readName pf r = t.tryGet pf ⟨o, n⟩) ∧
    (r.fields.length < 2 → t.readName pf r = .panic .recordIndex) := by
  constructor
  · intro o n fs h
    simp [Strtab.readName, fieldAt, h]
  · intro h
    unfold Strtab.readName fieldAt
    match hf : r.fields with
    | [] => rfl
    | [x] => rfl
    | x :: y :: l => rw [hf] at h; simp at h; omega

example (pf : Profile) : (⟨[104, 0xC3, 0xA9, 33]⟩ : Strtab).tryGet pf ⟨1, 2⟩ = .ok "é".toList ∧
    (⟨[104, 0xC3, 0xA9, 33]⟩ : Strtab).tryGet pf ⟨1, 1⟩ = .err .badString ∧
    (⟨[104, 0xC3, 0xA9, 33]⟩ : Strtab).tryGet pf ⟨1, 4⟩ = .err .badRange ∧
    ¬ ((⟨[104, 0xC3, 0xA9, 33]⟩ : Strtab).tryGet pf ⟨1, 0xffffffffffffffff⟩).Returns := by
  cases pf <;> decide +kernel

end Verif
