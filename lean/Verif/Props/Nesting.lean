import Verif.Mapper.NestSpec
import Verif.Props.Depth
import Verif.Props.Held

/-! C89: how deep what was read is nested. -/

namespace Verif
open Spec

theorem nestingAll_snoc (us : List UBlock) (u : UBlock) : nestingAll (us ++ [u]) = max (nestingAll us) (nesting u) := by
  induction us with
  | nil => simp [nestingAll]
  | cons v us ih => simp only [List.cons_append, nestingAll, ih]; omega

theorem nesting_push (bs : Blocks) (k : BlockId) (u : UBlock) : nestingById (Blocks.push bs k u) = max (nestingById bs) (nesting u) := by
  induction bs with
  | nil => simp [Blocks.push, nestingById, nestingByEntry, nestingAll]
  | cons e bs ih =>
    obtain ⟨k', l⟩ := e
    simp only [Blocks.push]
    split
    · simp only [nestingById, nestingByEntry, nestingAll_snoc]; omega
    · simp only [nestingById, nestingByEntry, ih]; omega

theorem nesting_pushRecord (u : UBlock) (r : BRecord) : nesting (u.pushRecord r) = nesting u := by
  cases u; rfl

theorem nesting_pushBlock (u v : UBlock) : nesting (u.pushBlock v) = max (nesting u) (1 + nesting v) := by
  cases u
  simp only [UBlock.pushBlock, UBlock.blocks, nesting, nesting_push]
  omega

theorem nesting_new (id : U64) : nesting (UBlock.new id) = 1 := rfl

theorem enter_nesting (pf : Profile) (n : Nat) : ∀ (d : Nat) (acc : UBlock) (b : Bitstream) (u : UBlock) (b' : Bitstream),
    enterWithin pf d n acc b = some (.ok u, b') → nesting acc ≤ d + 1 → nesting u ≤ d + 1 := by
  induction n with
  | zero => intro d acc b u b' h; simp [enterWithin] at h
  | succ n ih =>
    intro d acc b u b' h hacc
    unfold enterWithin at h
    split at h
    · simp at h
    · simp at h
    · simp at h
    · simp at h
    · exact ih _ _ _ _ _ h (by rw [nesting_pushRecord]; exact hacc)
    · split at h
      · simp at h
      · next d' =>
        split at h
        · next child b'' hc =>
          have := ih _ _ _ _ _ hc (by rw [nesting_new]; omega)
          exact ih _ _ _ _ _ h (by rw [nesting_pushBlock]; omega)
        all_goals simp at h
    · simp only [Option.some.injEq, Prod.mk.injEq, Out.ok.injEq] at h
      rw [← h.1]; exact hacc

theorem setModule_nesting {d : Nat} {u : UBlock} (hu : nesting u ≤ d) {ps ps' : List PartialModule} (h : setModule u ps = .ok ps')
    (hp : ∀ p ∈ ps, moduleNesting p ≤ d) : ∀ p ∈ ps', moduleNesting p ≤ d := by
  induction ps generalizing ps' with
  | nil => simp [setModule] at h
  | cons q ps ih =>
    cases ps with
    | nil =>
      simp only [setModule] at h
      split at h
      · simp at h
      · simp only [Out.ok.injEq] at h
        intro p hm
        rw [← h, List.mem_singleton] at hm
        have := hp q (by simp)
        subst hm
        simp only [moduleNesting, Option.elim_some] at this ⊢
        omega
    | cons r ps =>
      simp only [setModule, Out.bind_eq_ok] at h
      obtain ⟨qs, h1, h2⟩ := h
      simp only [Out.ok.injEq] at h2
      subst h2
      intro p hm
      rcases List.mem_cons.1 hm with rfl | hm
      · exact hp _ (by simp)
      · exact ih h1 (fun p hm => hp p (List.mem_cons_of_mem _ hm)) p hm

theorem setWhile_mem {free : PartialModule → Bool} {set : PartialModule → PartialModule} {ps : List PartialModule} {p : PartialModule}
    (h : p ∈ setWhile free set ps) : p ∈ ps ∨ ∃ q ∈ ps, p = set q := by
  unfold setWhile at h
  rw [List.mem_reverse] at h
  have key : ∀ l : List PartialModule, p ∈ setWhile.go free set l → p ∈ l ∨ ∃ q ∈ l, p = set q := by
    intro l
    induction l with
    | nil => intro h; simp [setWhile.go] at h
    | cons q l ih =>
      intro h
      unfold setWhile.go at h
      split at h
      · rcases List.mem_cons.1 h with rfl | h
        · exact .inr ⟨q, by simp, rfl⟩
        · rcases ih h with h | ⟨r, hr, he⟩
          · exact .inl (List.mem_cons_of_mem _ h)
          · exact .inr ⟨r, List.mem_cons_of_mem _ hr, he⟩
      · exact .inl h
  rcases key _ h with h | ⟨q, hq, he⟩
  · exact .inl (List.mem_reverse.1 h)
  · exact .inr ⟨q, List.mem_reverse.1 hq, he⟩

theorem addTop_nesting {d : Nat} {u : UBlock} (hu : nesting u ≤ d) {ps ps' : List PartialModule} (h : addTop ps u = .ok ps')
    (hp : ∀ p ∈ ps, moduleNesting p ≤ d) : ∀ p ∈ ps', moduleNesting p ≤ d := by
  unfold addTop at h
  split at h
  · simp only [Out.ok.injEq] at h
    subst h
    intro p hm
    rcases List.mem_append.1 hm with hm | hm
    · exact hp p hm
    · rw [List.mem_singleton] at hm
      subst hm
      simp only [moduleNesting, PartialModule.new, Option.elim_none]
      omega
  · exact setModule_nesting hu h hp
  · simp only [Out.ok.injEq] at h
    subst h
    intro p hm
    rcases setWhile_mem hm with hm | ⟨q, hq, rfl⟩
    · exact hp p hm
    · have := hp q hq
      simp only [moduleNesting, Option.elim_some] at this ⊢
      omega
  · simp only [Out.ok.injEq] at h
    subst h
    intro p hm
    rcases setWhile_mem hm with hm | ⟨q, hq, rfl⟩
    · exact hp p hm
    · have := hp q hq
      simp only [moduleNesting, Option.elim_some] at this ⊢
      omega
  · simp at h

theorem unrollLoop_nesting (pf : Profile) (d n : Nat) : ∀ (ps : List PartialModule) (b : Bitstream) (ps' : List PartialModule),
    unrollLoopWithin pf d n ps b = some (.ok ps') → (∀ p ∈ ps, moduleNesting p ≤ d) → ∀ p ∈ ps', moduleNesting p ≤ d := by
  induction n with
  | zero => intro ps b ps' h; simp [unrollLoopWithin] at h
  | succ n ih =>
    intro ps b ps' h hp
    unfold unrollLoopWithin at h
    split at h
    · simp only [Option.some.injEq, Out.ok.injEq] at h
      rw [← h]; exact hp
    · simp at h
    · simp at h
    · simp at h
    · split at h
      · simp at h
      · split at h
        · simp at h
        · next d' =>
          split at h
          · next top b'' ht =>
            have h1 := enter_nesting pf n d' _ _ _ _ ht (by rw [nesting_new]; omega)
            split at h
            · next qs ha => exact ih _ _ _ h (addTop_nesting h1 ha hp)
            all_goals simp at h
          all_goals simp at h

/-- C89, blocks. Whatever limit there is on the calls of `enter_block` inside each other: what can be read within it is nested no deeper,
so that copying, printing or dropping it, which takes a call for each block on the way, keeps within the limit as well. -/
theorem C89_blocks (pf : Profile) (d : Nat) (b : Bitstream) (ps : List PartialModule) (h : unrollWithin pf d b = some (.ok ps)) :
    ∀ p ∈ ps, moduleNesting p ≤ d := unrollLoop_nesting pf d _ [] b ps h (by simp)

theorem deepest_le (es : List StreamEntry) : ∀ n, deepest n es ≤ n + es.length := by
  induction es with
  | nil => intro n; exact Nat.le_refl _
  | cons e es ih =>
    intro n
    cases e with
    | subBlock s => have := ih (n + 1); simp only [deepest, List.length_cons]; omega
    | record r => have := ih n; simp only [deepest, List.length_cons]; omega
    | endBlock => have := ih (n - 1); simp only [deepest, List.length_cons]; omega

/-- C89, blocks, without a limit: no file is nested deeper than it has bits, and no deeper than the blocks that are open at the same
time. -/
theorem C89_bound (pf : Profile) {bytes : List U8} {w : Option BitcodeWrapper} {b : Bitstream} (hb : Bitstream.from pf bytes = .ok (w, b))
    {ps : List PartialModule} (h : unroll pf b = .ok ps) : ∃ es, Delivers pf b es ∧ ∀ p ∈ ps,
      moduleNesting p ≤ deepest 0 es ∧ moduleNesting p ≤ 8 * bytes.length := by
  have ho : Opened pf b := .auto hb
  obtain ⟨tops, -, hd, -⟩ := C29_pairing pf ho h
  obtain ⟨b₁, b₂, hg, hdone⟩ := delivers_gives hd
  have h1 := (C64_unroll_exact pf ho hg.iterate hdone (by simp) (deepest 0 (completeEntries tops))).1 (Nat.le_refl _)
  rw [h] at h1
  refine ⟨_, hd, fun p hp => ?_⟩
  have h2 := C89_blocks pf _ b ps h1 p hp
  have h3 := deepest_le (completeEntries tops) 0
  have hit := delivers_iterate hd
  have h5 := iterate_bound (pf := pf) (completeEntries tops).length ho.start.1
  rw [hit] at h5
  have hl := from_len hb
  exact ⟨h2, by omega⟩

theorem nesting_addTo (t : Forest) : ∀ u : UBlock, nesting (t.addTo u) = max (nesting u) (1 + t.depth) := by
  induction t with
  | nil => intro u; cases u; simp only [Forest.addTo, Forest.depth, nesting]; omega
  | record r t ih => intro u; simp only [Forest.addTo, Forest.depth, ih, nesting_pushRecord]
  | block s c t ihc iht =>
    intro u
    simp only [Forest.addTo, Forest.depth, iht, nesting_pushBlock, ihc, nesting_new]
    omega

/-- C89, blocks, no fixed limit holds, and the bound by the calls it took to read them is met: 12 bytes for each block give a file that is
nested as deep as one likes, and can be read with that many calls and no fewer. -/
theorem C89_unbounded (pf : Profile) (n : Nat) : ∃ bytes b p, bytes.length = 4 + 12 * (n + 1) ∧ Bitstream.fromRaw bytes = .ok b ∧
    unroll pf b = .ok [p] ∧ moduleNesting p = n + 1 ∧ unrollWithin pf (n + 1) b = some (.ok [p]) ∧ unrollWithin pf n b = none := by
  obtain ⟨b, e, hbits⟩ := open_bits (bits := nestBits (n + 1)) (m := 3 * (n + 1)) (by rw [nestBits_length]; omega)
  obtain ⟨ms, k', hs, hms, -⟩ := nest_stream pf (n + 1) (k := Ctx.start) [] (pos := 32) rfl rfl
  have hd : Delivers pf b (nest (n + 1)).entries := (C63_accepts pf e _).2 ⟨ms, k', [], by rw [hbits]; exact hs, hms.symm⟩
  obtain ⟨b₁, b₂, hg, hdone⟩ := delivers_gives hd
  have hes : (nest (n + 1)).entries = completeEntries [(⟨13, 0⟩, nest n)] ++ openEntries [] := by
    simp [nest, Forest.entries, completeEntries, openEntries]
  have hu : unroll pf b = .ok [PartialModule.new ((nest n).addTo (UBlock.new 13))] := by
    rw [unroll_eq pf (.raw e) (hes ▸ hg) hdone (by simp)]
    have hid : ((nest n).addTo (UBlock.new 13)).id = .ir .identification := by
      rw [addTo_id]; rfl
    simp only [unrollBlocks, List.map_cons, List.map_nil, List.foldlM_cons, List.foldlM_nil, addTop, hid]
    rfl
  have hdeep := deepest_forest (nest (n + 1)) 0 []
  rw [List.append_nil, nest_depth] at hdeep
  refine ⟨_, b, _, ?_, e, hu, ?_, ?_, (C64_unroll_exact pf (.raw e) hg.iterate hdone (by simp) n).2.1 _ hu (by rw [hdeep]; omega)⟩
  · rw [List.length_append, pack_length]
    show 4 + _ = _
    omega
  · have := nesting_addTo (nest n) (UBlock.new 13)
    rw [nesting_new, nest_depth] at this
    simp only [moduleNesting, PartialModule.new, Option.elim, this]
    omega
  · rw [(C64_unroll_exact pf (.raw e) hg.iterate hdone (by simp) (n + 1)).1 (by rw [hdeep]; simp [deepest]), hu]

/-- C89, types. What can be mapped with room for `d` calls of `get` inside each other can be dropped, copied or printed with as many: one for
the type itself, and one for each further type on the way. -/
theorem C89_types (pf : Profile) (d : Nat) (b : UBlock) (ts : TypeTable) (h : TypeTable.tryFromWithin pf d b = .ok ts) :
    ∀ t ∈ ts, height t ≤ d + 1 := ((C64_types_exact pf d b ts).1 h).2

/-- C89, types, no fixed limit holds: a table of records of at most two fields maps to a type that is as high as one likes. -/
theorem C89_types_unbounded (pf : Profile) (n : Nat) (hn : n + 2 < 2 ^ 57) : ∃ b ts, TypeTable.tryFrom pf b = .ok ts ∧
    ts.length = n + 2 ∧ (∀ x ∈ b.records, x.fields.length ≤ 2) ∧ ∃ t ∈ ts, n + 1 < height t := by
  obtain ⟨b, ts, h1, h2, h3, h4⟩ := C64_types_unbounded pf n hn
  refine ⟨b, ts, h1, h2, h3, ?_⟩
  by_cases h : ∃ t ∈ ts, n + 1 < height t
  · exact h
  · have : TypeTable.tryFromWithin pf n b = .ok ts :=
      (C64_types_exact pf n b ts).2 ⟨h1, fun t ht => Nat.le_of_not_lt fun hlt => h ⟨t, ht, hlt⟩⟩
    rw [h4] at this
    cases this

/-- A file with a block in a block meets the hypotheses of `C89_blocks` and `C89_bound`. -/
example : ∃ (bytes : List U8) (b : Bitstream) (p : PartialModule), bytes.length = 28 ∧ Bitstream.fromRaw bytes = .ok b ∧
    unroll .release b = .ok [p] ∧ moduleNesting p = 2 ∧ unrollWithin .release 2 b = some (.ok [p]) ∧ unrollWithin .release 1 b = none :=
  C89_unbounded .release 1

end Verif
