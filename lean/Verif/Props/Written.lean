import Verif.Mapper.TreeSpec
import Verif.Props.Content
import Verif.Props.Bytes

/-!
# C69: contents and encodings

What mapping and dumping make of a written file depends only on the contents that were written; and all contents can be
written.
-/

namespace Verif
open Spec

/-! ## The contents of what is written -/

theorem forest_append (t u : Tree) : (t.append u).forest = t.forest.append u.forest := by
  induction t with
  | nil => rfl
  | record code fields rest ih => simp [Tree.append, Tree.forest, Forest.append, ih]
  | block id body rest _ ih => simp [Tree.append, Tree.forest, Forest.append, ih]

theorem plain_append (t u : Forest) : (t.append u).plain = t.plain.append u.plain := by
  induction t with
  | nil => rfl
  | record r rest ih => simp [Forest.append, Forest.plain, ih]
  | block s body rest _ ih => simp [Forest.append, Forest.plain, ih]

theorem append_records (t u : Forest) : (t.append u).records = t.records ++ u.records := by
  induction t with
  | nil => rfl
  | record r rest ih => simp [Forest.append, Forest.records, ih]
  | block s body rest _ ih => simp [Forest.append, Forest.records, ih]

theorem define_block {k k' : Ctx} {d : Def} (h : k.define d = some k') : k'.block = k.block := by
  unfold Ctx.define at h
  split at h
  · simp at h
  · split at h
    · split at h
      · simp at h
      · cases h; rfl
    · cases h; rfl

theorem unabbrev_block {k k' : Ctx} {code : U64} {fields : List U64} (h : k.unabbrev code fields = some k') :
    k'.block = k.block ∧ k.block ≠ none := by
  unfold Ctx.unabbrev at h
  split at h
  · simp at h
  · rename_i b hb
    refine ⟨?_, by simp [hb]⟩
    split at h
    · split at h
      · split at h
        · simp at h
        · cases h; rfl
      · split at h
        · cases h; rfl
        · simp at h
    · cases h; rfl

theorem lookup_block {k : Ctx} {id : U64} {d : Def} (h : k.lookup id = some d) : k.block ≠ none ∧ k.block ≠ some 0 := by
  unfold Ctx.lookup at h
  split at h
  · simp at h
  · rename_i b hb
    split at h
    · simp at h
    · rename_i hn
      refine ⟨by simp [hb], fun he => hn (.inl ?_)⟩
      rw [hb] at he
      exact Option.some.inj he

theorem write_tree {its : Items} {k : Ctx} {pos : Nat} {w : Written} (h : write k pos its = some w) :
    ∃ t : Forest, w.entries.map Entry.toStream = t.entries ∧ t.plain = (its.tree (decide (k.block = some 0))).forest ∧
      (k.block = none ∨ k.block = some 0 → t.records = []) := by
  induction its generalizing k pos w with
  | nil =>
    simp [write] at h; subst h
    exact ⟨.nil, rfl, rfl, fun _ => rfl⟩
  | define d rest ih =>
    simp only [write, Option.bind_eq_bind, Option.bind_eq_some_iff] at h
    obtain ⟨i, hi, h⟩ := h
    split at h
    · simp only [Option.bind_eq_some_iff, Option.some.injEq] at h
      obtain ⟨k', hk', r, hr', rfl⟩ := h
      obtain ⟨t, h1, h2, h3⟩ := ih hr'
      rw [define_block hk'] at h2 h3
      exact ⟨t, h1, h2, h3⟩
    · simp at h
  | unabbrev code fields rest ih =>
    simp only [write, Option.bind_eq_bind, Option.bind_eq_some_iff, Option.some.injEq] at h
    obtain ⟨i, hi, u, hu, k', hk', r, hr', rfl⟩ := h
    obtain ⟨t, h1, h2, h3⟩ := ih hr'
    obtain ⟨hb, hn⟩ := unabbrev_block hk'
    rw [hb] at h2 h3
    by_cases h0 : k.block = some 0
    · refine ⟨t, ?_, ?_, h3⟩
      · simpa [Spec.visible, h0] using h1
      · simpa [Items.tree, h0] using h2
    · refine ⟨.record { abbrevId := none, code := code, fields := fields } t, ?_, ?_, ?_⟩
      · show (Spec.visible k _ ++ r.entries).map Entry.toStream = _
        unfold Spec.visible
        rw [if_neg h0]
        simpa [Entry.toStream, Forest.entries] using h1
      · rw [decide_eq_false h0] at h2 ⊢
        simpa [Items.tree, Forest.plain, BRecord.plain, Tree.forest] using h2
      · rintro (h | h)
        · exact absurd h hn
        · exact absurd h h0
  | «abbrev» id code fields rest ih =>
    simp only [write, Option.bind_eq_bind, Option.bind_eq_some_iff, Option.some.injEq] at h
    obtain ⟨i, hi, d, hd, v, hv, r, hr', rfl⟩ := h
    obtain ⟨t, h1, h2, h3⟩ := ih hr'
    obtain ⟨hn, h0⟩ := lookup_block hd
    refine ⟨.record { abbrevId := some id, code := code, fields := fields } t, ?_, ?_, ?_⟩
    · show (Spec.visible k _ ++ r.entries).map Entry.toStream = _
      unfold Spec.visible
      rw [if_neg h0]
      simpa [Entry.toStream, Forest.entries] using h1
    · rw [decide_eq_false h0] at h2 ⊢
      simpa [Items.tree, Forest.plain, BRecord.plain, Tree.forest] using h2
    · rintro (h | h)
      · exact absurd h hn
      · exact absurd h h0
  | block id width body rest ihb ih =>
    simp only [write, Option.bind_eq_bind, Option.bind_eq_some_iff] at h
    obtain ⟨i, hi, b, hb, e, he, h⟩ := h
    split at h
    · simp only [Option.bind_eq_some_iff, Option.some.injEq] at h
      obtain ⟨r, hr, rfl⟩ := h
      obtain ⟨t, h1, h2, h3⟩ := ihb hb
      obtain ⟨u, g1, g2, g3⟩ := ih hr
      simp only at g2 g3
      by_cases h0 : id = 0
      · subst h0
        refine ⟨t.append u, ?_, ?_, fun hk => ?_⟩
        · simp [h1, g1, append_entries]
        · rw [plain_append, h2, g2]
          simp [Items.tree, forest_append, Ctx.enter]
        · rw [append_records, h3 (.inr rfl), g3 hk]; rfl
      · have key : ∀ n, ∃ t' : Forest, (Entry.start id n :: (b.entries ++ .finish :: r.entries)).map Entry.toStream = t'.entries ∧
            t'.plain = ((Items.block id width body rest).tree (decide (k.block = some 0))).forest ∧
            (k.block = none ∨ k.block = some 0 → t'.records = []) := by
          intro n
          refine ⟨.block { blockId := id, len := BitVec.ofNat 64 n } t u, ?_, ?_, fun hk => g3 hk⟩
          · simp [Entry.toStream, Forest.entries, h1, g1]
          · rw [show decide ((k.enter id width).block = some 0) = false from decide_eq_false fun h => h0 (Option.some.inj h)] at h2
            simp only [Items.tree, if_neg h0, Forest.plain, BBlock.plain, Tree.forest, g2, h2]
        simp only [if_neg h0]
        exact key _
    · simp at h

theorem entries_of_blocks {t : Forest} (h : t.records = []) : t.entries = completeEntries t.blocks := by
  induction t with
  | nil => rfl
  | record r rest ih => simp [Forest.records] at h
  | block s body rest _ ih =>
    simp [Forest.entries, Forest.blocks, completeEntries, ih h]

theorem blocks_plain (t : Forest) : t.plain.blocks = plainTops t.blocks := by
  induction t with
  | nil => rfl
  | record r rest ih => simp [Forest.plain, Forest.blocks, ih]
  | block s body rest _ ih => simp [Forest.plain, Forest.blocks, ih, plainTops]

/-- What a written stream consists of, apart from lengths and abbreviation ids. -/
theorem written_tops {magic : U32} {its : Items} {bytes : List U8} {es : List Entry}
    (h : streamBytes magic its = some (bytes, es)) :
    ∃ tops, es.map Entry.toStream = completeEntries tops ∧ plainTops tops = (its.tree false).tops := by
  obtain ⟨w, hw, rfl, -⟩ := open_written h
  obtain ⟨t, h1, h2, h3⟩ := write_tree hw
  refine ⟨t.blocks, by rw [h1, entries_of_blocks (h3 (.inl rfl))], ?_⟩
  rw [← blocks_plain, h2]
  rfl

/-! ## Mapping top-level blocks -/

/-- What mapping makes of top-level blocks. -/
def ofTops (pf : Profile) (target : Str) (tops : List (BBlock × Forest)) : Out MapperError Bitcode :=
  ((unrollBlocks tops).foldlM addTop []).mapErr UErr.toMapperError >>= fun ps => mapOut (PartialModule.reify pf target) ps >>= fun ms => .ok ⟨ms⟩

/-- The string tables are not too long for the indices into them. -/
def SmallTables (pf : Profile) (tops : List (BBlock × Forest)) : Prop :=
  ∀ c ∈ tops, ∀ bs, TableSays pf c.2.records bs → bs.length < 2 ^ 64

theorem unrollBlocks_stands (tops : List (BBlock × Forest)) : Each StandsFor tops (unrollBlocks tops) := by
  refine ⟨by simp [unrollBlocks], fun i c u hc hu => ?_⟩
  simp only [unrollBlocks, List.getElem?_map, hc, Option.map_some, Option.some.injEq] at hu
  subst hu
  exact addTo_unrolled _ _

theorem ofStream_tops (pf : Profile) (target : Str) {b : Bitstream} (ho : Opened pf b) {tops : List (BBlock × Forest)}
    (hd : Delivers pf b (completeEntries tops)) : Bitcode.ofStream pf target b = ofTops pf target tops := by
  obtain ⟨b₁, b₂, g1, g2⟩ := delivers_gives hd
  unfold Bitcode.ofStream ofTops
  rw [unroll_eq pf ho (P := []) (by simpa [openEntries] using g1) g2 (by simp)]
  congr 2
  generalize (unrollBlocks tops).foldlM addTop [] = x
  cases x <;> rfl

theorem ofTops_congr (pf : Profile) (target : Str) {tops tops' : List (BBlock × Forest)} (h : Each SameTop tops tops') :
    ofTops pf target tops = ofTops pf target tops' := by
  unfold ofTops
  refine OutRel.bind_eq (R := Each PartRel) (foldl_addTop_rel (unrollBlocks_rel h) (each_nil_left.2 rfl)).mapErr fun ps qs hpq => by
    rw [mapOut_congr (fun p q h => reify_congr pf target h) hpq]

theorem ofTops_judges (pf : Profile) (target : Str) {tops : List (BBlock × Forest)} (hs : SmallTables pf tops) :
    Judges (ofTops pf target tops) (First [TopsBad tops, All (PartsBad pf) (parts tops)]) := by
  have h := unrollBlocks_stands tops
  unfold ofTops
  rcases orderly_or (unrollBlocks tops) with ho | ⟨pre, u, post, m, he, ho, hm⟩
  · refine judges_skip (tops_none h ho) ?_
    rw [foldl_addTop_ok _ ho]
    refine judges_one ?_
    show Judges (mapOut (PartialModule.reify pf target) (pairs (unrollBlocks tops)) >>= fun ms => .ok (Bitcode.mk ms)) _
    refine Judges.andThen ?_
    have hp := parts_pairs h
    refine Judges.congr (judges_mapOut (c := fun q b => (q.reify pf target).Ends b) fun q _ b => Iff.rfl) fun x => ?_
    refine all_congr (each_mem hp.flip fun q p hq hpm h => ?_) x
    obtain ⟨g1, g2, g3, g4⟩ := h
    exact parts_judges pf target (fun c bs hc hbs => hs c (parts_strtab_mem hpm hc) bs hbs) g1 g2 g3 g4
  · rw [he, foldl_addTop_err ho hm]
    refine judges_found (b := .error (.unroll m)) (fun b => ?_) rfl
    show (Out.err (.unroll m) : Out MapperError Bitcode).Ends b ↔ _
    rw [err_ends, tops_some h he ho hm]

theorem ofTops_says (pf : Profile) (target : Str) {tops : List (BBlock × Forest)} (hs : SmallTables pf tops) (f : Bitcode) :
    ofTops pf target tops = .ok f ↔ FileSays pf target tops f := by
  have h := unrollBlocks_stands tops
  have hp := parts_pairs h
  have hmem : ∀ p ∈ parts tops, ∀ c bs, p.strtab = some c → TableSays pf c.2.records bs → bs.length < 2 ^ 64 :=
    fun p hp c bs hc hbs => hs c (parts_strtab_mem hp hc) bs hbs
  have key : mapOut (PartialModule.reify pf target) (pairs (unrollBlocks tops)) = .ok f.modules ↔
      Each (PartsSay pf target) (parts tops) f.modules := by
    rw [mapOut_eq_ok]
    unfold Each
    rw [hp.1]
    constructor
    · rintro ⟨h1, h2⟩
      refine ⟨h1, fun i p m hpi hm => ?_⟩
      have hlt : i < (pairs (unrollBlocks tops)).length := by rw [hp.1]; exact (List.getElem?_eq_some_iff.1 hpi).1
      obtain ⟨g1, g2, g3, g4⟩ := hp.2 i p _ hpi (List.getElem?_eq_getElem hlt)
      exact (reify_iff pf target (hmem p (List.mem_of_getElem? hpi)) g1 g2 g3 g4).1 (h2 i _ m (List.getElem?_eq_getElem hlt) hm)
    · rintro ⟨h1, h2⟩
      refine ⟨h1, fun i q m hq hm => ?_⟩
      have hlt : i < (parts tops).length := by rw [← hp.1]; exact (List.getElem?_eq_some_iff.1 hq).1
      obtain ⟨g1, g2, g3, g4⟩ := hp.2 i _ q (List.getElem?_eq_getElem hlt) hq
      exact (reify_iff pf target (hmem _ (List.getElem_mem hlt)) g1 g2 g3 g4).2 (h2 i _ m (List.getElem?_eq_getElem hlt) hm)
  unfold ofTops FileSays
  rw [← orderly_inOrder h, ← key]
  rcases orderly_or (unrollBlocks tops) with ho | ⟨pre, u, post, m, he, ho, hm⟩
  · rw [foldl_addTop_ok _ ho]
    show (mapOut _ _ >>= fun ms => Out.ok (Bitcode.mk ms)) = _ ↔ _
    rw [Out.bind_eq_ok]
    constructor
    · rintro ⟨ms, h1, h2⟩; cases h2; exact ⟨ho, h1⟩
    · rintro ⟨-, h1⟩; exact ⟨_, h1, rfl⟩
  · have hno : ¬ Orderly (unrollBlocks tops) := fun ho' => by
      have h1 := foldl_addTop_ok _ ho'
      rw [he, foldl_addTop_err ho hm] at h1
      cases h1
    constructor
    · intro h
      rw [he, foldl_addTop_err ho hm] at h
      cases h
    · intro h
      exact absurd h.1 hno

/-- C48 for files: no file in which a module has a function body [12] maps. -/
theorem C48_files (pf : Profile) (target : Str) (bytes : List U8) (hlen : bytes.length ≤ 2 ^ 61) {w : Option BitcodeWrapper} {b : Bitstream}
    (hb : Bitstream.from pf bytes = .ok (w, b)) {tops : List (BBlock × Forest)} (hd : Delivers pf b (completeEntries tops))
    {p : Parts (BBlock × Forest)} (hp : p ∈ parts tops) {c : BBlock × Forest} (hc : p.module = some c) (hbody : c.2.withId 12 ≠ [])
    (f : Bitcode) : Bitcode.tryFrom pf target bytes ≠ .ok f := by
  intro h
  have ho : Opened pf b := .auto hb
  have hl := from_len hb
  have hs : SmallTables pf tops := fun c hc bs hbs => by
    have := table_small ho (delivers_iterate hd) hc hbs
    omega
  have h1 : ofTops pf target tops = .ok f := by
    rw [← ofStream_tops pf target ho hd]
    unfold Bitcode.tryFrom at h
    rw [hb] at h
    exact h
  obtain ⟨-, hl, he⟩ := (ofTops_says pf target hs f).1 h1
  obtain ⟨i, hi⟩ := List.mem_iff_getElem?.1 hp
  have hlt : i < f.modules.length := by rw [hl]; exact (List.getElem?_eq_some_iff.1 hi).1
  obtain ⟨c', ctx, fs, as, hc', hm⟩ := (he i p _ hi (List.getElem?_eq_getElem hlt)).module
  rw [hc, Option.some.injEq] at hc'
  subst hc'
  exact hbody hm.noBodies

theorem plain_plain (t : Forest) : t.plain.plain = t.plain := by
  induction t with
  | nil => rfl
  | record r rest ih => simp [Forest.plain, BRecord.plain, ih]
  | block s body rest ih ih' => simp [Forest.plain, BBlock.plain, ih, ih']

theorem plainTops_same (tops : List (BBlock × Forest)) : Each SameTop tops (plainTops tops) := by
  refine ⟨by simp [plainTops], fun i c d hc hd => ?_⟩
  simp only [plainTops, List.getElem?_map, hc, Option.map_some, Option.some.injEq] at hd
  subst hd
  exact plain_sameTop (by simp [plain_plain, BBlock.plain])

theorem plainTops_small {pf : Profile} {tops : List (BBlock × Forest)} (h : SmallTables pf tops) :
    SmallTables pf (plainTops tops) := by
  intro c hc bs hbs
  obtain ⟨d, hd, rfl⟩ := List.mem_map.1 hc
  refine h d hd bs ?_
  have hr : SameRecords d.2.records d.2.plain.records := plain_records (plain_plain d.2).symm
  have h1 : StandsFor d (d.2.addTo (UBlock.new d.1.blockId)) := addTo_unrolled _ _
  have h2 : StandsFor (d.1.plain, d.2.plain) (d.2.plain.addTo (UBlock.new d.1.blockId)) := addTo_unrolled _ _
  refine (strtab_says pf h1 ⟨bs⟩).1 ?_
  rw [strtab_congr pf (v := d.2.plain.addTo (UBlock.new d.1.blockId)) (by rw [h1.records, h2.records]; exact hr.first 1)]
  exact (strtab_says pf h2 ⟨bs⟩).2 hbs

theorem tryFrom_written (pf : Profile) (target : Str) {magic : U32} {its : Items} {bytes : List U8} {es : List Entry}
    (h : streamBytes magic its = some (bytes, es)) (hm : magic ≠ 0x0B17C0DE) (hlen : bytes.length ≤ 2 ^ 61) :
    Bitcode.tryFrom pf target bytes = ofTops pf target (its.tree false).tops ∧ SmallTables pf (its.tree false).tops := by
  obtain ⟨tops, h1, h2⟩ := written_tops h
  obtain ⟨b, hb, -, hd⟩ := Props.C18_stream_roundtrip_from pf h hm
  rw [h1] at hd
  have ho : Opened pf b := .auto hb
  have hl := from_len hb
  have hs : SmallTables pf tops := fun c hc bs hbs => by
    have := table_small ho (delivers_iterate hd) hc hbs
    omega
  rw [← h2]
  refine ⟨?_, plainTops_small hs⟩
  rw [← ofTops_congr pf target (plainTops_same tops), ← ofStream_tops pf target ho hd]
  unfold Bitcode.tryFrom
  rw [hb]
  rfl

/-- C69. A written file maps to `f` exactly if the contents that were written say `f`, however they were encoded. -/
theorem C69_maps (pf : Profile) (target : Str) {magic : U32} {its : Items} {bytes : List U8} {es : List Entry}
    (h : streamBytes magic its = some (bytes, es)) (hm : magic ≠ 0x0B17C0DE) (hlen : bytes.length ≤ 2 ^ 61) (f : Bitcode) :
    Bitcode.tryFrom pf target bytes = .ok f ↔ FileSays pf target (its.tree false).tops f := by
  obtain ⟨h1, h2⟩ := tryFrom_written pf target h hm hlen
  rw [h1]
  exact ofTops_says pf target h2 f

/-- C69. A written file is rejected, or makes the mapper stop, exactly if something is wrong with the contents that were written;
first with the order of the blocks, then with the modules in turn. -/
theorem C69_fails (pf : Profile) (target : Str) {magic : U32} {its : Items} {bytes : List U8} {es : List Entry}
    (h : streamBytes magic its = some (bytes, es)) (hm : magic ≠ 0x0B17C0DE) (hlen : bytes.length ≤ 2 ^ 61)
    (bad : Bad MapperError) :
    (Bitcode.tryFrom pf target bytes).Ends bad ↔
      First [TopsBad (its.tree false).tops, All (PartsBad pf) (parts (its.tree false).tops)] bad := by
  obtain ⟨h1, h2⟩ := tryFrom_written pf target h hm hlen
  rw [h1]
  exact ofTops_judges pf target h2 bad

theorem dump_plain (t : Forest) : ∀ depth, t.plain.dump depth = t.dump depth := by
  induction t with
  | nil => intro _; rfl
  | record r rest ih => intro d; simp only [Forest.plain, Forest.dump, ih]; rfl
  | block s body rest ih ih' => intro d; simp only [Forest.plain, Forest.dump, ih, ih']; rfl

theorem dumpTops_plain (tops : List (BBlock × Forest)) : dumpTops (plainTops tops) = dumpTops tops := by
  unfold dumpTops plainTops
  rw [List.flatMap_map]
  simp only [dump_plain]
  rfl

/-- C69. Dumping a written file prints the contents that were written, and ends well. -/
theorem C69_dumps (pf : Profile) {magic : U32} {its : Items} {bytes : List U8} {es : List Entry}
    (h : streamBytes magic its = some (bytes, es)) (hm : magic ≠ 0x0B17C0DE) (hlen : bytes.length < 2 ^ 60) :
    ∃ l, HexText magic.toNat l ∧ Dump.main pf bytes = (dumpHeader none l ++ dumpTops (its.tree false).tops, .ok ()) := by
  obtain ⟨tops, h1, h2⟩ := written_tops h
  rw [← h2, dumpTops_plain]
  exact C61_written pf h hm hlen h1

/-! ## Everything can be written -/

theorem encVbr_length (w : Nat) (hw : 2 ≤ w) (v : U64) : ∃ n, (encVbr w v).length = w * n ∧ (n - 1) * (w - 1) < 64 :=
  ⟨_, Cursor.rawVbr_length _ _, (Cursor.vbrChunks_spec w hw 64 v.toNat v.isLt (by omega)).2.2.2 64 v.isLt (by omega)⟩

theorem enc6_length (v : U64) : (encVbr 6 v).length ≤ 78 := by
  obtain ⟨n, h1, h2⟩ := encVbr_length 6 (by omega) v
  omega

theorem enc8_length (v : U64) : (encVbr 8 v).length ≤ 80 := by
  obtain ⟨n, h1, h2⟩ := encVbr_length 8 (by omega) v
  omega

theorem vbr6s_length (l : List U64) : (vbr6s l).length ≤ 78 * l.length := by
  induction l with
  | nil => simp [vbr6s]
  | cons v l ih =>
    have := enc6_length v
    simp only [vbr6s, List.length_append, List.length_cons]
    omega

theorem idBits_two {k : Ctx} (hk : k.width = 2) (id : U64) (h : id.toNat < 4) :
    idBits k id = some (bitsOfNat 2 id.toNat) := by
  unfold idBits
  rw [hk]
  exact if_pos ⟨by decide, by decide, h⟩

theorem write_plain (t : Tree) : ∀ (k : Ctx) (pos : Nat), k.width = 2 → k.block ≠ some 0 → (k.block = none → t.OnlyBlocks) →
    t.NoInfo → t.weight ≤ 2 ^ 30 →
    ∃ w, write k pos t.items = some w ∧ w.bits.length ≤ 78 * t.weight ∧ w.after = k := by
  induction t with
  | nil => intro k pos _ _ _ _ _; exact ⟨_, rfl, by simp, rfl⟩
  | record code fields rest ih =>
    intro k pos hw h0 hb hn hl
    obtain ⟨b, hkb⟩ : ∃ b, k.block = some b := by
      cases h : k.block with
      | none => exact (hb h).elim
      | some b => exact ⟨b, rfl⟩
    have hu : k.unabbrev code fields = some k := by
      unfold Ctx.unabbrev
      rw [hkb]
      exact if_neg fun h => h0 (by rw [hkb, h])
    unfold Tree.weight at hl
    obtain ⟨w, h1, h2, h3⟩ := ih k (pos + (bitsOfNat 2 3 ++ (encVbr 6 code ++ (encVbr 6 (BitVec.ofNat 64 fields.length) ++
      vbr6s fields))).length) hw h0 (fun h => by rw [hkb] at h; cases h) hn (by omega)
    have hc : unabbrevBits code fields =
        some (encVbr 6 code ++ (encVbr 6 (BitVec.ofNat 64 fields.length) ++ vbr6s fields)) := by
      unfold unabbrevBits countBits
      rw [if_pos (by omega)]
      rfl
    refine ⟨{ bits := bitsOfNat 2 3 ++ (encVbr 6 code ++ (encVbr 6 (BitVec.ofNat 64 fields.length) ++ vbr6s fields)) ++ w.bits
              entries := Spec.visible k (.record none code fields) ++ w.entries
              after := w.after }, by
      simp only [Tree.items, write, idBits_two hw 3 (by decide), hc, hu, Option.bind_eq_bind, Option.bind_some]
      rw [show (3 : U64).toNat = 3 from rfl, h1]
      rfl, ?_, h3⟩
    have e1 := enc6_length code
    have e2 := enc6_length (BitVec.ofNat 64 fields.length)
    have e3 := vbr6s_length fields
    simp only [List.length_append, bitsOfNat_length, Tree.weight]
    omega
  | block id body rest ihb ih =>
    intro k pos hw h0 hb hn hl
    obtain ⟨hid, hn1, hn2⟩ := hn
    unfold Tree.weight at hl
    generalize hhead : bitsOfNat 2 1 ++ (encVbr 8 id ++ encVbr 4 2) ++
      pad32 (pos + (bitsOfNat 2 1 ++ (encVbr 8 id ++ encVbr 4 2)).length) = head
    have hhl : head.length ≤ 117 := by
      rw [← hhead]
      have e1 := enc8_length id
      have e2 : (encVbr 4 2).length = 4 := by decide
      have e3 := pad32_length (pos + (bitsOfNat 2 1 ++ (encVbr 8 id ++ encVbr 4 2)).length)
      simp only [List.length_append, bitsOfNat_length] at e3 ⊢
      omega
    obtain ⟨w, h1, h2, h3⟩ := ihb (k.enter id 2) (pos + (head.length + 32)) rfl (fun h => hid (Option.some.inj h))
      (fun h => by cases h) hn1 (by omega)
    generalize htail : bitsOfNat 2 0 ++ pad32 (pos + (head.length + 32) + (w.bits.length + (bitsOfNat 2 0).length)) = tail
    have htl : tail.length ≤ 33 := by
      rw [← htail]
      have e3 := pad32_length (pos + (head.length + 32) + (w.bits.length + (bitsOfNat 2 0).length))
      simp only [List.length_append, bitsOfNat_length] at e3 ⊢
      omega
    generalize hwords : (w.bits.length + tail.length) / 32 = words
    obtain ⟨r, g1, g2, g3⟩ := ih k (pos + (head ++ (bitsOfNat 32 words ++ (w.bits ++ tail))).length) hw h0
      (fun h => hb h) hn2 (by omega)
    refine ⟨{ bits := head ++ (bitsOfNat 32 words ++ (w.bits ++ tail)) ++ r.bits
              entries := if id = 0 then w.entries ++ r.entries
                else .start id (4 * words) :: (w.entries ++ .finish :: r.entries)
              after := r.after }, by
      simp only [Tree.items, write, idBits_two hw 1 (by decide), Option.bind_eq_bind, Option.bind_some]
      rw [show (1 : U64).toNat = 1 from rfl, hhead, h1]
      simp only [Option.bind_some]
      rw [h3, idBits_two (k := k.enter id 2) rfl 0 (by decide)]
      simp only [Option.bind_some]
      rw [show (0 : U64).toNat = 0 from rfl, htail, hwords, if_pos (by omega)]
      rw [show ({ k with info := (k.enter id 2).info } : Ctx) = k from rfl, g1]
      rfl, ?_, g3⟩
    simp only [List.length_append, bitsOfNat_length, Tree.weight]
    omega

theorem items_tree (t : Tree) (h : t.NoInfo) : t.items.tree false = t := by
  induction t with
  | nil => rfl
  | record code fields rest ih => simp [Tree.items, Items.tree, ih h]
  | block id body rest ihb ih =>
    obtain ⟨h0, h1, h2⟩ := h
    simp only [Tree.items, Items.tree, if_neg h0, ihb h1, ih h2]

/-- C69. All contents can be written, with any magic number: blocks at the top, none of them BLOCKINFO, and not too much for the
field with the length of a block. -/
theorem C69_writes (magic : U32) (t : Tree) (ht : t.OnlyBlocks) (hn : t.NoInfo) (hw : t.weight ≤ 2 ^ 30) :
    ∃ bytes es, streamBytes magic t.items = some (bytes, es) ∧ t.items.tree false = t ∧ bytes.length ≤ 4 + 10 * t.weight := by
  obtain ⟨w, h1, h2, -⟩ := write_plain t Ctx.start 32 rfl (by decide) (fun _ => ht) hn hw
  refine ⟨_, _, by simp only [streamBytes, writeStream, h1, Option.bind_eq_bind, Option.bind_some]; rfl, items_tree t hn, ?_⟩
  rw [pack_length]
  simp only [List.length_append, bitsOfNat_length]
  omega

/-- C69. So for all contents there are bytes that map to what they say, or to what is wrong with them. -/
theorem C69_all (pf : Profile) (target : Str) (t : Tree) (ht : t.OnlyBlocks) (hn : t.NoInfo) (hw : t.weight ≤ 2 ^ 30) :
    ∃ bytes, (∀ f, Bitcode.tryFrom pf target bytes = .ok f ↔ FileSays pf target t.tops f) ∧
      ∀ bad, (Bitcode.tryFrom pf target bytes).Ends bad ↔ First [TopsBad t.tops, All (PartsBad pf) (parts t.tops)] bad := by
  obtain ⟨bytes, es, h1, h2, h3⟩ := C69_writes 0xdec04342 t ht hn hw
  have hl : bytes.length ≤ 2 ^ 61 := by omega
  refine ⟨bytes, fun f => ?_, fun bad => ?_⟩
  · rw [C69_maps pf target h1 (by decide) hl, h2]
  · rw [C69_fails pf target h1 (by decide) hl, h2]

/-! `exFile` is written with abbreviations and three different widths. Its contents say `exBitcode`; and they can also be written
without all that. -/

theorem exTree_says (pf : Profile) : FileSays pf "t".toList (exFile.tree false).tops exBitcode := by
  have h := exFile_maps pf
  have hl : (streamBytes 0xdec04342 exFile).map (fun x => decide (x.1.length ≤ 2 ^ 61)) = some true := by decide +kernel
  cases hs : streamBytes 0xdec04342 exFile with
  | none => rw [hs] at h; cases h
  | some x =>
    rw [hs] at h hl
    exact (C69_maps pf _ hs (by decide) (by simpa using hl) _).1 (Option.some.inj h)

example : (exFile.tree false).OnlyBlocks ∧ (exFile.tree false).NoInfo ∧ (exFile.tree false).weight ≤ 2 ^ 8 ∧
    (exFile.tree false).items ≠ exFile := by
  refine ⟨?_, ?_, by decide +kernel, by decide +kernel⟩
  · simp [exFile, Items.tree, Tree.OnlyBlocks]
  · simp [exFile, Items.tree, Tree.NoInfo]

example (pf : Profile) : ∃ bytes, Bitcode.tryFrom pf "t".toList bytes = .ok exBitcode := by
  obtain ⟨bytes, h, -⟩ := C69_all pf "t".toList (exFile.tree false) (by simp [exFile, Items.tree, Tree.OnlyBlocks])
    (by simp [exFile, Items.tree, Tree.NoInfo]) (by decide +kernel)
  exact ⟨bytes, (h _).2 (exTree_says pf)⟩

end Verif
