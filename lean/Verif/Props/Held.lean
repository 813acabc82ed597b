import Verif.Mapper.HeldSpec
import Verif.Props.AttrSizes

/-!
# C88: what the unrolled blocks of a file hold
-/

namespace Verif
open Spec

/-! ## One block -/

theorem held_push (bs : Blocks) (k : BlockId) (u : UBlock) :
    fieldsHeldById (bs.push k u) = fieldsHeldById bs + fieldsHeld u := by
  have hall : ∀ us : List UBlock, fieldsHeldByAll (us ++ [u]) = fieldsHeldByAll us + fieldsHeld u := by
    intro us
    induction us with
    | nil => simp [fieldsHeldByAll]
    | cons v us ih => rw [List.cons_append, fieldsHeldByAll, fieldsHeldByAll, ih]; omega
  induction bs with
  | nil => simp [Blocks.push, fieldsHeldById, fieldsHeldByEntry, fieldsHeldByAll]
  | cons e bs ih =>
    obtain ⟨k', l⟩ := e
    rw [Blocks.push]
    split
    · rw [fieldsHeldById, fieldsHeldById, fieldsHeldByEntry, fieldsHeldByEntry, hall]; omega
    · rw [fieldsHeldById, fieldsHeldById, ih]; omega

/-- A block holds every field of its contents once. -/
theorem held_addTo (t : Forest) (acc : UBlock) :
    fieldsHeld (t.addTo acc) = fieldsHeld acc + (t.entries.map Props.weight).sum := by
  induction t generalizing acc with
  | nil => simp [Forest.addTo, Forest.entries]
  | record r rest ih =>
    rw [Forest.addTo, ih]
    obtain ⟨i, rs, bs⟩ := acc
    simp only [UBlock.pushRecord, UBlock.records, UBlock.blocks, fieldsHeld, Forest.entries, List.map_append, List.map_cons, List.map_nil,
      List.sum_append_nat, List.sum_cons, List.sum_nil, Props.weight]
    omega
  | block s body rest ihb ih =>
    rw [Forest.addTo, ih]
    have hb := ihb (UBlock.new s.blockId)
    rw [show fieldsHeld (UBlock.new s.blockId) = 0 from rfl] at hb
    obtain ⟨i, rs, bs⟩ := acc
    simp only [UBlock.pushBlock, UBlock.records, UBlock.blocks, fieldsHeld, Forest.entries, List.map_append, List.map_cons,
      List.sum_append_nat, List.sum_cons, Props.weight, held_push, hb]
    omega

theorem held_unrolled (l : List (BBlock × Forest)) :
    ((unrollBlocks l).map fieldsHeld).sum = ((completeEntries l).map Props.weight).sum := by
  induction l with
  | nil => rfl
  | cons c l ih =>
    have := held_addTo c.2 (UBlock.new c.1.blockId)
    rw [show fieldsHeld (UBlock.new c.1.blockId) = 0 from rfl] at this
    simp only [unrollBlocks, completeEntries, List.map_cons, List.sum_cons, List.flatMap_cons, List.map_append, List.sum_append_nat,
      Props.weight, List.map_nil, List.sum_nil] at ih ⊢
    omega

/-! ## All modules -/

theorem unroll_fold {pf : Profile} {b : Bitstream} (h : Opened pf b) {tops : List (BBlock × Forest)}
    (hd : Delivers pf b (completeEntries tops)) : unroll pf b = ((unrollBlocks tops).foldlM addTop [] >>= .ok) := by
  have gd : ∀ (es : List StreamEntry) (b : Bitstream), Delivers pf b es →
      ∃ b₁ b₂, Gives pf b es b₁ ∧ Bitstream.next pf b₁ = (.done, b₂) := by
    intro es
    induction es with
    | nil => rintro b ⟨b', h1, -⟩; exact ⟨b, b', .nil _, h1⟩
    | cons e es ih =>
      rintro b ⟨b', h1, h2⟩
      obtain ⟨b₁, b₂, h3, h4⟩ := ih b' h2
      exact ⟨b₁, b₂, .cons h1 h3, h4⟩
  obtain ⟨b₁, b₂, g1, g2⟩ := gd _ _ hd
  have hl := iterate_bound (pf := pf) (completeEntries tops).length h.start.1
  rw [delivers_iterate hd] at hl
  have hfuel : (completeEntries tops).length < unrollFuel b := by
    have : b.len = b.parser.cursor.bitLen := rfl
    unfold unrollFuel; omega
  exact unrollLoop_spec (P := []) tops (by simpa [openEntries] using g1) g2 (by simp) (by simpa [openEntries] using hfuel)

theorem unroll_delivered {pf : Profile} {b : Bitstream} (h : Opened pf b) {tops : List (BBlock × Forest)}
    (hd : Delivers pf b (completeEntries tops)) {ps : List PartialModule} (hok : unroll pf b = .ok ps) :
    ps = pairs (unrollBlocks tops) := by
  have key := unroll_fold h hd
  rcases orderly_or (unrollBlocks tops) with ho | ⟨pre, u, post, m, he, ho, hm⟩
  · rw [key, foldl_addTop_ok _ ho] at hok
    exact (Out.ok.inj hok).symm
  · rw [key, he, foldl_addTop_err ho hm] at hok
    cases hok

theorem find_held (l : List UBlock) (p : UBlock → Bool) : (l.find? p).elim 0 fieldsHeld ≤ (l.map fieldsHeld).sum := by
  induction l with
  | nil => exact Nat.le_refl _
  | cons c l ih =>
    simp only [List.find?_cons, List.map_cons, List.sum_cons]
    split
    · simp only [Option.elim_some]; omega
    · omega

theorem pairs_skip (us : List UBlock) : pairs (us.dropWhile fun v => !isIdentification v) = pairs us := by
  induction us with
  | nil => rfl
  | cons u us ih =>
    by_cases h : isIdentification u = true
    · simp [h]
    · rw [List.dropWhile_cons_of_pos (by simpa using h), ih, pairs, if_neg h]

theorem pairs_own (us : List UBlock) : ((pairs us).map ownFields).sum ≤ (us.map fieldsHeld).sum := by
  obtain ⟨n, hn⟩ : ∃ n, us.length ≤ n := ⟨_, Nat.le_refl _⟩
  induction n generalizing us with
  | zero => rw [List.eq_nil_of_length_eq_zero (by omega : us.length = 0)]; exact Nat.le_refl _
  | succ n ih =>
    cases us with
    | nil => exact Nat.le_refl _
    | cons u us =>
      rw [List.length_cons] at hn
      by_cases h : isIdentification u = true
      · rw [pairs, if_pos h, ← pairs_skip us]
        have h1 := ih (us.dropWhile fun v => !isIdentification v) (by
          have := (List.dropWhile_suffix (l := us) fun v => !isIdentification v).length_le; omega)
        have h2 := find_held (us.takeWhile fun v => !isIdentification v) isModule
        have h3 : (us.map fieldsHeld).sum = ((us.takeWhile fun v => !isIdentification v).map fieldsHeld).sum +
            ((us.dropWhile fun v => !isIdentification v).map fieldsHeld).sum := by
          rw [← List.sum_append_nat, ← List.map_append, List.takeWhile_append_dropWhile]
        simp only [List.map_cons, List.sum_cons, ownFields]
        omega
      · rw [pairs, if_neg h]
        have := ih us (by omega)
        simp only [List.map_cons, List.sum_cons]; omega

theorem pairs_tables (us : List UBlock) :
    (pairs us).length ≤ us.length ∧ ((pairs us).map tableFields).sum ≤ 2 * ((pairs us).length * (us.map fieldsHeld).sum) := by
  suffices h : ∀ us : List UBlock, ∀ k, (us.map fieldsHeld).sum ≤ k →
      (pairs us).length ≤ us.length ∧ ((pairs us).map tableFields).sum ≤ 2 * ((pairs us).length * k) from h us _ (Nat.le_refl _)
  intro us
  induction us with
  | nil => exact fun k _ => ⟨Nat.le_refl _, Nat.zero_le _⟩
  | cons u us ih =>
    intro k hk
    rw [List.map_cons, List.sum_cons] at hk
    obtain ⟨h1, h2⟩ := ih k (by omega)
    rw [pairs]
    split
    · have g1 := find_held us isStrtab
      have g2 := find_held us isSymtab
      simp only [List.map_cons, List.sum_cons, List.length_cons, tableFields, Nat.add_mul, Nat.one_mul, Nat.mul_add] at h2 ⊢
      exact ⟨by omega, by omega⟩
    · rw [List.length_cons]; exact ⟨by omega, h2⟩

/-- C88, in full, would bound what all modules hold by the fields that were read. What holds: this is so for what they hold apart from the
tables, and their tables hold at most twice that for each module, so that all together is bounded by the cube of the length of the file. -/
theorem C88_held_partial (pf : Profile) {bytes : List U8} {w : Option BitcodeWrapper} {b : Bitstream} (hb : Bitstream.from pf bytes = .ok (w, b))
    {ps : List PartialModule} (h : unroll pf b = .ok ps) : ∃ es, Delivers pf b es ∧
      (ps.map ownFields).sum ≤ (es.map Props.weight).sum ∧
      (ps.map tableFields).sum ≤ 2 * (ps.length * (es.map Props.weight).sum) ∧
      (ps.map fun p => ownFields p + tableFields p).sum ≤ 3 * (8 * bytes.length) ^ 3 := by
  have ho : Opened pf b := .auto hb
  obtain ⟨tops, -, hd, -⟩ := C29_pairing pf ho h
  have hps := unroll_delivered ho hd h
  have h1 := pairs_own (unrollBlocks tops)
  obtain ⟨h2, h3⟩ := pairs_tables (unrollBlocks tops)
  rw [← hps, held_unrolled] at h1 h3
  refine ⟨_, hd, h1, h3, ?_⟩
  have hl := from_len hb
  have hit := delivers_iterate hd
  have h4 := Props.C54_total pf ho (completeEntries tops).length
  rw [hit] at h4
  have h5 := iterate_bound (pf := pf) (completeEntries tops).length ho.start.1
  rw [hit] at h5
  have h6 := tops_length tops
  have h7 : ps.length ≤ b.len := by
    rw [hps]
    simp only [unrollBlocks, List.length_map] at h2
    unfold unrollBlocks
    omega
  have hsum : (ps.map fun p => ownFields p + tableFields p).sum = (ps.map ownFields).sum + (ps.map tableFields).sum := by
    clear hps h h2 h1 h3 h7
    induction ps with
    | nil => rfl
    | cons p ps ih => simp only [List.map_cons, List.sum_cons, ih]; omega
  rw [hsum]
  have h8 : (ps.map tableFields).sum ≤ 2 * (b.len * (b.len * b.len)) :=
    Nat.le_trans h3 (Nat.mul_le_mul_left 2 (Nat.mul_le_mul h7 h4))
  have h9 : (ps.map ownFields).sum ≤ b.len * (b.len * b.len) := by
    rcases Nat.eq_zero_or_pos b.len with h0 | h0
    · rw [h0] at h4
      omega
    · exact Nat.le_trans h1 (Nat.le_trans h4 (Nat.le_mul_of_pos_left _ h0))
  have h10 : b.len * (b.len * b.len) ≤ (8 * bytes.length) ^ 3 := by
    rw [Nat.pow_succ, Nat.pow_two, Nat.mul_assoc]
    have : b.len ≤ 8 * bytes.length := by omega
    exact Nat.mul_le_mul this (Nat.mul_le_mul this this)
  omega

/-! ## Files that do not share tables -/

theorem unrolled_id (c : BBlock × Forest) : (c.2.addTo (UBlock.new c.1.blockId)).id = .ofU64 c.1.blockId := by
  rw [addTo_id]; rfl

theorem find_three (l : List UBlock) : (l.find? isModule).elim 0 fieldsHeld + (l.find? isStrtab).elim 0 fieldsHeld +
    (l.find? isSymtab).elim 0 fieldsHeld ≤ (l.map fieldsHeld).sum := by
  have hf : ∀ (p : UBlock → Bool), (l.find? p).elim 0 fieldsHeld ≤ ((l.filter p).map fieldsHeld).sum := by
    intro p
    induction l with
    | nil => exact Nat.le_refl _
    | cons u l ih =>
      by_cases hp : p u = true
      · simp [hp]
      · simpa [hp] using ih
  have hs : ((l.filter isModule).map fieldsHeld).sum + ((l.filter isStrtab).map fieldsHeld).sum +
      ((l.filter isSymtab).map fieldsHeld).sum ≤ (l.map fieldsHeld).sum := by
    clear hf
    induction l with
    | nil => exact Nat.le_refl _
    | cons u l ih =>
      simp only [List.filter_cons, List.map_cons, List.sum_cons, isModule, isStrtab, isSymtab, beq_iff_eq] at ih ⊢
      by_cases h1 : u.id = .ir .module
      · simp only [h1, if_true, List.map_cons, List.sum_cons, reduceCtorEq, if_false, BlockId.ir.injEq]; omega
      · by_cases h2 : u.id = .ir .strtab
        · simp only [h2, if_true, List.map_cons, List.sum_cons, reduceCtorEq, if_false, BlockId.ir.injEq]; omega
        · by_cases h3 : u.id = .ir .symtab
          · simp only [h3, if_true, List.map_cons, List.sum_cons, reduceCtorEq, if_false, BlockId.ir.injEq]; omega
          · simp only [h1, h2, h3, if_false]; omega
  have h1 := hf isModule
  have h2 := hf isStrtab
  have h3 := hf isSymtab
  omega

theorem pairs_once (us : List UBlock)
    (hs : ∀ pre i mid j post, us = pre ++ i :: mid ++ j :: post → i.id = .ir .identification → j.id = .ir .identification →
      (∀ v ∈ mid, v.id ≠ .ir .identification) → (∃ v ∈ mid, v.id = .ir .strtab) ∧
        ((∃ v ∈ mid, v.id = .ir .symtab) ∨ ∀ v ∈ post, v.id ≠ .ir .symtab)) :
    ((pairs us).map fun p => ownFields p + tableFields p).sum ≤ (us.map fieldsHeld).sum := by
  obtain ⟨n, hn⟩ : ∃ n, us.length ≤ n := ⟨_, Nat.le_refl _⟩
  induction n generalizing us with
  | zero => rw [List.eq_nil_of_length_eq_zero (by omega : us.length = 0)]; exact Nat.le_refl _
  | succ n ih =>
    cases us with
    | nil => exact Nat.le_refl _
    | cons u us =>
      rw [List.length_cons] at hn
      by_cases h : isIdentification u = true
      · rw [pairs, if_pos h, ← pairs_skip us]
        have hcut : us = (us.takeWhile fun v => !isIdentification v) ++ us.dropWhile fun v => !isIdentification v :=
          List.takeWhile_append_dropWhile.symm
        have hnone : ∀ v ∈ us.takeWhile fun v => !isIdentification v, v.id ≠ .ir .identification := by
          intro v hv
          have := List.all_eq_true.1 List.all_takeWhile v hv
          simpa [isIdentification] using this
        have hlen := (List.dropWhile_suffix (l := us) fun v => !isIdentification v).length_le
        have hhead : ∀ j post, (us.dropWhile fun v => !isIdentification v) = j :: post → j.id = .ir .identification := by
          intro j post hj
          have := List.head?_dropWhile_not (fun v => !isIdentification v) us
          rw [hj] at this
          simpa [isIdentification] using this
        generalize (us.takeWhile fun v => !isIdentification v) = mid at hcut hnone ⊢
        generalize (us.dropWhile fun v => !isIdentification v) = tail at hcut hlen hhead ⊢
        subst hcut
        have h1 := ih tail (by
          intro pre i m j post he
          exact hs (u :: mid ++ pre) i m j post (by rw [he]; simp)) (by omega)
        have h2 := find_three mid
        have h3 : ((mid ++ tail).find? isStrtab).elim 0 fieldsHeld ≤ (mid.find? isStrtab).elim 0 fieldsHeld ∧
            ((mid ++ tail).find? isSymtab).elim 0 fieldsHeld ≤ (mid.find? isSymtab).elim 0 fieldsHeld := by
          have key : ∀ p : UBlock → Bool, (∃ v ∈ mid, p v = true) ∨ (∀ v ∈ tail, p v = false) →
              ((mid ++ tail).find? p).elim 0 fieldsHeld ≤ (mid.find? p).elim 0 fieldsHeld := by
            intro p hp
            rw [List.find?_append]
            rcases hp with ⟨v, hv, hp⟩ | hp
            · cases hm : mid.find? p with
              | none => exact absurd hp (by simpa using List.find?_eq_none.1 hm v hv)
              | some x => exact Nat.le_refl _
            · rw [show tail.find? p = none from List.find?_eq_none.2 (by simpa using hp), Option.or_none]
              exact Nat.le_refl _
          match htail : tail with
          | [] => exact ⟨key _ (.inr (by simp)), key _ (.inr (by simp))⟩
          | j :: post =>
            have hj := hhead j post rfl
            obtain ⟨⟨v, hv, hv'⟩, hsym⟩ := hs [] u mid j post (by simp) (by simpa [isIdentification] using h) hj hnone
            refine ⟨key _ (.inl ⟨v, hv, by simp [isStrtab, hv']⟩), key _ ?_⟩
            rcases hsym with ⟨v, hv, hv'⟩ | hsym
            · exact .inl ⟨v, hv, by simp [isSymtab, hv']⟩
            · refine .inr fun v hv => ?_
              rcases List.mem_cons.1 hv with rfl | hv
              · simp [isSymtab, hj]
              · simpa [isSymtab] using hsym v hv
        simp only [List.map_cons, List.sum_cons, ownFields, tableFields, List.map_append, List.sum_append_nat] at h1 ⊢
        omega
      · rw [pairs, if_neg h]
        have := ih us (fun pre i mid j post he => hs (u :: pre) i mid j post (by rw [he]; simp)) (by omega)
        simp only [List.map_cons, List.sum_cons]; omega

/-- C88 holds for files that do not share tables: if a string table comes before the next identification block, and also a symbol table unless
none comes later, then all modules together hold no more fields than were read. -/
theorem C88_unshared_partial (pf : Profile) {b : Bitstream} (ho : Opened pf b) {tops : List (BBlock × Forest)}
    (hd : Delivers pf b (completeEntries tops)) {ps : List PartialModule} (h : unroll pf b = .ok ps)
    (hs : ∀ pre i mid j post, tops = pre ++ i :: mid ++ j :: post → i.1.blockId = 13 → j.1.blockId = 13 →
      (∀ c ∈ mid, c.1.blockId ≠ 13) → (∃ c ∈ mid, c.1.blockId = 23) ∧
        ((∃ c ∈ mid, c.1.blockId = 25) ∨ ∀ c ∈ post, c.1.blockId ≠ 25)) :
    (ps.map fun p => ownFields p + tableFields p).sum ≤ ((completeEntries tops).map Props.weight).sum := by
  rw [unroll_delivered ho hd h, ← held_unrolled]
  refine pairs_once _ fun pre i mid j post he hi hj hm => ?_
  unfold unrollBlocks at he
  rw [List.map_eq_append_iff] at he
  obtain ⟨l, l', rfl, hl, hl'⟩ := he
  rw [List.map_eq_append_iff] at hl
  obtain ⟨pre, l, rfl, rfl, hl⟩ := hl
  rw [List.map_eq_cons_iff] at hl hl'
  obtain ⟨i, mid, rfl, rfl, rfl⟩ := hl
  obtain ⟨j, post, rfl, rfl, rfl⟩ := hl'
  have back : ∀ (c : BBlock × Forest) (k : U64), BlockId.ofU64 k = (c.2.addTo (UBlock.new c.1.blockId)).id ↔ c.1.blockId = k := by
    intro c k
    rw [unrolled_id]
    exact ⟨fun h => (BlockId.ofU64_injective h).symm, fun h => by rw [h]⟩
  have e13 : BlockId.ir .identification = .ofU64 13 := by decide
  have e23 : BlockId.ir .strtab = .ofU64 23 := by decide
  have e25 : BlockId.ir .symtab = .ofU64 25 := by decide
  rw [e13] at hi hj hm
  rw [e23, e25]
  obtain ⟨⟨c, hc, hc'⟩, hsym⟩ := hs pre i mid j post rfl ((back i 13).1 hi.symm) ((back j 13).1 hj.symm) fun c hc h =>
    hm _ (List.mem_map_of_mem hc) ((back c 13).2 h).symm
  refine ⟨⟨_, List.mem_map_of_mem hc, ((back c 23).2 hc').symm⟩, ?_⟩
  rcases hsym with ⟨d, hd, hd'⟩ | hsym
  · exact .inl ⟨_, List.mem_map_of_mem hd, ((back d 25).2 hd').symm⟩
  · refine .inr fun v hv h => ?_
    obtain ⟨d, hd, rfl⟩ := List.mem_map.1 hv
    exact hsym d hd ((back d 25).1 h.symm)

/-! ## Files that reach it -/

/-- A module without types. -/
def emptyModule : Items := .unabbrev 1 [2] (.block 17 2 (.unabbrev 1 [0] .nil) (.block 14 2 .nil .nil))

/-- `k` modules, and a block of `n` records of `n` fields that is the string table of all of them. -/
def clones (n : Nat) : Nat → Items
  | 0 => .block 23 3 (literals 1 (List.replicate n 97) n) .nil
  | k + 1 => .block 13 2 (.unabbrev 1 [76, 76] (.unabbrev 2 [0] .nil)) (.block 8 2 emptyModule (clones n k))

def clonesTree (n : Nat) : Nat → Tree
  | 0 => .block 23 (repeated 1 (List.replicate n 97) n) .nil
  | k + 1 => .block 13 (.record 1 [76, 76] (.record 2 [0] .nil)) (.block 8 (typesModule [⟨none, 1, [0]⟩]) (clonesTree n k))

theorem clones_tree (n k : Nat) : (clones n k).tree false = clonesTree n k := by
  induction k with
  | zero =>
    simp only [clones, clonesTree, Items.tree, literals_tree]
    rfl
  | succ k ih => simp only [clones, clonesTree, Items.tree, ih, emptyModule]; rfl

theorem clones_fits (n k : Nat) (hn : n ≤ 2 ^ 24) (hk : k ≤ 2 ^ 24) : Fits 2 true (400 + 84 * n + 2000 * k) (clones n k) := by
  have n2 : Narrow 2 := .inl rfl
  have hm : Fits 2 false 1000 emptyModule := by
    have := Fits.unabbrev n2 1 [2] (by decide) (Fits.block n2 n2 (id := 17) (by decide)
      (Fits.unabbrev n2 1 [0] (by decide) (Fits.nil 2 false))
      (Fits.block n2 n2 (id := 14) (by decide) (Fits.nil 2 false) (Fits.nil 2 false) (by omega)) (by simp))
    intro k pos h1 h2 h3 h4 h5
    obtain ⟨w, g1, g2, g3⟩ := this k pos h1 h2 h3 h4 h5
    exact ⟨w, g1, Nat.le_trans g2 (by simp), g3⟩
  have weaken : ∀ {B B' : Nat} {its : Items}, Fits 2 true B its → B ≤ B' → Fits 2 true B' its := by
    intro B B' its hf hle k pos h1 h2 h3 h4 h5
    obtain ⟨w, g1, g2, g3⟩ := hf k pos h1 h2 h3 h4 h5
    exact ⟨w, g1, Nat.le_trans g2 hle, g3⟩
  induction k with
  | zero =>
    have hlit := Fits.literals 1 (List.replicate n 97) n (by rw [List.length_replicate]; omega)
    rw [List.length_replicate] at hlit
    exact weaken (Fits.block n2 (.inr rfl) (by decide) hlit (Fits.nil 2 true) (by omega)) (by omega)
  | succ k ih =>
    exact weaken (Fits.block n2 n2 (by decide)
      (Fits.unabbrev n2 1 [76, 76] (by decide) (Fits.unabbrev n2 2 [0] (by decide) (Fits.nil 2 false)))
      (Fits.block n2 n2 (by decide) hm (ih (by omega)) (by omega)) (by simp)) (by simp; omega)

theorem clones_tables (n k : Nat) :
    (clonesTree n k).tops.find? (fun d => d.1.blockId == 23) = some (⟨23, 0⟩, (repeated 1 (List.replicate n 97) n).forest) ∧
    (clonesTree n k).tops.find? (fun d => d.1.blockId == 25) = none := by
  induction k with
  | zero => exact ⟨rfl, rfl⟩
  | succ k ih => exact ih

theorem clones_order (n k : Nat) : InOrder (clonesTree n k).tops := by
  induction k with
  | zero =>
    intro pre c post h
    simp only [clonesTree, Tree.tops, Tree.forest, Forest.blocks] at h
    have : c = (⟨23, 0⟩, (repeated 1 (List.replicate n 97) n).forest) := by
      have : c ∈ pre ++ c :: post := by simp
      rw [← h] at this
      simpa using this
    rw [this]; exact .inl (by simp)
  | succ k ih =>
    intro pre c post h
    simp only [clonesTree, Tree.tops, Tree.forest, Forest.blocks] at h
    match pre, h with
    | [], h => simp only [List.nil_append, List.cons.injEq] at h; rw [← h.1]; exact .inl (by simp)
    | [a], h =>
      simp only [List.cons_append, List.nil_append, List.cons.injEq] at h
      obtain ⟨rfl, rfl, -⟩ := h
      exact .inr ⟨rfl, [], _, [], rfl, rfl, by simp⟩
    | a :: a' :: pre, h =>
      simp only [List.cons_append, List.cons.injEq] at h
      obtain ⟨rfl, rfl, h⟩ := h
      rcases ih pre c post h with h1 | ⟨h1, x, i, y, rfl, h2, h3⟩
      · exact .inl h1
      · exact .inr ⟨h1, _ :: _ :: x, i, y, rfl, h2, h3⟩

theorem clones_says (pf : Profile) (target : Str) (n : Nat) (hn : 2 ≤ n) (k : Nat) :
    FileSays pf target (clonesTree n k).tops ⟨List.replicate k (sharedModule target (List.replicate n 97))⟩ := by
  have ht : TypesSay pf [⟨none, 1, [0]⟩] [] :=
    (C40_exact pf (.mk (.ir .type) [⟨none, 1, [0]⟩] []) []).1 (by cases pf <;> decide +kernel)
  refine ⟨clones_order _ _, ?_⟩
  induction k with
  | zero => exact each_nil_left.2 rfl
  | succ k ih =>
    have h1 : parts (clonesTree n (k + 1)).tops =
        { identification := (⟨13, 0⟩, .record ⟨none, 1, [76, 76]⟩ (.record ⟨none, 2, [0]⟩ .nil))
          module := some (⟨8, 0⟩, (typesModule [⟨none, 1, [0]⟩]).forest)
          strtab := (clonesTree n k).tops.find? fun d => d.1.blockId == 23
          symtab := (clonesTree n k).tops.find? fun d => d.1.blockId == 25 } ::
        parts (clonesTree n k).tops := rfl
    rw [h1, List.replicate_succ, each_cons]
    obtain ⟨g1, g2⟩ := clones_tables n k
    rw [g1, g2]
    refine ⟨⟨⟨⟨⟨none, 1, [76, 76]⟩, ⟨[], _, rfl, rfl, by simp⟩, rfl, by simp, by simp⟩,
        ⟨⟨none, 2, [0]⟩, [], ⟨[_], [], rfl, rfl, by simp⟩, rfl⟩⟩,
      ⟨_, rfl, ⟨none, 1, List.replicate n 97⟩, ⟨[], List.replicate (n - 1) ⟨none, 1, List.replicate n 97⟩, ?_, rfl, by simp⟩,
        by simp only [sharedModule, AreBytes, List.map_replicate]; rfl, by simp; omega, fun h => ?_⟩,
      ⟨_, _, [], [], rfl, typesModule_says target ⟨List.replicate n 97⟩ (by simp) ht⟩, .inl ⟨rfl, rfl⟩⟩, ih⟩
    · rw [repeated_records, List.nil_append, ← List.replicate_succ]; congr 1; omega
    · simp at h; omega

theorem plain_weight (t : Forest) : (t.plain.entries.map Props.weight).sum = (t.entries.map Props.weight).sum := by
  induction t with
  | nil => rfl
  | record r rest ih => simp only [Forest.plain, Forest.entries, List.map_cons, List.sum_cons, ih]; rfl
  | block s body rest ihb ih =>
    simp only [Forest.plain, Forest.entries, List.map_cons, List.sum_cons, List.map_append, List.sum_append_nat, ih, ihb]; rfl

theorem repeated_weight (code : U64) (fields : List U64) (m : Nat) :
    ((repeated code fields m).forest.entries.map Props.weight).sum = m * fields.length := by
  induction m with
  | zero => simp [repeated, Tree.forest, Forest.entries]
  | succ m ih =>
    simp only [repeated, Tree.forest, Forest.entries, List.map_cons, List.sum_cons, ih, Props.weight, Nat.add_mul, Nat.one_mul]
    omega

/-- What the modules of such a file hold. -/
theorem clones_held (n k : Nat) {tops : List (BBlock × Forest)} (h : plainTops tops = (clonesTree n k).tops) :
    (∃ u, (unrollBlocks tops).find? isStrtab = some u ∧ fieldsHeld u = n * n) ∧
      k * (n * n) ≤ ((pairs (unrollBlocks tops)).map tableFields).sum := by
  induction k generalizing tops with
  | zero =>
    refine ⟨?_, by omega⟩
    match tops, h with
    | [c], h =>
      simp only [clonesTree, Tree.tops, Tree.forest, Forest.blocks, plainTops, List.map_cons, List.map_nil, List.cons.injEq,
        Prod.mk.injEq, and_true] at h
      obtain ⟨c1, c2⟩ := h
      have c1 : c.1.blockId = 23 := by simpa [BBlock.plain] using congrArg BBlock.blockId c1
      have hid := unrolled_id c
      rw [c1] at hid
      have hs : isStrtab (c.2.addTo (UBlock.new 23)) = true := by unfold isStrtab; rw [hid]; decide
      refine ⟨c.2.addTo (UBlock.new 23), by simp only [unrollBlocks, List.map_cons, List.find?_cons, c1, hs], ?_⟩
      rw [held_addTo, ← plain_weight, c2, repeated_weight, List.length_replicate]
      exact Nat.zero_add _
    | [], h => simp [clonesTree, Tree.tops, Tree.forest, Forest.blocks, plainTops] at h
    | _ :: _ :: _, h => simp [clonesTree, Tree.tops, Tree.forest, Forest.blocks, plainTops] at h
  | succ k ih =>
    match tops, h with
    | i :: m :: tops, h =>
      simp only [clonesTree, Tree.tops, Tree.forest, Forest.blocks, plainTops, List.map_cons, List.cons.injEq, Prod.mk.injEq] at h
      obtain ⟨⟨i1, -⟩, ⟨m1, -⟩, h⟩ := h
      have i1 : i.1.blockId = 13 := by simpa [BBlock.plain] using congrArg BBlock.blockId i1
      have m1 : m.1.blockId = 8 := by simpa [BBlock.plain] using congrArg BBlock.blockId m1
      obtain ⟨⟨u, g1, g2⟩, g3⟩ := ih h
      have hi := unrolled_id i
      have hm := unrolled_id m
      rw [i1] at hi
      rw [m1] at hm
      have e1 : isIdentification (i.2.addTo (UBlock.new 13)) = true := by unfold isIdentification; rw [hi]; decide
      have e2 : isStrtab (i.2.addTo (UBlock.new 13)) = false := by unfold isStrtab; rw [hi]; decide
      have e3 : isStrtab (m.2.addTo (UBlock.new 8)) = false := by unfold isStrtab; rw [hm]; decide
      have e4 : isIdentification (m.2.addTo (UBlock.new 8)) = false := by unfold isIdentification; rw [hm]; decide
      unfold unrollBlocks at g1 g3 ⊢
      simp only [List.map_cons, i1, m1, List.find?_cons, e2, e3]
      refine ⟨⟨u, g1, g2⟩, ?_⟩
      rw [pairs, if_pos e1]
      simp only [List.map_cons, List.sum_cons, tableFields, List.find?_cons, e3, g1, Option.elim_some, g2]
      rw [pairs, if_neg (by rw [e4]; decide), Nat.add_mul, Nat.one_mul]
      omega
    | [], h => simp [clonesTree, Tree.tops, Tree.forest, Forest.blocks, plainTops] at h
    | [_], h => simp [clonesTree, Tree.tops, Tree.forest, Forest.blocks, plainTops] at h

/-- Two modules with a string table each meet the hypotheses of `C88_unshared_partial`. -/
example (pf : Profile) : ∃ bytes b tops ps, Bitstream.from pf bytes = .ok (none, b) ∧ Delivers pf b (completeEntries tops) ∧
    unroll pf b = .ok ps ∧ ps.length = 2 ∧
    (∀ pre i mid j post, tops = pre ++ i :: mid ++ j :: post → i.1.blockId = 13 → j.1.blockId = 13 →
      (∀ c ∈ mid, c.1.blockId ≠ 13) → (∃ c ∈ mid, c.1.blockId = 23) ∧
        ((∃ c ∈ mid, c.1.blockId = 25) ∨ ∀ c ∈ post, c.1.blockId ≠ 25)) := by
  have n2 : Narrow 2 := .inl rfl
  have hf := Fits.block n2 n2 (id := 13) (by decide) (Fits.nil 2 false) (Fits.block n2 n2 (id := 8) (by decide) (Fits.nil 2 false)
    (Fits.block n2 n2 (id := 23) (by decide) (Fits.unabbrev n2 1 [97, 97] (by decide) (Fits.nil 2 false))
    (Fits.block n2 n2 (id := 13) (by decide) (Fits.nil 2 false) (Fits.block n2 n2 (id := 8) (by decide) (Fits.nil 2 false)
    (Fits.block n2 n2 (id := 23) (by decide) (Fits.unabbrev n2 1 [98, 98] (by decide) (Fits.nil 2 false)) (Fits.nil 2 true)
      (by simp)) (by simp)) (by simp)) (by simp)) (by simp)) (by simp)
  obtain ⟨bytes, es, hs, -⟩ := Fits.bytes 0xdec04342 hf
  obtain ⟨tops, g1, g2⟩ := written_tops hs
  obtain ⟨b, hb, -, hd⟩ := Props.C18_stream_roundtrip_from pf hs (by decide)
  rw [g1] at hd
  have hids : tops.map (·.1.blockId) = [13, 8, 23, 13, 8, 23] := by
    have := congrArg (List.map fun c : BBlock × Forest => c.1.blockId) g2
    simpa [plainTops, BBlock.plain, Items.tree, Tree.tops, Tree.forest, Forest.blocks, Function.comp_def] using this
  obtain ⟨c1, t1, rfl, i1, h1⟩ := List.map_eq_cons_iff.1 hids
  obtain ⟨c2, t2, rfl, i2, h2⟩ := List.map_eq_cons_iff.1 h1
  obtain ⟨c3, t3, rfl, i3, h3⟩ := List.map_eq_cons_iff.1 h2
  obtain ⟨c4, t4, rfl, i4, h4⟩ := List.map_eq_cons_iff.1 h3
  obtain ⟨c5, t5, rfl, i5, h5⟩ := List.map_eq_cons_iff.1 h4
  obtain ⟨c6, t6, rfl, i6, h6⟩ := List.map_eq_cons_iff.1 h5
  obtain rfl := List.map_eq_nil_iff.1 h6
  have ho : Opened pf b := .auto hb
  have hu := unroll_fold ho hd
  have u1 := unrolled_id c1
  have u2 := unrolled_id c2
  have u3 := unrolled_id c3
  have u4 := unrolled_id c4
  have u5 := unrolled_id c5
  have u6 := unrolled_id c6
  simp only [i1, i2, i3, i4, i5, i6] at u1 u2 u3 u4 u5 u6
  rw [show BlockId.ofU64 13 = .ir .identification from rfl] at u1 u4
  rw [show BlockId.ofU64 8 = .ir .module from rfl] at u2 u5
  rw [show BlockId.ofU64 23 = .ir .strtab from rfl] at u3 u6
  simp only [unrollBlocks, List.map_cons, List.map_nil, i1, i2, i3, i4, i5, i6] at hu
  generalize c1.2.addTo (UBlock.new 13) = v1 at hu u1
  generalize c2.2.addTo (UBlock.new 8) = v2 at hu u2
  generalize c3.2.addTo (UBlock.new 23) = v3 at hu u3
  generalize c4.2.addTo (UBlock.new 13) = v4 at hu u4
  generalize c5.2.addTo (UBlock.new 8) = v5 at hu u5
  generalize c6.2.addTo (UBlock.new 23) = v6 at hu u6
  simp [List.foldlM_cons, addTop, u1, u2, u3, u4, u5, u6, PartialModule.new, setModule, setWhile, setWhile.go] at hu
  refine ⟨bytes, b, _, _, hb, hd, hu, rfl, ?_⟩
  intro pre i mid j post he hi hj hm
  rcases pre with _ | ⟨p1, _ | ⟨p2, _ | ⟨p3, _ | ⟨p4, pre⟩⟩⟩⟩
  · rcases mid with _ | ⟨m1, _ | ⟨m2, _ | ⟨m3, mid⟩⟩⟩
    all_goals simp only [List.nil_append, List.cons_append, List.cons.injEq] at he
    · rw [← he.2.1, i2] at hj; exact absurd hj (by decide)
    · rw [← he.2.2.1, i3] at hj; exact absurd hj (by decide)
    · obtain ⟨-, rfl, rfl, rfl, rfl⟩ := he
      exact ⟨⟨c3, by simp, i3⟩, .inr (by simp [i5, i6])⟩
    · exact absurd i4 (hm c4 (by simp [he.2.2.2.1]))
  · simp only [List.nil_append, List.cons_append, List.cons.injEq] at he
    rw [← he.2.1, i2] at hi; exact absurd hi (by decide)
  · simp only [List.nil_append, List.cons_append, List.cons.injEq] at he
    rw [← he.2.2.1, i3] at hi; exact absurd hi (by decide)
  · rcases mid with _ | ⟨m1, _ | ⟨m2, mid⟩⟩
    all_goals simp [List.nil_append, List.cons_append, List.cons.injEq] at he
    · rw [← he.2.2.2.2.1, i5] at hj; exact absurd hj (by decide)
    · rw [← he.2.2.2.2.2.1, i6] at hj; exact absurd hj (by decide)
  · rcases pre with _ | ⟨p5, pre⟩
    all_goals simp [List.nil_append, List.cons_append, List.cons.injEq] at he
    · rw [← he.2.2.2.2.1, i5] at hi; exact absurd hi (by decide)
    · have := congrArg List.length he.2.2.2.2.2
      simp at this; omega

/-- C88 fails: every module that comes before a string table gets a copy of all of the block, whatever is in it. A file of `60 + 261 n` bytes
maps, but its modules hold `n ^ 3` fields while it is mapped, most of which are never looked at. -/
theorem C88_cubed (pf : Profile) (target : Str) (n : Nat) (h1 : 2 ≤ n) (hn : n ≤ 2 ^ 24) : ∃ bytes f b ps,
    bytes.length ≤ 60 + 261 * n ∧ Bitcode.tryFrom pf target bytes = .ok f ∧ Bitstream.from pf bytes = .ok (none, b) ∧
      unroll pf b = .ok ps ∧ n ^ 3 ≤ (ps.map tableFields).sum := by
  obtain ⟨bytes, es, hs, hl⟩ := Fits.bytes 0xdec04342 (clones_fits n n hn hn)
  have htree := clones_tree n n
  have hmap := (C69_maps pf target hs (by decide) (by omega) _).2 (by rw [htree]; exact clones_says pf target n h1 n)
  obtain ⟨tops, g1, g2⟩ := written_tops hs
  obtain ⟨b, hb, -, hd⟩ := Props.C18_stream_roundtrip_from pf hs (by decide)
  rw [g1] at hd
  rw [htree] at g2
  obtain ⟨ps, hu⟩ : ∃ ps, unroll pf b = .ok ps := by
    unfold Bitcode.tryFrom Bitcode.ofStream at hmap
    rw [hb] at hmap
    match hu : unroll pf b with
    | .ok ps => exact ⟨ps, rfl⟩
    | .err e => simp [hu] at hmap
    | .panic p => simp [hu] at hmap
    | .diverge => simp [hu] at hmap
  refine ⟨bytes, _, b, ps, by omega, hmap, hb, hu, ?_⟩
  rw [unroll_delivered (.auto hb) hd hu, Nat.pow_succ, Nat.pow_two, Nat.mul_assoc]
  exact (clones_held n n g2).2

/-- The theorems above are about something: a file of 27 kilobytes makes a million fields. -/
example : ∃ bytes f b ps, bytes.length ≤ 26160 ∧ Bitcode.tryFrom .debug [] bytes = .ok f ∧ Bitstream.from .debug bytes = .ok (none, b) ∧
    unroll .debug b = .ok ps ∧ 10 ^ 6 ≤ (ps.map tableFields).sum := by
  obtain ⟨bytes, f, b, ps, h1, h2, h3, h4, h5⟩ := C88_cubed .debug [] 100 (by omega) (by omega)
  exact ⟨bytes, f, b, ps, by omega, h2, h3, h4, h5⟩

end Verif
