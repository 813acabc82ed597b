import Verif.Mapper.UnrollSpec
import Verif.Support.EnumLemmas
import Verif.Support.Lemmas
import Verif.Bitstream.Run

/-! Lemmas about unrolling. -/

namespace Verif
open Spec

/-! ## Block ids -/

theorem code_ge_8 (i : IrBlockId) : 8 ≤ (NumEnum.code i).toNat := by cases i <;> decide

/-- The number a block id came from. -/
def BlockId.toU64 : BlockId → U64
  | .reserved r => NumEnum.code r
  | .ir i => NumEnum.code i
  | .unknown v => v

theorem BlockId.toU64_ofU64 (v : U64) : (BlockId.ofU64 v).toU64 = v := by
  unfold BlockId.ofU64
  split
  · next r hr => exact tryFromPrimitive_iff.1 hr
  · split
    · next i hi => exact tryFromPrimitive_iff.1 hi
    · rfl

theorem BlockId.ofU64_injective {a b : U64} (h : BlockId.ofU64 a = BlockId.ofU64 b) : a = b := by
  rw [← toU64_ofU64 a, h, toU64_ofU64]

/-! ## The map of sub-blocks -/

theorem byId_push (bs : Blocks) (k id : BlockId) (u : UBlock) :
    Blocks.byId (Blocks.push bs k u) id = Blocks.byId bs id ++ if k = id then [u] else [] := by
  induction bs with
  | nil =>
    unfold Blocks.push Blocks.byId Blocks.get
    by_cases h : k = id
    · subst h; simp
    · have h2 : (id == k) = false := by simpa using Ne.symm h
      simp [h, List.lookup_cons, h2]
  | cons e rest ih =>
    obtain ⟨k', l⟩ := e
    unfold Blocks.push
    unfold Blocks.byId Blocks.get at *
    split
    · next hk =>
      subst hk
      by_cases h : k' = id
      · subst h; simp
      · have h2 : (id == k') = false := by simpa using Ne.symm h
        simp [h, List.lookup_cons, h2]
    · next hk =>
      by_cases h : id = k'
      · subst h
        simp [Ne.symm hk]
      · have h2 : (id == k') = false := by simpa using h
        simp only [List.lookup_cons, h2]
        exact ih

/-! ## One block -/

/-- What the contents add to a block. -/
def Spec.Forest.addTo : Forest → UBlock → UBlock
  | .nil, acc => acc
  | .record r rest, acc => rest.addTo (acc.pushRecord r)
  | .block s body rest, acc => rest.addTo (acc.pushBlock (body.addTo (UBlock.new s.blockId)))

theorem addTo_id (t : Forest) (acc : UBlock) : (t.addTo acc).id = acc.id := by
  induction t generalizing acc with
  | nil => rfl
  | record r rest ih => exact ih _
  | block s body rest _ ih => exact ih _

theorem addTo_records (t : Forest) (acc : UBlock) : (t.addTo acc).records = acc.records ++ t.records := by
  induction t generalizing acc with
  | nil => simp [Forest.addTo, Forest.records]
  | record r rest ih =>
    rw [Forest.addTo, ih, show (acc.pushRecord r).records = acc.records ++ [r] from rfl, Forest.records]; simp
  | block s body rest _ ih => rw [Forest.addTo, ih]; rfl

theorem addTo_byId (t : Forest) (acc : UBlock) (k : U64) :
    Blocks.byId (t.addTo acc).blocks (.ofU64 k) = Blocks.byId acc.blocks (.ofU64 k) ++
      (t.withId k).map fun c => c.2.addTo (UBlock.new c.1.blockId) := by
  induction t generalizing acc with
  | nil => simp [Forest.addTo, Forest.withId, Forest.blocks]
  | record r rest ih => rw [Forest.addTo, ih]; rfl
  | block s body rest _ ih =>
    rw [Forest.addTo, ih]
    rw [show (acc.pushBlock (body.addTo (UBlock.new s.blockId))).blocks =
      Blocks.push acc.blocks (body.addTo (UBlock.new s.blockId)).id (body.addTo (UBlock.new s.blockId)) from rfl]
    rw [byId_push, addTo_id]
    unfold Forest.withId
    rw [Forest.blocks, List.filter_cons]
    by_cases h : s.blockId = k
    · subst h
      simp [UBlock.new, UBlock.id]
    · have h2 : BlockId.ofU64 s.blockId ≠ .ofU64 k := fun hc => h (BlockId.ofU64_injective hc)
      simp [UBlock.new, UBlock.id, h, h2]

theorem sizeOf_withId {t : Forest} {c : BBlock × Forest} (h : c ∈ t.blocks) : sizeOf c.2 < sizeOf t := by
  induction t with
  | nil => simp [Forest.blocks] at h
  | record r rest ih => have := ih (by simpa [Forest.blocks] using h); simp; omega
  | block s body rest _ ih =>
    rcases List.mem_cons.1 (show c ∈ (s, body) :: rest.blocks from h) with rfl | h
    · simp; omega
    · have := ih h; simp; omega

theorem addTo_unrolled (id : U64) (t : Forest) : Unrolled id t (t.addTo (UBlock.new id)) := by
  generalize hn : sizeOf t = n
  induction n using Nat.strongRecOn generalizing id t with
  | _ n ih =>
    have hb : ∀ k, Blocks.byId (UBlock.new id).blocks (.ofU64 k) = [] := fun k => rfl
    refine .intro (addTo_id _ _) (by rw [addTo_records]; rfl) (fun k => ?_) (fun k i c v hc hv => ?_)
    · rw [addTo_byId, hb]; simp
    · rw [addTo_byId, hb, List.nil_append, List.getElem?_map, hc] at hv
      simp only [Option.map_some, Option.some.injEq] at hv
      subst hv
      have hm : c ∈ t.blocks := (List.mem_filter.1 (List.mem_of_getElem? hc)).1
      exact ih _ (hn ▸ sizeOf_withId hm) _ _ rfl

/-! ## Runs of entries -/

/-- Calls of `next` give the entries and lead to the stream `b'`. -/
inductive Gives (pf : Profile) : Bitstream → List StreamEntry → Bitstream → Prop
  | nil (b : Bitstream) : Gives pf b [] b
  | cons {b b₁ b₂ : Bitstream} {e : StreamEntry} {es : List StreamEntry} :
      Bitstream.next pf b = (.item e, b₁) → Gives pf b₁ es b₂ → Gives pf b (e :: es) b₂

theorem Gives.cons_inv {pf : Profile} {b b₂ : Bitstream} {e : StreamEntry} {es : List StreamEntry}
    (h : Gives pf b (e :: es) b₂) : ∃ b₁, Bitstream.next pf b = (.item e, b₁) ∧ Gives pf b₁ es b₂ := by
  cases h with | cons h1 h2 => exact ⟨_, h1, h2⟩

theorem Gives.append_inv {pf : Profile} {b b₂ : Bitstream} {es fs : List StreamEntry}
    (h : Gives pf b (es ++ fs) b₂) : ∃ b₁, Gives pf b es b₁ ∧ Gives pf b₁ fs b₂ := by
  induction es generalizing b with
  | nil => exact ⟨b, .nil _, h⟩
  | cons e es ih =>
    obtain ⟨b', h1, h2⟩ := h.cons_inv
    obtain ⟨b₁, h3, h4⟩ := ih h2
    exact ⟨b₁, .cons h1 h3, h4⟩

theorem Gives.iterate {pf : Profile} {b b' : Bitstream} {es : List StreamEntry} (h : Gives pf b es b') :
    iterate pf es.length b = (es.map .item, b') := by
  induction h with
  | nil => rfl
  | cons h _ ih => simp [Verif.iterate, h, ih]

theorem gives_of_iterate {pf : Profile} {b b' : Bitstream} {es : List StreamEntry}
    (h : iterate pf es.length b = (es.map .item, b')) : Gives pf b es b' := by
  induction es generalizing b with
  | nil => simp [Verif.iterate] at h; subst h; exact .nil _
  | cons e es ih =>
    simp only [List.length_cons, Verif.iterate, List.map_cons, Prod.mk.injEq, List.cons.injEq] at h
    obtain ⟨⟨h1, h2⟩, h3⟩ := h
    exact .cons (Prod.ext h1 rfl) (ih (Prod.ext h2 h3))

/-- Number of records and blocks directly in a block. -/
def Spec.Forest.width : Forest → Nat
  | .nil => 0
  | .record _ rest => rest.width + 1
  | .block _ _ rest => rest.width + 1

theorem width_le (t : Forest) : t.width ≤ t.entries.length := by
  induction t with
  | nil => simp [Forest.width]
  | record r rest ih => simp [Forest.width, Forest.entries]; omega
  | block s body rest _ ih => simp [Forest.width, Forest.entries]; omega

/-- Unrolling the rest of a block: everything up to its end is added to it. -/
theorem enterLoop_forest {pf : Profile} (t : Forest) : ∀ {b b₁ : Bitstream} {n : Nat} {acc : UBlock},
    Gives pf b t.entries b₁ → t.entries.length ≤ n →
    enterLoop pf n acc b = enterLoop pf (n - t.width) (t.addTo acc) b₁ := by
  induction t with
  | nil =>
    intro b b₁ n acc h hn
    cases h
    rfl
  | record r rest ih =>
    intro b b₁ n acc h hn
    obtain ⟨b', h1, h2⟩ := h.cons_inv
    simp only [Forest.entries, List.length_cons] at hn
    obtain ⟨m, rfl⟩ : ∃ m, n = m + 1 := ⟨n - 1, by omega⟩
    rw [enterLoop]; dsimp only; rw [h1]
    simp only
    rw [ih h2 (by omega), Forest.width, Forest.addTo, show m + 1 - (rest.width + 1) = m - rest.width by omega]
  | block s body rest ihb ihr =>
    intro b b₁ n acc h hn
    obtain ⟨b', h1, h2⟩ := h.cons_inv
    obtain ⟨b'', h3, h4⟩ := h2.append_inv
    obtain ⟨b₃, h5, h6⟩ := h4.cons_inv
    simp only [Forest.entries, List.length_cons, List.length_append] at hn
    obtain ⟨m, rfl⟩ : ∃ m, n = m + 1 := ⟨n - 1, by omega⟩
    have hw := width_le body
    rw [enterLoop]; dsimp only; rw [h1]
    simp only
    have hin : enterLoop pf m (UBlock.new s.blockId) b' = (.ok (body.addTo (UBlock.new s.blockId)), b₃) := by
      rw [ihb h3 (by omega)]
      obtain ⟨j, hj⟩ : ∃ j, m - body.width = j + 1 := ⟨m - body.width - 1, by omega⟩
      rw [hj, enterLoop]; dsimp only; rw [h5]
    rw [hin]
    simp only
    rw [ihr h6 (by omega), Forest.width, Forest.addTo, show m + 1 - (rest.width + 1) = m - rest.width by omega]

/-- A result of `next` that stops the unrolling of a block, as an outcome. -/
def stopOut {α : Type} : Bitstream.Next → Out UErr α
  | .done => .err (.unroll .unexpectedEnd)
  | .error e => .err (.parse e)
  | .panic p => .panic p
  | _ => .diverge

theorem enterLoop_stop {pf : Profile} {b b₂ : Bitstream} {r : Bitstream.Next} (h : Bitstream.next pf b = (r, b₂))
    (hr : ∀ e, r ≠ .item e) {n : Nat} (hn : 0 < n) (acc : UBlock) : enterLoop pf n acc b = (stopOut r, b₂) := by
  obtain ⟨m, rfl⟩ : ∃ m, n = m + 1 := ⟨n - 1, by omega⟩
  rw [enterLoop]; dsimp only; rw [h]
  cases r with
  | item e => exact absurd rfl (hr e)
  | _ => rfl

/-- Unrolling a block that is not complete. -/
theorem enterLoop_open {pf : Profile} (P : List (BBlock × Forest)) : ∀ {t : Forest} {b b₁ b₂ : Bitstream}
    {r : Bitstream.Next} {n : Nat} {acc : UBlock}, Gives pf b (t.entries ++ openEntries P) b₁ →
    Bitstream.next pf b₁ = (r, b₂) → (∀ e, r ≠ .item e) → (t.entries ++ openEntries P).length < n →
    enterLoop pf n acc b = (stopOut r, b₂) := by
  induction P with
  | nil =>
    intro t b b₁ b₂ r n acc h hr hne hn
    simp only [openEntries, List.flatMap_nil, List.append_nil] at h hn
    have hw := width_le t
    rw [enterLoop_forest t h (by omega), enterLoop_stop hr hne (by omega)]
  | cons c P ih =>
    intro t b b₁ b₂ r n acc h hr hne hn
    obtain ⟨s, t'⟩ := c
    have hw := width_le t
    rw [show openEntries ((s, t') :: P) = .subBlock s :: (t'.entries ++ openEntries P) by simp [openEntries]] at h hn
    simp only [List.length_append, List.length_cons] at hn
    obtain ⟨b', h1, h2⟩ := h.append_inv
    obtain ⟨b'', h3, h4⟩ := h2.cons_inv
    rw [enterLoop_forest t h1 (by omega)]
    obtain ⟨j, hj⟩ : ∃ j, n - t.width = j + 1 := ⟨n - t.width - 1, by omega⟩
    rw [hj, enterLoop]; dsimp only; rw [h3]
    simp only
    rw [ih h4 hr hne (by simp; omega)]
    cases r with
    | item e => exact absurd rfl (hne e)
    | _ => rfl

/-! ## The main loop -/

/-- The unrolled blocks of a sequence of complete blocks. -/
def unrollBlocks (l : List (BBlock × Forest)) : List UBlock := l.map fun c => c.2.addTo (UBlock.new c.1.blockId)

theorem unrollLoop_spec {pf : Profile} (tops : List (BBlock × Forest)) : ∀ {P : List (BBlock × Forest)}
    {b b₁ b₂ : Bitstream} {r : Bitstream.Next} {n : Nat} {ps : List PartialModule},
    Gives pf b (completeEntries tops ++ openEntries P) b₁ →
    Bitstream.next pf b₁ = (r, b₂) → (∀ e, r ≠ .item e) → (completeEntries tops ++ openEntries P).length < n →
    (unrollLoop pf n ps b).1 = ((unrollBlocks tops).foldlM addTop ps >>= ending P r) := by
  induction tops with
  | nil =>
    intro P b b₁ b₂ r n ps h hr hne hn
    simp only [completeEntries, List.flatMap_nil, List.nil_append] at h hn
    obtain ⟨m, rfl⟩ : ∃ m, n = m + 1 := ⟨n - 1, by omega⟩
    cases P with
    | nil =>
      cases h
      rw [unrollLoop]; dsimp only; rw [hr]
      cases r with
      | item e => exact absurd rfl (hne e)
      | _ => rfl
    | cons c P =>
      obtain ⟨s, t'⟩ := c
      rw [show openEntries ((s, t') :: P) = .subBlock s :: (t'.entries ++ openEntries P) by simp [openEntries]] at h hn
      simp only [List.length_cons] at hn
      obtain ⟨b', h1, h2⟩ := h.cons_inv
      rw [unrollLoop]; dsimp only; rw [h1]
      simp only [StreamEntry.asBlock, enterUBlock]
      rw [enterLoop_open P h2 hr hne (by omega)]
      cases r with
      | item e => exact absurd rfl (hne e)
      | _ => rfl
  | cons c tops ih =>
    intro P b b₁ b₂ r n ps h hr hne hn
    obtain ⟨s, t⟩ := c
    rw [show completeEntries ((s, t) :: tops) ++ openEntries P =
      .subBlock s :: (t.entries ++ .endBlock :: (completeEntries tops ++ openEntries P)) by simp [completeEntries]] at h hn
    simp only [List.length_cons, List.length_append] at hn
    obtain ⟨m, rfl⟩ : ∃ m, n = m + 1 := ⟨n - 1, by omega⟩
    obtain ⟨b', h1, h2⟩ := h.cons_inv
    obtain ⟨b'', h3, h4⟩ := h2.append_inv
    obtain ⟨b₃, h5, h6⟩ := h4.cons_inv
    have hw := width_le t
    rw [unrollLoop]; dsimp only; rw [h1]
    simp only [StreamEntry.asBlock, enterUBlock]
    have hin : enterLoop pf m (UBlock.new s.blockId) b' = (.ok (t.addTo (UBlock.new s.blockId)), b₃) := by
      rw [enterLoop_forest t h3 (by omega)]
      obtain ⟨j, hj⟩ : ∃ j, m - t.width = j + 1 := ⟨m - t.width - 1, by omega⟩
      rw [hj, enterLoop]; dsimp only; rw [h5]
    rw [hin]
    simp only [unrollBlocks, List.map_cons, List.foldlM_cons]
    cases hat : addTop ps (t.addTo (UBlock.new s.blockId)) with
    | ok ps' =>
      simp only [Out.ok_bind]
      exact ih h6 hr hne (by simp; omega)
    | err e => rfl
    | panic p => rfl
    | diverge => rfl

/-! ## Every properly nested sequence of entries is complete blocks followed by open ones -/

def Spec.Forest.append : Forest → Forest → Forest
  | .nil, u => u
  | .record r rest, u => .record r (rest.append u)
  | .block s body rest, u => .block s body (rest.append u)

theorem append_entries (t u : Forest) : (t.append u).entries = t.entries ++ u.entries := by
  induction t with
  | nil => rfl
  | record r rest ih => simp [Forest.append, Forest.entries, ih]
  | block s body rest _ ih => simp [Forest.append, Forest.entries, ih]

theorem openEntries_append (P Q : List (BBlock × Forest)) : openEntries (P ++ Q) = openEntries P ++ openEntries Q := by
  simp [openEntries]

theorem snocInduction {α : Type} {motive : List α → Prop} (nil : motive [])
    (snoc : ∀ l a, motive l → motive (l ++ [a])) (l : List α) : motive l := by
  have : ∀ l : List α, motive l.reverse := by
    intro l
    induction l with
    | nil => exact nil
    | cons a l ih => rw [List.reverse_cons]; exact snoc _ _ ih
  simpa using this l.reverse

theorem nested_decomposes (es : List StreamEntry) {st : List U64} (h : openBlocks [] es = some st) :
    ∃ tops P, es = completeEntries tops ++ openEntries P ∧ (P.map fun c => c.1.blockId).reverse = st := by
  induction es using snocInduction generalizing st with
  | nil => simp [openBlocks] at h; subst h; exact ⟨[], [], rfl, rfl⟩
  | snoc es e ih =>
    rw [openBlocks_append, Option.bind_eq_some_iff] at h
    obtain ⟨st', h1, h2⟩ := h
    obtain ⟨tops, P, rfl, hP⟩ := ih h1
    cases e with
    | subBlock s =>
      simp [openBlocks] at h2
      refine ⟨tops, P ++ [(s, .nil)], ?_, ?_⟩
      · rw [openEntries_append]; simp [openEntries, Forest.entries]
      · simp [hP, h2]
    | record r =>
      rcases List.eq_nil_or_concat P with rfl | ⟨Q, ⟨s, t⟩, rfl⟩
      · simp at hP; subst hP; simp [openBlocks] at h2
      · rw [List.concat_eq_append] at *
        refine ⟨tops, Q ++ [(s, t.append (.record r .nil))], ?_, ?_⟩
        · simp only [openEntries_append]
          simp [openEntries, append_entries, Forest.entries]
        · simp at hP; subst hP; simp [openBlocks] at h2; simp [h2]
    | endBlock =>
      rcases List.eq_nil_or_concat P with rfl | ⟨Q, ⟨s, t⟩, rfl⟩
      · simp at hP; subst hP; simp [openBlocks] at h2
      · rw [List.concat_eq_append] at *
        simp at hP; subst hP; simp [openBlocks] at h2
        rcases List.eq_nil_or_concat Q with rfl | ⟨Q', ⟨s', t'⟩, rfl⟩
        · refine ⟨tops ++ [(s, t)], [], ?_, by simpa using h2⟩
          simp [openEntries, completeEntries]
        · rw [List.concat_eq_append] at *
          refine ⟨tops, Q' ++ [(s', t'.append (.block s t .nil))], ?_, ?_⟩
          · simp only [openEntries_append]
            simp [openEntries, append_entries, Forest.entries]
          · simp at h2; simp [h2]

/-! ## Every stream comes to a stop -/

theorem stops {pf : Profile} {b : Bitstream} (h : PInv b.parser) : ∃ es b₁ r b₂, Gives pf b es b₁ ∧
    Bitstream.next pf b₁ = (r, b₂) ∧ (∀ e, r ≠ .item e) ∧ r ≠ .diverge ∧ es.length ≤ b.len - b.pos := by
  generalize hn : b.len - b.pos = n
  induction n using Nat.strongRecOn generalizing b with
  | _ n ih =>
    obtain ⟨h1, h2, h3, h4, -, h6, -⟩ := next_progress (pf := pf) h
    have hp := next_pinv (pf := pf) h
    cases hnx : Bitstream.next pf b with
    | mk r b' =>
      rw [hnx] at h1 h2 h3 h4 h6 hp
      by_cases hr : ∃ e, r = .item e
      · obtain ⟨e, rfl⟩ := hr
        have := h6 e rfl
        simp only at *
        obtain ⟨es, b₁, r, b₂, g1, g2, g3, g4, g5⟩ := ih (b'.len - b'.pos) (by omega) hp rfl
        exact ⟨e :: es, b₁, r, b₂, .cons hnx g1, g2, g3, g4, by simp; omega⟩
      · exact ⟨[], b, r, b', .nil _, hnx, fun e he => hr ⟨e, he⟩, h1, by simp⟩

end Verif
