import Verif.Mapper.TypeRangeSpec
import Verif.Props.TypeTables
import Verif.Props.TypeSizes
import Verif.Mapper.AttributeLemmas

/-!
# C71: which tables of types there are

A type block can give every table of types that keeps a few rules, and no other.
-/

namespace Verif
open Spec

/-! ## No other -/

/-- Entries as records give them. -/
def DeclOk : TyDecl → Prop
  | .pointer _ a | .opaquePointer a => a.val.toNat < 2 ^ 23
  | .struct (some nm) _ _ => (utf8 nm).length ≠ 1
  | _ => True

theorem adds_ok {r : BRecord} {d : TyDecl} (h : Adds r d) : DeclOk d := by
  cases h with
  | wide => trivial
  | says h =>
    cases h with
    | pointer _ _ h => simpa [DeclOk] using Nat.lt_of_le_of_lt (Nat.mod_le _ _) h
    | opaquePointer _ _ h => simpa [DeclOk] using Nat.lt_of_le_of_lt (Nat.mod_le _ _) h
    | _ => trivial

theorem builds_ok {pf : Profile} {ds out : List TyDecl} {nm nm' : Str} {rs : List BRecord} (h : Builds pf ds nm rs out nm')
    (hnm : (utf8 nm).length ≠ 1) (hds : ∀ d ∈ ds, DeclOk d) : ∀ d ∈ out, DeclOk d := by
  have snoc : ∀ {ds : List TyDecl} {d : TyDecl}, (∀ d ∈ ds, DeclOk d) → DeclOk d → ∀ x ∈ ds ++ [d], DeclOk x := by
    intro ds d h hd x hx
    rcases List.mem_append.1 hx with hx | hx
    · exact h x hx
    · rw [List.mem_singleton.1 hx]
      exact hd
  have nil : (utf8 []).length ≠ 1 := by decide
  induction h with
  | nil => exact hds
  | count _ _ ih => exact ih hnm hds
  | single h _ ih => exact ih hnm (snoc hds (adds_ok h))
  | @name ds out nm nm' s r rs h1 h2 _ ih =>
    refine ih ?_ hds
    obtain ⟨h3, h4, -⟩ := h2
    unfold AreBytes at h3
    rw [h3, List.length_map] at h4
    rw [utf8_append, List.length_append]
    omega
  | named _ _ _ _ ih => exact ih nil (snoc hds hnm)
  | namedOver _ _ _ ih => exact ih nil (snoc (fun d hd => hds d (by simp [hd])) hnm)
  | opaqueStruct _ _ _ _ ih => exact ih nil (snoc hds hnm)
  | opaqueOver _ _ _ ih => exact ih nil (snoc (fun d hd => hds d (by simp [hd])) hnm)

theorem denotes_ok {ds : List TyDecl} (hds : ∀ d ∈ ds, DeclOk d) {i : Nat} {t : Ty} (h : Denotes ds i t) : SpaceOk t ∧ NameOk t := by
  obtain ⟨d, hd⟩ := h.entry
  have hok := hds d (List.mem_of_getElem? hd)
  have hi := h.inv hd
  cases d with
  | prim p => subst hi; exact ⟨trivial, trivial⟩
  | integer p => obtain ⟨w, rfl, -⟩ := hi; exact ⟨trivial, trivial⟩
  | opaquePointer p => subst hi; exact ⟨hok, trivial⟩
  | function r ps v => obtain ⟨tr, tps, rfl, -⟩ := hi; exact ⟨trivial, trivial⟩
  | struct n fs p =>
    obtain ⟨tfs, rfl, h2⟩ := hi
    cases n with
    | none => exact ⟨trivial, trivial⟩
    | some nm => exact ⟨trivial, hok⟩
  | pointer p a => obtain ⟨te, rfl, h1⟩ := hi; exact ⟨hok, trivial⟩
  | array n e => obtain ⟨te, rfl, h1⟩ := hi; exact ⟨trivial, trivial⟩
  | vector s n e => obtain ⟨te, rfl, h1⟩ := hi; cases s <;> exact ⟨trivial, trivial⟩

theorem typesSay_canBe {pf : Profile} {rs : List BRecord} {ts : List Ty} (h : TypesSay pf rs ts) : TypesCanBe ts := by
  obtain ⟨ds, ⟨n, nm, hn, hcap, hb, hl⟩, hl', h⟩ := h
  have hds := builds_ok hb (by decide) (by simp)
  have each : ∀ t ∈ ts, ∃ i, Denotes ds i t ∧ Valid t := fun t ht =>
    let ⟨i, hi⟩ := List.mem_iff_getElem?.1 ht
    ⟨i, h i t hi⟩
  refine ⟨by omega, fun t ht => ?_, fun t ht u hu => ?_, fun t ht => ?_, fun t ht => ?_⟩
  · obtain ⟨i, -, hv⟩ := each t ht
    exact hv
  · obtain ⟨i, hd, -⟩ := each t ht
    obtain ⟨d, hi⟩ := hd.entry
    obtain ⟨j, -, hj⟩ := (hd.partsOf hi).mem hu
    obtain ⟨d', hj'⟩ := hj.entry
    have hlt : j < ts.length := by rw [hl']; exact (List.getElem?_eq_some_iff.1 hj').1
    have := (h j _ (List.getElem?_eq_getElem hlt)).1.unique hj
    rw [← this]
    exact List.getElem_mem hlt
  · obtain ⟨i, hd, -⟩ := each t ht
    exact (denotes_ok hds hd).1
  · obtain ⟨i, hd, -⟩ := each t ht
    exact (denotes_ok hds hd).2

/-! ## Every one -/

/-- The entry for a type. -/
def tyDecl (ts : List Ty) : Ty → TyDecl
  | .prim p => .prim p
  | .integer w => .integer w.toNat
  | .function r ps v => .function (ts.idxOf r) (ps.map ts.idxOf) v
  | .pointer p a => .pointer (ts.idxOf p) a
  | .opaquePointer a => .opaquePointer a
  | .struct nm fs p => .struct nm (fs.map ts.idxOf) p
  | .array n e => .array n (ts.idxOf e)
  | .fixedVector n e => .vector false n (ts.idxOf e)
  | .scalableVector n e => .vector true n (ts.idxOf e)

theorem idxOf_get {ts : List Ty} {t : Ty} (h : t ∈ ts) : ts[ts.idxOf t]? = some t := by
  have := List.idxOf_lt_length_iff.2 h
  rw [List.getElem?_eq_getElem this, List.getElem_idxOf]

theorem decl_denotes {ts : List Ty} (hc : ∀ t ∈ ts, ∀ u ∈ components t, u ∈ ts) (n : Nat) :
    ∀ (i : Nat) (t : Ty), sizeOf t ≤ n → ts[i]? = some t → Denotes (ts.map (tyDecl ts)) i t := by
  induction n with
  | zero => intro i t hn; cases t <;> simp at hn
  | succ n ih =>
    intro i t hn hi
    have hd : (ts.map (tyDecl ts))[i]? = some (tyDecl ts t) := by rw [List.getElem?_map, hi]; rfl
    have hmem := List.mem_of_getElem? hi
    have sub : ∀ u ∈ components t, sizeOf u ≤ n → Denotes (ts.map (tyDecl ts)) (ts.idxOf u) u :=
      fun u hu hs => ih _ u hs (idxOf_get (hc t hmem u hu))
    have all : ∀ us : List Ty, (∀ u ∈ us, u ∈ components t) → sizeOf us ≤ n → ∀ (k j : Nat) (u : Ty),
        (us.map ts.idxOf)[k]? = some j → us[k]? = some u → Denotes (ts.map (tyDecl ts)) j u := by
      intro us hus hs k j u hj hu
      rw [List.getElem?_map, hu] at hj
      cases hj
      have hm := List.mem_of_getElem? hu
      have := List.sizeOf_lt_of_mem hm
      exact sub u (hus u hm) (by omega)
    cases t with
    | prim p => exact .prim hd
    | integer w => exact .integer hd
    | opaquePointer a => exact .opaquePointer hd
    | function r ps v =>
      simp only [Ty.function.sizeOf_spec] at hn
      exact .function hd (sub r (by simp [components]) (by omega)) (by simp)
        (all ps (fun u hu => by simp [components, hu]) (by omega))
    | pointer p a =>
      simp only [Ty.pointer.sizeOf_spec] at hn
      exact .pointer hd (sub p (by simp [components]) (by omega))
    | struct nm fs p =>
      simp only [Ty.struct.sizeOf_spec] at hn
      exact .struct hd (by simp) (all fs (fun u hu => hu) (by omega))
    | array m e =>
      simp only [Ty.array.sizeOf_spec] at hn
      exact .array hd (sub e (by simp [components]) (by omega))
    | fixedVector m e =>
      simp only [Ty.fixedVector.sizeOf_spec] at hn
      exact .fixedVector hd (sub e (by simp [components]) (by omega))
    | scalableVector m e =>
      simp only [Ty.scalableVector.sizeOf_spec] at hn
      exact .scalableVector hd (sub e (by simp [components]) (by omega))

theorem flag_ne (b : Bool) : decide (flag b ≠ 0) = b := by cases b <;> decide

theorem place_toNat {ts : List Ty} (h : ts.length * 56 < 2 ^ 63) (t : Ty) : (tyPlace ts t).toNat = ts.idxOf t := by
  have := List.idxOf_le_length (a := t) (l := ts)
  unfold tyPlace
  rw [BitVec.toNat_ofNat]
  exact Nat.mod_eq_of_lt (by omega)

theorem places_toNat {ts : List Ty} (h : ts.length * 56 < 2 ^ 63) (us : List Ty) :
    (us.map (tyPlace ts)).map (·.toNat) = us.map ts.idxOf := by
  rw [List.map_map]
  exact List.map_congr_left fun u _ => place_toNat h u

theorem space_roundtrip (a : AddressSpace) : (⟨(a.val.setWidth 64).setWidth 32⟩ : AddressSpace) = a := by
  obtain ⟨v⟩ := a
  congr 1
  apply BitVec.eq_of_toNat_eq
  simp only [BitVec.toNat_setWidth]
  omega

theorem space_small {a : AddressSpace} (h : a.val.toNat < 2 ^ 23) : (a.val.setWidth 64 : U64).toNat < 2 ^ 23 := by
  simp only [BitVec.toNat_setWidth]
  omega

/-- The records for a type declare it. -/
theorem typeRecords_build (pf : Profile) {ts : List Ty} (hfew : ts.length * 56 < 2 ^ 63) (t : Ty) (hs : SpaceOk t) (hn : NameOk t)
    {ds out : List TyDecl} {nm : Str} {rest : List BRecord} (h : Builds pf (ds ++ [tyDecl ts t]) [] rest out nm) :
    Builds pf ds [] (typeRecords ts t ++ rest) out nm := by
  cases t with
  | prim p => exact .single (.says (.prim (by cases p <;> simp [primCode, primCodes]))) h
  | integer w =>
    have hw : (w.setWidth 64 : U64).toNat = w.toNat := by simp only [BitVec.toNat_setWidth]; omega
    refine .single (.says (.integer (w := w.setWidth 64) rfl rfl (by omega))) ?_
    rw [hw]
    exact h
  | function r ps v =>
    refine .single (.says (.function (v := flag v) rfl rfl)) ?_
    rw [place_toNat hfew, places_toNat hfew, flag_ne]
    exact h
  | pointer p a =>
    refine .single (.says (.pointer (a := a.val.setWidth 64) rfl rfl (space_small hs))) ?_
    rw [place_toNat hfew, space_roundtrip]
    exact h
  | opaquePointer a =>
    refine .single (.says (.opaquePointer (a := a.val.setWidth 64) rfl rfl (space_small hs))) ?_
    rw [space_roundtrip]
    exact h
  | struct n fs p =>
    cases n with
    | none =>
      refine .single (.says (.structAnon (p := flag p) rfl rfl)) ?_
      rw [places_toNat hfew, flag_ne]
      exact h
    | some s =>
      have hrec : Builds pf ds s ([⟨none, 18, [flag p]⟩, ⟨none, 20, flag p :: fs.map (tyPlace ts)⟩] ++ rest) out nm := by
        refine .single (.says (.structAnon (p := flag p) (fs := []) rfl rfl)) ?_
        rw [flag_ne]
        refine .namedOver (p := flag p) rfl rfl ?_
        rw [places_toNat hfew]
        exact h
      by_cases h0 : s = []
      · subst h0
        exact hrec
      · rw [typeRecords, if_neg h0]
        refine .name (s := s) rfl ⟨rfl, by rw [List.length_map]; exact hn, fun h => absurd ?_ (utf8_ne_nil h0)⟩ hrec
        simpa using h
  | array m e =>
    refine .single (.says (.array rfl rfl)) ?_
    rw [place_toNat hfew]
    exact h
  | fixedVector m e =>
    refine .single (.says (.fixedVector rfl rfl rfl)) ?_
    rw [place_toNat hfew]
    exact h
  | scalableVector m e =>
    refine .single (.says (.scalableVector rfl rfl (by decide))) ?_
    rw [place_toNat hfew]
    exact h

theorem tableRecords_say (pf : Profile) {ts : List Ty} (h : TypesCanBe ts) : TypesSay pf (tableRecords ts) ts := by
  have hfew := h.few
  have hlen : (BitVec.ofNat 64 ts.length).toNat = ts.length := by
    rw [BitVec.toNat_ofNat]
    exact Nat.mod_eq_of_lt (by omega)
  refine ⟨ts.map (tyDecl ts), ⟨BitVec.ofNat 64 ts.length, [], ⟨_, [], ⟨[], _, rfl, rfl, by simp⟩, rfl⟩, by rw [hlen]; exact hfew,
    .count rfl ?_, by rw [hlen, List.length_map]⟩, by rw [List.length_map],
    fun i t hi => ⟨decl_denotes h.closed _ i t (Nat.le_refl _) hi, h.valid t (List.mem_of_getElem? hi)⟩⟩
  suffices ∀ (us : List Ty) (ds : List TyDecl), (∀ t ∈ us, t ∈ ts) →
      Builds pf ds [] (us.flatMap (typeRecords ts)) (ds ++ us.map (tyDecl ts)) [] by
    simpa using this ts [] fun _ h => h
  intro us
  induction us with
  | nil => intro ds _; simpa using .nil
  | cons t us ih =>
    intro ds hus
    have ht := hus t (by simp)
    rw [List.flatMap_cons]
    refine typeRecords_build pf hfew t (h.spaces t ht) (h.names t ht) ?_
    have := ih (ds ++ [tyDecl ts t]) fun u hu => hus u (by simp [hu])
    simpa using this

/-- C71. What a type block gives keeps the rules. -/
theorem C71_only (pf : Profile) (b : UBlock) (ts : TypeTable) (h : TypeTable.tryFrom pf b = .ok ts) : TypesCanBe ts :=
  typesSay_canBe ((C40_exact pf b ts).1 h)

/-- C71. Every table of types that keeps the rules is what a type block gives: one with the records of the table. -/
theorem C71_every (pf : Profile) (b : UBlock) (ts : TypeTable) (h : TypesCanBe ts) (hb : b.records = tableRecords ts) :
    TypeTable.tryFrom pf b = .ok ts := by
  rw [C40_exact, hb]
  exact tableRecords_say pf h

/-! Structures one after the other, named and not, a type that is listed twice and one that is listed after its use. -/

def exTypes : List Ty :=
  [.struct (some ['a', 'b']) [.pointer (.integer 8) ⟨3⟩] true, .struct none [.integer 8, .integer 8] false,
    .struct (some []) [] true, .integer 8, .pointer (.integer 8) ⟨3⟩, .integer 8, .scalableVector 4 (.integer 8)]

theorem exTypes_canBe : TypesCanBe exTypes := by
  have v8 : Valid (.integer 8) := .integer (by decide) (by decide)
  have vp : Valid (.pointer (.integer 8) ⟨3⟩) := .pointer v8 (by simp [OkPointee])
  have i8 : ¬ IsFunction (.integer 8) := by rintro ⟨_, _, _, h⟩; cases h
  have ip : ¬ IsFunction (.pointer (.integer 8) ⟨3⟩) := by rintro ⟨_, _, _, h⟩; cases h
  refine ⟨by decide, ?_, by decide +kernel, ?_, ?_⟩
  · simp only [exTypes, List.mem_cons, List.not_mem_nil, or_false]
    rintro t (rfl | rfl | rfl | rfl | rfl | rfl | rfl)
    · exact .struct (by simpa using vp) (by simpa [OkStructElement] using ip)
    · exact .struct (by simpa using v8) (by simpa [OkStructElement] using i8)
    · exact .struct (by simp) (by simp)
    · exact v8
    · exact vp
    · exact v8
    · exact .scalableVector v8 (.inr (.inl ⟨_, rfl⟩))
  · simp [exTypes, SpaceOk]
  · simp only [exTypes, List.mem_cons, List.not_mem_nil, or_false]
    rintro t (rfl | rfl | rfl | rfl | rfl | rfl | rfl) <;> first | trivial | (simp only [NameOk]; decide)

example (pf : Profile) : TypeTable.tryFrom pf (.mk (.ofU64 17) (tableRecords exTypes) []) = .ok exTypes :=
  C71_every pf _ _ exTypes_canBe rfl

/-! A pointer without what it points to, and a name of one byte, are not the result of any block. -/

example (pf : Profile) (b : UBlock) : TypeTable.tryFrom pf b ≠ .ok [.pointer (.integer 8) ⟨0⟩] := fun h => by
  simpa [components] using (C71_only pf b _ h).closed _ (List.mem_singleton.2 rfl)

example (pf : Profile) (b : UBlock) : TypeTable.tryFrom pf b ≠ .ok [.struct (some ['a']) [] false] := fun h =>
  (C71_only pf b _ h).names _ (List.mem_singleton.2 rfl) (by decide)

end Verif
