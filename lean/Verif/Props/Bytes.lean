import Verif.Mapper.BytesSpec
import Verif.Props.FileVerdict
import Verif.Props.Faults
import Verif.Props.Wrapped
import Verif.Props.Dump

/-! C68: mapping, from the bytes on, without reference to the reader. -/

namespace Verif
open Spec Props

/-! ## Containers -/

/-- C68, containers: whether bytes can be opened, and why not. -/
theorem C68_container (pf : Profile) (bytes : List U8) : Judges (Bitstream.from pf bytes) (ContainerBad bytes) := by
  unfold ContainerBad
  rcases C25_detect pf bytes with ⟨hl, e⟩ | ⟨hl, hw, e⟩ | ⟨hl, hw, e⟩
  · rw [e]
    exact judges_found (b := .error (.cursor (cutError bytes.length))) (fun b => by rw [err_ends]; simp [fails, hl]) rfl
  · have hw : IsWrapper bytes := hw
    refine judges_skip (fun b h => absurd h.1 (by omega)) ?_
    rw [e]
    rcases C25_wrapped pf bytes with ⟨h20, e'⟩ | ⟨o, s, ho, hs, h20, h⟩
    · rw [e']
      exact judges_found (b := .error (.cursor (cutError (bytes.length % 4))))
        (fun b => by show (Out.err _ : Out BErr _).Ends b ↔ _; rw [err_ends]; simp [fails, h20, hw]) rfl
    · have hO : wrapperOffset bytes = o := by rw [wrapperOffset, ho]; rfl
      have hS : wrapperSize bytes = s := by rw [wrapperSize, hs]; rfl
      rw [hO, hS]
      refine judges_skip (fun b h => absurd h.1.2 (by omega)) ?_
      rcases h with ⟨h1, e'⟩ | ⟨h1, h2, e'⟩ | ⟨h1, h2, h4, e'⟩ | ⟨h1, h2, h4, h3, e'⟩ | ⟨h1, h2, h3, w, b, e', -⟩
      · rw [e']
        exact judges_found (b := .error (.cursor .invalidLength))
          (fun b => by show (Out.err _ : Out BErr _).Ends b ↔ _; rw [err_ends]; simp [fails, h1, hw]) rfl
      · rw [e']
        refine judges_skip (fun b h => absurd h.1.2 (by omega)) ?_
        exact judges_found (b := .error (.streamParse (.seek .invalidInput)))
          (fun b => by show (Out.err _ : Out BErr _).Ends b ↔ _; rw [err_ends]; simp [fails, h2, hw]) rfl
      · rw [e']
        refine judges_skip (fun b h => absurd h.1.2 (by omega)) (judges_skip (fun b h => absurd h.1.2 (by omega)) ?_)
        exact judges_found (b := .error (.badContainer .unaligned))
          (fun b => by show (Out.err _ : Out BErr _).Ends b ↔ _; rw [err_ends]; simp [fails, hw]; omega) rfl
      · rw [e']
        refine judges_skip (fun b h => absurd h.1.2 (by omega)) (judges_skip (fun b h => absurd h.1.2 (by omega)) <|
          judges_skip (fun b h => absurd h.1.2 (by omega)) ?_)
        exact judges_found (b := .error (.badContainer (.magic (cutError (s + 20 - o)))))
          (fun b => by show (Out.err _ : Out BErr _).Ends b ↔ _; rw [err_ends]; simp [fails, hw]; omega) rfl
      · rw [e']
        refine judges_skip (fun b h => absurd h.1.2 (by omega)) (judges_skip (fun b h => absurd h.1.2 (by omega)) <|
          judges_skip (fun b h => absurd h.1.2 (by omega)) <| judges_skip (fun b h => absurd h.1.2 (by omega)) <|
          judges_skip (fun b h => h.1.1 hw) ?_)
        exact judges_ok
  · have hw : ¬ IsWrapper bytes := hw
    rw [e]
    refine judges_skip (fun b h => absurd h.1 (by omega)) <| judges_skip (fun b h => hw h.1.1) <|
      judges_skip (fun b h => hw h.1.1) <| judges_skip (fun b h => hw h.1.1) <| judges_skip (fun b h => hw h.1.1) <|
      judges_skip (fun b h => hw h.1.1) ?_
    rcases C25_raw bytes with ⟨h4, -, b, e', -⟩ | ⟨h4, e'⟩ | ⟨rfl, -⟩
    · rw [e']
      exact judges_skip (fun b h => h.1.2 h4) judges_ok
    rotate_left
    · cases hl
    · rw [e']
      exact judges_found (b := .error (.badContainer .unaligned))
        (fun b => by show (Out.err _ : Out BErr _).Ends b ↔ _; rw [err_ends]; simp [fails, hw]; omega) rfl

/-! ## Streams -/

/-- A stream is read from the first byte of the payload on. -/
theorem from_at (pf : Profile) {bytes : List U8} {w : Option BitcodeWrapper} {b : Bitstream}
    (h : Bitstream.from pf bytes = .ok (w, b)) : ∃ gr : Grid, gr.pad = toPiece (8 * (payload bytes).length) ∧
      At gr Ctx.start [] b.parser ∧ gr.pos b.parser.cursor = 32 ∧ b.remaining = (bitsOf (payload bytes)).drop 32 := by
  rcases C25_detect pf bytes with ⟨hl, e⟩ | ⟨hl, hw, e⟩ | ⟨hl, hw, e⟩
  · rw [e] at h; cases h
  · rw [e] at h
    have hw : IsWrapper bytes := hw
    obtain ⟨⟨w', b'⟩, h1, h2⟩ := Out.bind_eq_ok.1 h
    cases h2
    rcases C25_wrapped pf bytes with ⟨h20, e'⟩ | ⟨o, s, ho, hs, h20, h⟩
    · rw [e'] at h1; cases h1
    · have hO : wrapperOffset bytes = o := by rw [wrapperOffset, ho]; rfl
      have hS : wrapperSize bytes = s := by rw [wrapperSize, hs]; rfl
      rcases h with ⟨-, e'⟩ | ⟨-, -, e'⟩ | ⟨-, -, -, e'⟩ | ⟨-, -, -, -, e'⟩ | ⟨-, -, -, w', b', e', -, -, ho', hs', -⟩
      · rw [e'] at h1; cases h1
      · rw [e'] at h1; cases h1
      · rw [e'] at h1; cases h1
      · rw [e'] at h1; cases h1
      · rw [e'] at h1
        cases h1
        rw [payload, if_pos hw, hO, hS, ← ho', ← hs']
        exact wrapped_at pf e'
  · rw [e] at h
    obtain ⟨b', h1, h2⟩ := Out.bind_eq_ok.1 h
    cases h2
    have hw : ¬ IsWrapper bytes := hw
    rw [payload, if_neg hw]
    obtain ⟨h3, h4, h5⟩ := piece_at (Cursor.inv_new bytes) rfl h1
    rw [rest_new] at h3 h4 h5
    refine ⟨_, ?_, h3, h4, h5⟩
    rw [bitsOf_length]
    rfl

/-- The end of a stream, as `next` reports it. -/
def endNext : Option Failure → Bitstream.Next
  | none => .done
  | some f => f.asNext

theorem endNext_inj {f g : Option Failure} (h : endNext f = endNext g) : f = g := by
  cases f with
  | none => cases g with
    | none => rfl
    | some g => cases g <;> cases h
  | some f => cases g with
    | none => cases f <;> cases h
    | some g => rw [asNext_inj h]

theorem endNext_item (f : Option Failure) (e : StreamEntry) : endNext f ≠ .item e := by
  cases f with
  | none => simp [endNext]
  | some f => cases f <;> simp [endNext, Failure.asNext]

theorem consists_iff (pf : Profile) {bytes : List U8} {w : Option BitcodeWrapper} {b : Bitstream}
    (h : Bitstream.from pf bytes = .ok (w, b)) (tops P : List (BBlock × Forest)) (f : Option Failure) :
    Consists pf (payload bytes) tops P f ↔ ∃ b₁ b₂, Gives pf b (completeEntries tops ++ openEntries P) b₁ ∧
      Bitstream.next pf b₁ = (endNext f, b₂) := by
  have ho : Opened pf b := .auto h
  obtain ⟨gr, hp, hm, h0, hr⟩ := from_at pf h
  unfold Consists
  rw [← hp, ← hr, ← h0]
  cases f with
  | none =>
    have := at_accepts (pf := pf) hm (completeEntries tops ++ openEntries P)
    rw [delivers_iff_gives ho.start.1] at this
    show _ ↔ ∃ b₁ b₂, _ ∧ _ = (Bitstream.Next.done, b₂)
    rw [this]
    constructor
    · rintro ⟨pre, tail, ms, k, outer, hb, hs, he, ht⟩
      have ht : tail = [] := ht
      subst ht
      rw [List.append_nil] at hb
      exact ⟨ms, k, outer, hb ▸ hs, he⟩
    · rintro ⟨ms, k, outer, hs, he⟩
      exact ⟨_, [], ms, k, outer, (List.append_nil _).symm, hs, he, rfl⟩
  | some f =>
    refine Iff.trans (at_faults hm (completeEntries tops ++ openEntries P) f).symm ?_
    constructor
    · rintro ⟨b', h1, h2⟩
      exact ⟨b', _, h1, by rw [show endNext (some f) = f.asNext from rfl, ← h2]⟩
    · rintro ⟨b₁, b₂, h1, h2⟩
      exact ⟨b₁, h1, by rw [h2]; rfl⟩

theorem begins_iff (pf : Profile) {bytes : List U8}
    {w : Option BitcodeWrapper} {b : Bitstream} (h : Bitstream.from pf bytes = .ok (w, b)) (tops P : List (BBlock × Forest))
    (f : Option Failure) : Begins pf bytes tops P (endNext f) ↔ Consists pf (payload bytes) tops P f := by
  rw [consists_iff pf h]
  constructor
  · rintro ⟨w', b'', b₁, b₂, es, h2, rfl, h3, h5, h6⟩
    rw [h] at h2
    cases h2
    exact ⟨b₁, b₂, gives_of_iterate h3, h5⟩
  · rintro ⟨b₁, b₂, g1, g2⟩
    exact ⟨w, b, b₁, b₂, _, h, rfl, g1.iterate, g2, endNext_item f⟩

/-- Reading always ends, in one of these ways. -/
theorem ends_somehow {pf : Profile} {bytes : List U8} {tops P : List (BBlock × Forest)} {r : Bitstream.Next}
    (h : Begins pf bytes tops P r) : ∃ f, r = endNext f := by
  obtain ⟨w, b, b₁, b₂, es, h1, -, h3, h4, h5⟩ := h
  have hR : Reach pf b₁ := by
    have := gives_of_iterate h3
    have ho : Reach pf b := .opened (.auto h1)
    clear h3 h4 h1
    generalize es = l at this
    induction this with
    | nil => exact ho
    | cons h _ ih => exact ih (by have := ho.next; rw [h] at this; exact this)
  cases r with
  | item e => exact absurd rfl (h5 e)
  | done => exact ⟨none, rfl⟩
  | error e => exact ⟨some (.error e), rfl⟩
  | panic s => exact ⟨some (.panic s), rfl⟩
  | diverge =>
    have := (C22_progress pf hR).1
    rw [h4] at this
    exact absurd rfl this

/-! ## Files -/

theorem streamBad_eq (f : Option Failure) : EndBad (endNext f) = StreamBad f := by
  funext b
  refine propext ?_
  unfold EndBad StreamBad
  rcases f with - | f | s <;> simp [endNext, Failure.asNext]

/-- C68. What mapping bytes ends in, unless they are mapped. -/
theorem C68_bad (pf : Profile) (target : Str) (bytes : List U8) (hlen : bytes.length ≤ 2 ^ 61) (bad : Bad MapperError) :
    (Bitcode.tryFrom pf target bytes).Ends bad ↔ BytesBad pf bytes bad := by
  rw [C67_file pf target bytes hlen]
  have hj := C68_container pf bytes
  unfold FileBad BytesBad
  rw [first_cons]
  cases h : Bitstream.from pf bytes with
  | panic p => exact absurd h (C23_open_no_panic pf bytes p).2.2
  | diverge => exact absurd h (from_terminates pf bytes)
  | err e =>
    rw [h] at hj
    have hc := (hj (.error e)).1 rfl
    constructor
    · rintro (⟨e', h', rfl⟩ | ⟨tops, P, r, ⟨w, b, b₁, b₂, es, h', -⟩, -⟩)
      · cases h'
        exact .inl ⟨_, hc, rfl⟩
      · rw [h] at h'; cases h'
    · rintro (⟨x, hx, rfl⟩ | ⟨hn, -⟩)
      · have := (hj x).2 hx
        cases x with
        | error e' => cases this; exact .inl ⟨e, rfl, rfl⟩
        | stop s => exact absurd this (by cases s <;> simp [Out.Ends, Out.Stops])
      · exact absurd ⟨_, hc, rfl⟩ (hn (.error (.parse e)))
  | ok wb =>
    obtain ⟨w, b⟩ := wb
    rw [h] at hj
    have hn : ∀ x, ¬ ContainerBad bytes x := fun x hx => ok_ends ((hj x).2 hx)
    rw [first_singleton]
    constructor
    · rintro (⟨e', h', rfl⟩ | ⟨tops, P, r, hb, hf⟩)
      · cases h'
      · obtain ⟨f, rfl⟩ := ends_somehow hb
        refine .inr ⟨fun x ⟨y, hy, _⟩ => hn y hy, tops, P, f, (begins_iff pf h tops P f).1 hb, ?_⟩
        rw [← streamBad_eq]
        exact hf
    · rintro (⟨y, hy, _⟩ | ⟨-, tops, P, f, hr, hf⟩)
      · exact absurd hy (hn y)
      · refine .inr ⟨tops, P, _, (begins_iff pf h tops P f).2 hr, ?_⟩
        rw [streamBad_eq]
        exact hf

/-- C68. What mapping bytes gives. -/
theorem C68_good (pf : Profile) (target : Str) (bytes : List U8) (hlen : bytes.length ≤ 2 ^ 61) (f : Bitcode) :
    Bitcode.tryFrom pf target bytes = .ok f ↔ BytesSay pf target bytes f := by
  rw [C51_bytes pf target bytes hlen]
  have hj := C68_container pf bytes
  unfold BytesSay
  constructor
  · rintro ⟨w, b, tops, h, hd, hs⟩
    rw [h] at hj
    refine ⟨fun x hx => ok_ends ((hj x).2 hx), tops, ?_, hs⟩
    have ho : Opened pf b := .auto h
    obtain ⟨b₁, b₂, g1, g2⟩ := (delivers_iff_gives ho.start.1).1 hd
    refine (begins_iff pf h tops [] none).1 ⟨w, b, b₁, b₂, completeEntries tops, h, ?_, g1.iterate, g2, endNext_item none⟩
    simp [openEntries]
  · rintro ⟨hn, tops, hr, hs⟩
    rcases (Bitstream.from pf bytes).ok_or_ends with ⟨⟨w, b⟩, h⟩ | ⟨x, hx⟩
    · obtain ⟨w', b', b₁, b₂, es, h', rfl, h1, h2, -⟩ := (begins_iff pf h tops [] none).2 hr
      rw [h] at h'
      cases h'
      have ho : Opened pf b := .auto h
      refine ⟨w, b, tops, h, (delivers_iff_gives ho.start.1).2 ⟨b₁, b₂, ?_, h2⟩, hs⟩
      have := gives_of_iterate h1
      rwa [show openEntries [] = [] from rfl, List.append_nil] at this
    · exact absurd ((hj x).1 hx) (hn x)

/-- C68. The two specifications fit together: all bytes say one thing and nothing is wrong with them, or one thing is wrong with
them and they say nothing. -/
theorem C68_decided (pf : Profile) (target : Str) (bytes : List U8) (hlen : bytes.length ≤ 2 ^ 61) :
    ((∃ f, ∀ g, BytesSay pf target bytes g ↔ g = f) ∧ ∀ bad, ¬ BytesBad pf bytes bad) ∨
    ((∀ f, ¬ BytesSay pf target bytes f) ∧ ∃ bad, ∀ x, BytesBad pf bytes x ↔ x = bad) := by
  simp only [← C68_good pf target bytes hlen, ← C68_bad pf target bytes hlen]
  rcases (Bitcode.tryFrom pf target bytes).ok_or_ends with ⟨f, hf⟩ | ⟨bad, hb⟩
  · exact .inl ⟨⟨f, fun g => by rw [hf]; simp [eq_comm]⟩, fun bad h => h.not_ok hf⟩
  · exact .inr ⟨fun f hf => hb.not_ok hf, bad, fun x => ⟨fun h => h.unique hb, fun h => h ▸ hb⟩⟩

/-! ## Dumps -/

theorem digits_pos {ds : List Nat} (hne : ds ≠ []) (h0 : ds.head? ≠ some 0) (v : Nat) :
    1 ≤ ds.foldl (fun v d => 16 * v + d) v := by
  have key : ∀ (ds : List Nat) (v : Nat), 1 ≤ v → 1 ≤ ds.foldl (fun v d => 16 * v + d) v := by
    intro ds
    induction ds with
    | nil => intro v h; exact h
    | cons d ds ih => intro v h; exact ih _ (show 1 ≤ 16 * v + d by omega)
  cases ds with
  | nil => exact absurd rfl hne
  | cons d ds =>
    have : d ≠ 0 := fun h => h0 (by rw [h]; rfl)
    exact key ds _ (show 1 ≤ 16 * v + d by omega)

theorem snoc_cases (l : List Nat) : l = [] ∨ ∃ as a, l = as ++ [a] := by
  rcases List.eq_nil_or_concat l with h | ⟨as, a, h⟩
  · exact .inl h
  · exact .inr ⟨as, a, by rw [h, List.concat_eq_append]⟩

theorem digits_unique : ∀ (n : Nat) (ds ds' : List Nat), (∀ d ∈ ds, d < 16) → (∀ d ∈ ds', d < 16) → ds.head? ≠ some 0 →
    ds'.head? ≠ some 0 → ds.foldl (fun v d => 16 * v + d) 0 = n → ds'.foldl (fun v d => 16 * v + d) 0 = n → ds = ds' := by
  intro n
  induction n using Nat.strongRecOn with
  | ind n ih =>
    intro ds ds' hd hd' h0 h0' hn hn'
    rcases snoc_cases ds with rfl | ⟨as, a, rfl⟩
    · rcases snoc_cases ds' with rfl | ⟨as', a', rfl⟩
      · rfl
      · have := digits_pos (ds := as' ++ [a']) (by simp) h0' 0
        simp only [List.foldl_nil] at hn
        omega
    · have h1 := digits_pos (ds := as ++ [a]) (by simp) h0 0
      rcases snoc_cases ds' with rfl | ⟨as', a', rfl⟩
      · simp only [List.foldl_nil] at hn'
        omega
      · rw [List.foldl_append] at hn hn' h1
        simp only [List.foldl_cons, List.foldl_nil] at hn hn' h1
        have ha := hd a (by simp)
        have ha' := hd' a' (by simp)
        have hh : ∀ {l : List Nat} {x : Nat}, (l ++ [x]).head? ≠ some 0 → l.head? ≠ some 0 := by
          intro l x h; cases l with
          | nil => simp
          | cons => simpa using h
        have := ih (n / 16) (by omega) as as' (fun d h => hd d (by simp [h])) (fun d h => hd' d (by simp [h])) (hh h0) (hh h0')
          (by omega) (by omega)
        rw [this, show a = a' by omega]

theorem hexText_same {n : Nat} {l l' : Str} (h : HexText n l) (h' : HexText n l') : l = l' := by
  obtain ⟨ds, rfl, hd, hne, h0, hn⟩ := h
  obtain ⟨ds', rfl, hd', hne', h0', hn'⟩ := h'
  congr 1
  by_cases hz : ds.head? = some 0
  · have e := h0 hz
    by_cases hz' : ds'.head? = some 0
    · rw [e, h0' hz']
    · have := digits_pos hne' hz' 0
      rw [e] at hn
      simp at hn
      omega
  · by_cases hz' : ds'.head? = some 0
    · have := digits_pos hne hz 0
      rw [h0' hz'] at hn'
      simp at hn'
      omega
    · exact digits_unique n ds ds' hd hd' hz hz' hn hn'

theorem wrapper_unique {bytes : List U8} {w w' : Option BitcodeWrapper} (h : WrapperSays bytes w) (h' : WrapperSays bytes w') :
    w = w' := by
  cases w with
  | none => cases w' with
    | none => rfl
    | some w' => exact absurd h'.1 h
  | some w => cases w' with
    | none => exact absurd h.1 h'
    | some w' =>
      obtain ⟨-, a1, a2, a3, a4, a5⟩ := h
      obtain ⟨-, b1, b2, b3, b4, b5⟩ := h'
      rw [a1] at b1; rw [a2] at b2; rw [a3] at b3; rw [a4] at b4; rw [a5] at b5
      obtain ⟨⟩ := w
      obtain ⟨⟩ := w'
      simp only [Option.some.injEq] at b1 b2 b3 b4 b5
      congr <;> exact BitVec.eq_of_toNat_eq (by assumption)

theorem from_says (pf : Profile) {bytes : List U8} {w : Option BitcodeWrapper} {b : Bitstream}
    (h : Bitstream.from pf bytes = .ok (w, b)) : WrapperSays bytes w ∧ word32 (payload bytes) = some b.magic.toNat := by
  rcases C25_detect pf bytes with ⟨hl, e⟩ | ⟨hl, hw, e⟩ | ⟨hl, hw, e⟩
  · rw [e] at h; cases h
  · rw [e] at h
    have hw : IsWrapper bytes := hw
    obtain ⟨⟨w', b'⟩, h1, h2⟩ := Out.bind_eq_ok.1 h
    cases h2
    rcases C25_wrapped pf bytes with ⟨h20, e'⟩ | ⟨o, s, ho, hs, h20, h⟩
    · rw [e'] at h1; cases h1
    · have hO : wrapperOffset bytes = o := by rw [wrapperOffset, ho]; rfl
      have hS : wrapperSize bytes = s := by rw [wrapperSize, hs]; rfl
      rcases h with ⟨-, e'⟩ | ⟨-, -, e'⟩ | ⟨-, -, -, e'⟩ | ⟨-, -, -, -, e'⟩ | ⟨h5, h6, -, w', b', e', k1, k2, k3, k4, k5, k6, -⟩
      · rw [e'] at h1; cases h1
      · rw [e'] at h1; cases h1
      · rw [e'] at h1; cases h1
      · rw [e'] at h1; cases h1
      · rw [e'] at h1
        cases h1
        refine ⟨⟨hw, k1, k2, by rw [ho, k3], by rw [hs, k4], k5⟩, ?_⟩
        rw [payload, if_pos hw, hO, hS, ← k6, natOfBits_word _ (by simp; omega), natOfBits_word _ (by simp; omega),
          show (32 : Nat) = 8 * 4 from rfl, ← bitsOf_take, ← bitsOf_take]
        congr 3
        rw [List.drop_take, List.take_take]
        congr 1
        omega
  · rw [e] at h
    have hw : ¬ IsWrapper bytes := hw
    obtain ⟨b', h1, h2⟩ := Out.bind_eq_ok.1 h
    cases h2
    refine ⟨hw, ?_⟩
    rw [payload, if_neg hw]
    rcases C25_raw bytes with ⟨-, -, b'', e', h, -⟩ | ⟨-, e'⟩ | ⟨-, e'⟩
    · rw [e'] at h1; cases h1; exact h
    · rw [e'] at h1; cases h1
    · rw [e'] at h1; cases h1

theorem readEnd_eq (f : Option Failure) : dumpEnd (endNext f) = readEnd f := by
  rcases f with - | f | s <;> rfl

/-- C68, dumps: what is printed for bytes, and how that ends. -/
theorem C68_dump (pf : Profile) (bytes : List U8) (hlen : bytes.length < 2 ^ 60) (out : Str × Out BErr Unit) :
    Dump.main pf bytes = out ↔ BytesDump pf bytes out := by
  have hj := C68_container pf bytes
  unfold BytesDump
  rcases C61_dump pf bytes hlen with ⟨e, h, hd⟩ | ⟨w, b, b₁, b₂, tops, P, r, l, h, ⟨es, hes, hit⟩, hn, hne, -, hl, hd⟩
  · rw [h] at hj
    have hc := (hj (.error e)).1 rfl
    rw [hd]
    constructor
    · rintro rfl; exact .inl ⟨e, hc, rfl⟩
    · rintro (⟨e', h', rfl⟩ | ⟨h', -⟩)
      · cases (hj (.error e')).2 h'; rfl
      · exact absurd hc (h' _)
  · rw [h] at hj
    have hnc : ∀ x, ¬ ContainerBad bytes x := fun x hx => ok_ends ((hj x).2 hx)
    have hb : Begins pf bytes tops P r := ⟨w, b, b₁, b₂, es, h, hes, hit, hn, hne⟩
    obtain ⟨f, rfl⟩ := ends_somehow hb
    obtain ⟨hw, hm⟩ := from_says pf h
    rw [hd, readEnd_eq]
    constructor
    · rintro rfl
      exact .inr ⟨hnc, tops, P, f, w, _, l, (begins_iff pf h tops P f).1 hb, hw, hm, hl, rfl⟩
    · rintro (⟨e', h', -⟩ | ⟨-, tops', P', f', w', m', l', hc', hw', hm', hl', rfl⟩)
      · exact absurd h' (hnc _)
      · obtain ⟨rfl, rfl, e⟩ := begins_unique hb ((begins_iff pf h tops' P' f').2 hc')
        obtain rfl := endNext_inj e
        obtain rfl := wrapper_unique hw hw'
        rw [hm] at hm'
        cases hm'
        rw [hexText_same hl hl']

/-! ## Examples -/

/-- The bytes of a file say what it says. -/
example (pf : Profile) : ∃ x, streamBytes 0xdec04342 exFile = some x ∧ BytesSay pf "t".toList x.1 exBitcode ∧
    ∀ bad, ¬ BytesBad pf x.1 bad := by
  have h := exFile_maps pf
  have hw : (streamBytes 0xdec04342 exFile).all fun x => decide (x.1.length ≤ 1000 ∧ ¬ IsWrapper x.1) := by decide +kernel
  cases hx : streamBytes 0xdec04342 exFile with
  | none => rw [hx] at h; cases h
  | some x =>
    rw [hx] at h hw
    obtain ⟨h1, h2⟩ := of_decide_eq_true hw
    have h := Option.some.inj h
    refine ⟨x, rfl, (C68_good pf _ x.1 (by omega) _).1 h, fun bad hb => ?_⟩
    exact ((C68_bad pf "t".toList x.1 (by omega) _).2 hb).not_ok h

/-- A wrapper for a stream of one word, at offset 20, with the same word after it; a wrapper that declares more than there is;
the beginning of a wrapper; a word and a half. -/
example : ContainerBad (wrapperHeader 0 20 4 7 ++ exMagic) (.error (.badContainer .unaligned)) ↔ False := by
  rw [← C68_container .debug]
  constructor
  · intro h
    have h1 : (match Bitstream.from .debug (wrapperHeader 0 20 4 7 ++ exMagic) with | .ok _ => true | _ => false) = true := by
      decide +kernel
    split at h1
    · next h2 => exact h.not_ok h2
    · cases h1
  · exact False.elim

example : payload (wrapperHeader 0 20 4 7 ++ exMagic ++ exMagic) = exMagic := by decide +kernel

example : ContainerBad (wrapperHeader 0 20 8 7 ++ exMagic) (.error (.cursor .invalidLength)) :=
  .later (fun _ h => absurd h.1 (by decide)) <| .later (fun _ h => absurd h.1 (by decide)) <| .here ⟨by decide, rfl⟩

example : ContainerBad ((wrapperHeader 0 20 8 7).take 18) (.error (.cursor .short)) :=
  .later (fun _ h => absurd h.1 (by decide)) <| .here ⟨by decide, rfl⟩

example : ContainerBad (exMagic ++ [1, 2]) (.error (.badContainer .unaligned)) :=
  .later (fun _ h => absurd h.1 (by decide)) <| .later (fun _ h => absurd h.1 (by decide)) <|
  .later (fun _ h => absurd h.1 (by decide)) <| .later (fun _ h => absurd h.1 (by decide)) <|
  .later (fun _ h => absurd h.1 (by decide)) <| .later (fun _ h => absurd h.1 (by decide)) <| .here ⟨by decide, rfl⟩

end Verif
