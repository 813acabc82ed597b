import Verif.Props.Content

/-! C60: mapping sees a file only through the entries it delivers; in particular, wrapped files map like bare ones. -/

namespace Verif
open Spec Props

/-! ## What is observed -/

theorem observe_item {pf : Profile} {b b' : Bitstream} {e : StreamEntry} (n : Nat)
    (h : Bitstream.next pf b = (.item e, b')) : observe pf (n + 1) b = .item e :: observe pf n b' := by
  simp only [observe, h]

theorem observe_stop {pf : Profile} {b b' : Bitstream} {r : Bitstream.Next} (n : Nat) (h : Bitstream.next pf b = (r, b'))
    (hr : ∀ e, r ≠ .item e) : observe pf (n + 1) b = [r] := by
  cases r with
  | item e => exact absurd rfl (hr e)
  | _ => simp only [observe, h]

theorem observe_inv {pf : Profile} {b : Bitstream} {n : Nat} {r : Bitstream.Next} {l : List Bitstream.Next}
    (h : observe pf (n + 1) b = r :: l) : ∃ b', Bitstream.next pf b = (r, b') ∧ ∀ e, r = .item e → observe pf n b' = l := by
  cases hn : Bitstream.next pf b with
  | mk r' b' =>
    cases r' with
    | item e =>
      rw [observe_item n hn] at h
      obtain ⟨rfl, h'⟩ := List.cons.inj h
      exact ⟨b', rfl, fun _ _ => h'⟩
    | _ =>
      rw [observe_stop n hn (by simp)] at h
      obtain ⟨rfl, -⟩ := List.cons.inj h
      exact ⟨b', rfl, fun _ h => by simp at h⟩

/-- A stream that is observed like one that gives some entries and then stops does the same. -/
theorem gives_of_observe {pf : Profile} {b b₁ b₂ : Bitstream} {es : List StreamEntry} {r : Bitstream.Next}
    (h : Gives pf b es b₁) (hr : Bitstream.next pf b₁ = (r, b₂)) (hne : ∀ e, r ≠ .item e) :
    ∀ {b' : Bitstream}, (∀ n, observe pf n b = observe pf n b') →
      ∃ b₁' b₂', Gives pf b' es b₁' ∧ Bitstream.next pf b₁' = (r, b₂') := by
  induction h with
  | nil b =>
    intro b' ho
    have h1 := ho 1
    rw [observe_stop 0 hr hne] at h1
    obtain ⟨b₂', h2, -⟩ := observe_inv h1.symm
    exact ⟨b', b₂', .nil _, h2⟩
  | @cons b bm b₂ e es h1 h2 ih =>
    intro b' ho
    have key : ∀ n, ∃ bm', Bitstream.next pf b' = (.item e, bm') ∧ observe pf n bm' = observe pf n bm := by
      intro n
      have h3 := ho (n + 1)
      rw [observe_item n h1] at h3
      obtain ⟨bm', h4, h5⟩ := observe_inv h3.symm
      exact ⟨bm', h4, h5 e rfl⟩
    obtain ⟨bm', h4, -⟩ := key 0
    obtain ⟨b₁', b₂', h5, h6⟩ := ih hr (b' := bm') fun n => by
      obtain ⟨bm'', h7, h8⟩ := key n
      rw [h4] at h7
      cases h7
      exact h8.symm
    exact ⟨b₁', b₂', .cons h4 h5, h6⟩

/-! ## C60 -/

/-- C60. Streams that deliver the same entries, and end in the same way, have the same outcome when they are mapped: the same
modules, the same error or the same panic. Nothing else about a stream matters: not its magic, where it lies in its input, or
what comes before or after it. -/
theorem C60_entries (pf : Profile) (target : Str) {b b' : Bitstream} (h : Opened pf b) (h' : Opened pf b')
    (ho : ∀ n, observe pf n b = observe pf n b') : Bitcode.ofStream pf target b = Bitcode.ofStream pf target b' := by
  obtain ⟨h1, h2, -⟩ := h.start
  obtain ⟨es, b₁, r, b₂, g1, g2, g3, -, -⟩ := stops (pf := pf) h1
  have hv := iterate_visible (pf := pf) es.length h1
  rw [show b.parser.visible = [] by simp [Parser.visible, h2, Scope.visibleId], g1.iterate] at hv
  have hit : ∀ l : List StreamEntry, items (l.map .item) = l := by
    intro l
    induction l with
    | nil => rfl
    | cons e l ih => simp [items, ih]
  rw [hit] at hv
  obtain ⟨tops, P, rfl, -⟩ := nested_decomposes es hv
  obtain ⟨b₁', b₂', k1, k2⟩ := gives_of_observe g1 g2 g3 ho
  unfold Bitcode.ofStream
  rw [unroll_eq pf h g1 g2 g3, unroll_eq pf h' k1 k2 g3]

/-- C60. The magic of a bare file is not checked: whatever its first four bytes are, unless they announce a wrapper, the file
maps in the same way. -/
theorem C60_magic_ignored (pf : Profile) (target : Str) (m m' : U32) (rest : List U8) (h : m.toNat ≠ 0x0B17C0DE)
    (h' : m'.toNat ≠ 0x0B17C0DE) :
    Bitcode.tryFrom pf target (leBytes m ++ rest) = Bitcode.tryFrom pf target (leBytes m' ++ rest) := by
  have raw : ∀ m : U32, m.toNat ≠ 0x0B17C0DE → Bitstream.from pf (leBytes m ++ rest) =
      (Bitstream.fromRaw (leBytes m ++ rest)).bind fun b => .ok (none, b) := by
    intro m hm
    rcases C25_detect pf (leBytes m ++ rest) with ⟨hc, -⟩ | ⟨-, hc, -⟩ | ⟨-, -, he⟩
    · simp [leBytes] at hc; omega
    · rw [word32_leBytes] at hc; exact absurd (Option.some.inj hc) hm
    · exact he
  have len : ∀ m : U32, (leBytes m ++ rest).length = 4 + rest.length := by intro m; simp [leBytes]; omega
  have bits : ∀ m : U32, (bitsOf (leBytes m ++ rest)).drop 32 = bitsOf rest := by
    intro m
    rw [show 32 = 32 * 1 from rfl, rest_new_drop]; rfl
  unfold Bitcode.tryFrom
  rw [raw m h, raw m' h']
  rcases fromCursor_spec (Cursor.inv_new (leBytes m ++ rest)) with ⟨g4, gl, v, c', e, -, sb, hi, hr, ht, hm⟩ | ⟨g, e⟩
  · rcases fromCursor_spec (Cursor.inv_new (leBytes m' ++ rest)) with ⟨k4, kl, v', d', e', -, sb', hi', hr', ht', hm'⟩ | ⟨k, -⟩
    · rw [show Bitstream.fromRaw (leBytes m ++ rest) = _ from e, show Bitstream.fromRaw (leBytes m' ++ rest) = _ from e']
      rw [rest_new, bits] at hr hr'
      refine C60_entries pf target (.raw e) (.raw e') fun n => observe_sim pf n ?_ (pinv_new hi) (pinv_new hi')
      exact ⟨⟨⟨hi, by show c'.byteLen % 4 = 0; rw [sb.2]; exact g4, hm g4 rfl⟩,
        ⟨hi', by show d'.byteLen % 4 = 0; rw [sb'.2]; exact k4, hm' k4 rfl⟩, hr.trans hr'.symm, by
          show c'.tellBit % 32 = d'.tellBit % 32
          rw [ht, ht']; rfl⟩, rfl, rfl⟩
    · rw [rest_new, bitsOf_length, len] at k gl
      have e1 : (Cursor.new (leBytes m ++ rest)).byteLen = 4 + rest.length := len m
      have e2 : (Cursor.new (leBytes m' ++ rest)).byteLen = 4 + rest.length := len m'
      omega
  · rcases fromCursor_spec (Cursor.inv_new (leBytes m' ++ rest)) with ⟨k4, kl, -⟩ | ⟨-, e'⟩
    · rw [rest_new, bitsOf_length, len] at kl g
      have e1 : (Cursor.new (leBytes m ++ rest)).byteLen = 4 + rest.length := len m
      have e2 : (Cursor.new (leBytes m' ++ rest)).byteLen = 4 + rest.length := len m'
      omega
    · rw [show Bitstream.fromRaw (leBytes m ++ rest) = _ from e, show Bitstream.fromRaw (leBytes m' ++ rest) = _ from e',
        show (Cursor.new (leBytes m ++ rest)).byteLen = (Cursor.new (leBytes m' ++ rest)).byteLen from
          (len m).trans (len m').symm, rest_new, rest_new, bitsOf_length, bitsOf_length, len, len]

/-- C60. A wrapped file whose wrapper puts the stream at a multiple of 4 bytes maps like the bytes between `offset` and
`size + 20`, unless those look like a wrapper themselves. -/
theorem C60_window (pf : Profile) (target : Str) (bytes : List U8) {w : BitcodeWrapper} {b : Bitstream}
    (h : Bitstream.from pf bytes = .ok (some w, b)) (h4 : w.offset.toNat % 4 = 0)
    (hbare : word32 ((bytes.take (w.size.toNat + 20)).drop w.offset.toNat) ≠ some 0x0B17C0DE) :
    Bitcode.tryFrom pf target bytes =
      Bitcode.tryFrom pf target ((bytes.take (w.size.toNat + 20)).drop w.offset.toNat) := by
  have hw : Bitstream.fromWrapped pf bytes = .ok (w, b) := by
    rcases C25_detect pf bytes with ⟨-, he⟩ | ⟨-, -, he⟩ | ⟨-, -, he⟩
    · rw [he] at h; simp at h
    · rw [he] at h
      obtain ⟨r, h1, h2⟩ := Out.bind_eq_ok.1 h
      simp only [Out.ok.injEq, Prod.mk.injEq, Option.some.injEq] at h2
      rw [h1, ← h2.1, ← h2.2]
    · rw [he] at h
      obtain ⟨r, h1, h2⟩ := Out.bind_eq_ok.1 h
      simp at h2
  obtain ⟨b', h1, -, h3⟩ := C26_window pf bytes hw h4
  have hb' : Bitstream.from pf ((bytes.take (w.size.toNat + 20)).drop w.offset.toNat) = .ok (none, b') := by
    rcases C25_detect pf ((bytes.take (w.size.toNat + 20)).drop w.offset.toNat) with ⟨hl, -⟩ | ⟨-, hm, -⟩ | ⟨-, -, he⟩
    · rcases C25_raw ((bytes.take (w.size.toNat + 20)).drop w.offset.toNat) with ⟨-, g, -⟩ | ⟨-, g⟩ | ⟨-, g⟩
      · omega
      · rw [g] at h1; simp at h1
      · rw [g] at h1; simp at h1
    · exact absurd hm hbare
    · rw [he, h1]; rfl
  unfold Bitcode.tryFrom
  rw [h, hb']
  exact C60_entries pf target (.auto h) (.auto hb') h3

/-- C60. The usual case: a header, a bare file right behind it, of the size that the header gives, and anything after that.
Missing from the full claim are other offsets, where it fails (`C26_offset_cuts`, `C60_offset_cuts`). -/
theorem C60_wrapped_partial (pf : Profile) (target : Str) (version cpu size : U32) (payload trailer : List U8)
    (hsize : size.toNat = payload.length) (h4 : 4 ≤ payload.length) (hbare : word32 payload ≠ some 0x0B17C0DE) :
    Bitcode.tryFrom pf target (wrapperHeader version 20 size cpu ++ payload ++ trailer) =
      Bitcode.tryFrom pf target payload := by
  have hm : word32 (wrapperHeader version 20 size cpu ++ payload ++ trailer) = some 0x0B17C0DE := by
    simp only [wrapperHeader, List.append_assoc]
    exact word32_leBytes _ _
  have hl : 4 ≤ (wrapperHeader version 20 size cpu ++ payload ++ trailer).length := by
    simp only [List.length_append]; omega
  have hf : Bitstream.from pf (wrapperHeader version 20 size cpu ++ payload ++ trailer) =
      (Bitstream.fromWrapped pf (wrapperHeader version 20 size cpu ++ payload ++ trailer)).bind fun r =>
        .ok (some r.1, r.2) := by
    rcases C25_detect pf (wrapperHeader version 20 size cpu ++ payload ++ trailer) with ⟨hc, -⟩ | ⟨-, -, he⟩ | ⟨-, hn, -⟩
    · omega
    · exact he
    · exact absurd hm hn
  have hp : Bitstream.from pf payload = (Bitstream.fromRaw payload).bind fun b => .ok (none, b) := by
    rcases C25_detect pf payload with ⟨hc, -⟩ | ⟨-, hn, -⟩ | ⟨-, -, he⟩
    · omega
    · exact absurd hn hbare
    · exact he
  unfold Bitcode.tryFrom
  rcases C26_transparent_partial pf version cpu size payload trailer hsize with ⟨w, b, b', h1, h2, -, -, -, h6⟩ | ⟨m, h1, h2⟩
  · rw [h1] at hf; rw [h2] at hp
    rw [hf, hp]
    exact C60_entries pf target (.wrapped h1) (.raw h2) h6
  · rw [hf, hp, h1, h2]; rfl

/-- The file of `exFile`, in a wrapper with three bytes after it. -/
example (pf : Profile) : ∃ (payload : List U8) (size : U32), size.toNat = payload.length ∧ 100 < payload.length ∧
    Bitcode.tryFrom pf "t".toList (wrapperHeader 0 20 size 7 ++ payload ++ [1, 2, 3]) = .ok exBitcode := by
  have hm := exFile_maps pf
  have hl : (streamBytes 0xdec04342 exFile).map (fun x => (x.1.length, word32 x.1)) = some (204, some 0xdec04342) := by
    decide +kernel
  obtain ⟨x, hx, e⟩ := Option.map_eq_some_iff.1 hm
  rw [hx] at hl
  simp only [Option.map_some, Option.some.injEq, Prod.mk.injEq] at hl
  refine ⟨x.1, 204, by rw [hl.1]; rfl, by omega, ?_⟩
  rw [C60_wrapped_partial pf _ 0 7 _ x.1 [1, 2, 3] (by rw [hl.1]; rfl) (by omega) (by rw [hl.2]; decide)]
  exact e

/-- The same file with another magic. -/
example (pf : Profile) : ∃ rest : List U8, 100 < rest.length ∧
    Bitcode.tryFrom pf "t".toList (leBytes 0xdec04342 ++ rest) = .ok exBitcode ∧
    Bitcode.tryFrom pf "t".toList (leBytes 0 ++ rest) = .ok exBitcode := by
  have hm := exFile_maps pf
  have hl : (streamBytes 0xdec04342 exFile).map (fun x => (x.1.length, x.1.take 4)) =
      some (204, leBytes 0xdec04342) := by decide +kernel
  obtain ⟨x, hx, e⟩ := Option.map_eq_some_iff.1 hm
  rw [hx] at hl
  simp only [Option.map_some, Option.some.injEq, Prod.mk.injEq] at hl
  have hx : leBytes 0xdec04342 ++ x.1.drop 4 = x.1 := by rw [← hl.2]; exact List.take_append_drop 4 x.1
  refine ⟨x.1.drop 4, by rw [List.length_drop]; omega, by rw [hx]; exact e, ?_⟩
  rw [C60_magic_ignored pf _ 0 0xdec04342 _ (by decide) (by decide), hx]
  exact e

/-- C60 is false at other offsets, because the size is counted from the end of the header: a file that maps does not when a
gap of 4 bytes is left before it. -/
theorem C60_offset_cuts (pf : Profile) (target : Str) :
    ∃ payload : List U8, payload.length = 4 ∧ Bitcode.tryFrom pf target payload = .ok { modules := [] } ∧
      Bitcode.tryFrom pf target (wrapperHeader 0 24 4 7 ++ [0, 0, 0, 0] ++ payload) = .err (.parse (.badContainer (.magic .eof))) := by
  exact ⟨exMagic, by decide, by cases pf <;> rfl, by cases pf <;> rfl⟩

end Verif
