import Verif.Bitstream.Size
import Verif.Props.Iteration

/-!
# Property C54: how much a stream can make its consumer hold

Vocabulary: `Verif/Bitstream/RunSpec.lean` (`Opened`, `Reach`, `iterate`, `items`).
-/

namespace Verif
open Spec Cursor Parser

theorem opened_small {pf : Profile} {b : Bitstream} (h : Opened pf b) : b.parser.Small := by
  obtain ⟨-, h1, h2⟩ := h.start
  refine ⟨fun s hs a ha => ?_, by rw [h2]; simp⟩
  rw [h1, List.mem_singleton] at hs
  subst hs
  cases ha

theorem reach_small {pf : Profile} {b : Bitstream} (h : Reach pf b) : PInv b.parser ∧ b.parser.Small := by
  induction h with
  | opened h => exact ⟨h.start.1, opened_small h⟩
  | next _ ih => exact ⟨next_pinv ih.1, (small_next ih.1 ih.2).1⟩

theorem iterate_small {pf : Profile} (n : Nat) {b : Bitstream} (hp : PInv b.parser) (hs : b.parser.Small) :
    ∀ r, .record r ∈ items (iterate pf n b).1 → r.fields.length < b.len := by
  induction n generalizing b with
  | zero => intro r hr; cases hr
  | succ n ih =>
    intro r hr
    obtain ⟨g1, g2⟩ := small_next (pf := pf) hp hs
    obtain ⟨-, p2, -, p4, -, -, -⟩ := next_progress (pf := pf) hp
    simp only [iterate] at hr
    rw [items_cons, List.mem_append] at hr
    rcases hr with hr | hr
    · have he : (Bitstream.next pf b).1 = .item (.record r) := by
        match hx : (Bitstream.next pf b).1 with
        | .item e => rw [hx] at hr; simp [items] at hr; rw [hr]
        | .error _ => rw [hx] at hr; simp [items] at hr
        | .done => rw [hx] at hr; simp [items] at hr
        | .panic _ => rw [hx] at hr; simp [items] at hr
        | .diverge => rw [hx] at hr; simp [items] at hr
      exact Nat.lt_of_lt_of_le (g2 r he) p4
    · have := ih (next_pinv hp) g1 r hr
      rwa [p2] at this

theorem items_map (l : List StreamEntry) : items (l.map .item) = l := by
  induction l with
  | nil => rfl
  | cons e l ih => simp only [List.map_cons, items, ih]

theorem delivers_iterate {pf : Profile} {es : List StreamEntry} : ∀ {b : Bitstream}, Delivers pf b es →
    items (iterate pf es.length b).1 = es := by
  induction es with
  | nil => intro b _; rfl
  | cons e es ih =>
    rintro b ⟨b', h1, h2⟩
    simp only [List.length_cons, iterate, h1]
    rw [items, ih h2]

theorem from_len {pf : Profile} {bytes : List U8} {w : Option BitcodeWrapper} {b : Bitstream}
    (h : Bitstream.from pf bytes = .ok (w, b)) : b.len ≤ bytes.length * 8 := by
  have fc : ∀ {c : Cursor} {b : Bitstream}, Cursor.Inv c → Bitstream.fromCursor c = .ok b → b.len = c.bitLen := by
    intro c b hc hb
    rcases fromCursor_spec hc with ⟨-, -, v, c', e, -, this, -⟩ | ⟨-, e⟩
    · rw [e] at hb; simp only [Out.ok.injEq] at hb; subst hb
      simp only [Bitstream.len, Parser.new, bitLen, this.2]
    · rw [e] at hb; simp at hb
  rcases from_spec pf bytes with ⟨-, e⟩ | ⟨-, -, e⟩ | ⟨-, -, e⟩
  · rw [e] at h; simp at h
  · rw [e] at h
    rcases fromWrapped_spec pf bytes with ⟨w', -, hs, ho, e'⟩ | ⟨w', -, -, e'⟩ | ⟨w', -, -, -, e'⟩ | ⟨-, e'⟩
    · rw [e'] at h
      cases hc : Bitstream.fromCursor (windowCursor bytes (w'.size.toNat + 20) w'.offset.toNat) with
      | ok b' =>
        rw [hc] at h; simp [Out.bind] at h
        rw [← h.2, fc (inv_window hs ho) hc]
        simp [windowCursor, bitLen, Cursor.new, Cursor.clearBlockState, Cursor.atByte]
        omega
      | err _ => rw [hc] at h; simp [Out.bind] at h
      | panic _ => rw [hc] at h; simp [Out.bind] at h
      | diverge => rw [hc] at h; simp [Out.bind] at h
    all_goals rw [e'] at h; simp [Out.bind] at h
  · rw [e] at h
    cases hw : Bitstream.fromRaw bytes with
    | ok r =>
      rw [hw] at h; simp [Out.bind] at h
      rw [← h.2, fc (inv_new _) hw]
      simp [bitLen, Cursor.new]
    | err _ => rw [hw] at h; simp [Out.bind] at h
    | panic _ => rw [hw] at h; simp [Out.bind] at h
    | diverge => rw [hw] at h; simp [Out.bind] at h

namespace Props

/-- C54. Whenever a call of `next` gives a record, in whatever state earlier calls have left the stream, the record has
fewer fields than bits have been read from the input so far, and so fewer than the input has bits. -/
theorem C54_record_size (pf : Profile) {b b' : Bitstream} (h : Reach pf b) {r : BRecord}
    (hn : Bitstream.next pf b = (.item (.record r), b')) : r.fields.length < b'.pos ∧ b'.pos ≤ b.len := by
  obtain ⟨h1, h2⟩ := reach_small h
  have g := (small_next (pf := pf) h1 h2).2 r
  have p := (next_progress (pf := pf) h1).2.2.2.1
  rw [hn] at g p
  exact ⟨g rfl, p⟩

/-- The number of fields of an entry. -/
def weight : StreamEntry → Nat
  | .record r => r.fields.length
  | _ => 0

/-- C54, for whole iterations: however often `next` is called, all the records it gives together have at most as many fields
as the square of the number of bits of the input. -/
theorem C54_total (pf : Profile) {b : Bitstream} (h : Opened pf b) (n : Nat) :
    ((items (iterate pf n b).1).map weight).sum ≤ b.len * b.len := by
  have hp := h.start.1
  have h1 := iterate_small (pf := pf) n hp (opened_small h)
  obtain ⟨h2, h3, h4⟩ := iterate_bound (pf := pf) n hp
  have key : ∀ es : List StreamEntry, (∀ r, .record r ∈ es → r.fields.length < b.len) →
      (es.map weight).sum ≤ es.length * b.len := by
    intro es
    induction es with
    | nil => intro _; simp
    | cons e es ih =>
      intro hs
      have := ih fun r hr => hs r (List.mem_cons_of_mem _ hr)
      have hw : weight e ≤ b.len := by
        cases e with
        | record r => exact Nat.le_of_lt (hs r (by simp))
        | subBlock _ => exact Nat.zero_le _
        | endBlock => exact Nat.zero_le _
      simp only [List.map_cons, List.sum_cons, List.length_cons, Nat.succ_mul]
      omega
  refine Nat.le_trans (key _ h1) (Nat.mul_le_mul_right _ ?_)
  omega

/-- C54, for bytes. -/
theorem C54_bytes (pf : Profile) {bytes : List U8} {w : Option BitcodeWrapper} {b : Bitstream}
    (h : Bitstream.from pf bytes = .ok (w, b)) (n : Nat) {r : BRecord} (hr : .record r ∈ items (iterate pf n b).1) :
    r.fields.length < bytes.length * 8 :=
  Nat.lt_of_lt_of_le (iterate_small n (Opened.auto h).start.1 (opened_small (.auto h)) r hr) (from_len h)

/-- An abbreviation of seven literals, and two records that use it. -/
def exLiterals : Items :=
  .block 8 3 (.define { scalars := [.lit 1, .lit 2, .lit 3, .lit 4, .lit 5, .lit 6, .lit 7], tail := .nothing }
    (.abbrev 4 1 [2, 3, 4, 5, 6, 7] (.abbrev 4 1 [2, 3, 4, 5, 6, 7] .nil))) .nil

/-- C54: the bound is on the bits read so far, not on those of the record: here the third call of `next` reads 3 bits and
gives a record with 6 fields. -/
theorem C54_amplified : ∃ bytes w b,
    Bitstream.from .debug bytes = .ok (w, b) ∧
    (iterate .debug 3 b).1[2]? = some (.item (.record { abbrevId := some 4, code := 1, fields := [2, 3, 4, 5, 6, 7] })) ∧
    (iterate .debug 3 b).2.pos = (iterate .debug 2 b).2.pos + 3 := by
  have key : (streamBytes 0xdec04342 exLiterals).map (fun x => match Bitstream.from .debug x.1 with
      | .ok (_, b) => some ((iterate .debug 3 b).1[2]?, (iterate .debug 3 b).2.pos, (iterate .debug 2 b).2.pos)
      | _ => none) = some (some
        (some (.item (.record { abbrevId := some 4, code := 1, fields := [2, 3, 4, 5, 6, 7] })), 173, 170)) := by
    decide +kernel
  simp only [Option.map_eq_some_iff] at key
  obtain ⟨x, -, h⟩ := key
  split at h
  · next w b hb =>
    simp only [Option.some.injEq, Prod.mk.injEq] at h
    exact ⟨x.1, w, b, hb, h.1, by rw [h.2.1, h.2.2]⟩
  · cases h

end Props
end Verif
