import Verif.Props.Cursor

/-! C05, the position that `io::Seek` reports. -/

namespace Verif.Props
open Verif.Cursor Verif.Spec

/-- C05, the reported position: `stream_position` is the byte that holds the next bit (or the length, at the end), it is what
`seek(SeekFrom::Current(0))` returns, and after any seek that succeeds it is what the seek returned. A seek by 0 is not without effect:
it goes back to the start of the byte. -/
theorem C05_position {pf : Profile} {c : Cursor} (h : Reachable pf c) (hlen : c.inner.length < 2^63) :
    (8 * c.streamPosition ≤ c.tellBit ∧ c.tellBit < 8 * (c.streamPosition + 1) ∧ c.streamPosition ≤ c.byteLen) ∧
    (∃ c', Cursor.seek pf (.current 0) c = (.ok c.streamPosition, c') ∧ c'.tellBit = 8 * c.streamPosition) ∧
    ∀ p n c', Cursor.seek pf p c = (.ok n, c') → c'.streamPosition = n := by
  have hi := h.inv
  have hbl := hi.len_le
  have ht := tellBit_le hi
  have htb : c.tellByte ≤ c.byteLen := by simp only [tellByte]; omega
  refine ⟨?_, ?_, ?_⟩
  · simp only [streamPosition, tellByte]; omega
  · have hov : pf = .release ∨ seekTarget c (.current 0) < 2^63 ∨ ∃ q, (SeekFrom.current 0) = .start q :=
      .inr (.inl (by simp only [seekTarget]; omega))
    obtain ⟨c', h1, h2, h3, -⟩ := (C05_seek_exact_partial h hlen (p := .current 0) (by simp [SeekArgOk]) hov).1
      ⟨by simp only [seekTarget]; omega, by simp only [seekTarget]; omega, trivial⟩
    have e : seekTarget c (.current 0) = (c.streamPosition : Int) := by simp [seekTarget, streamPosition]
    rw [e] at h1 h2
    refine ⟨c', h1, ?_⟩
    omega
  · have key : ∀ off n c', seekTo off c = (.ok n, c') → c'.streamPosition = n := by
      intro off n c' hs
      rcases seekTo_spec hi off with ⟨_, e⟩ | ⟨_, e⟩
      · rw [e] at hs
        obtain ⟨rfl, rfl⟩ : off = n ∧ c.atByte off = c' := by simpa using hs
        simp [streamPosition, Cursor.atByte, tellByte, tellBit, clearBlockState]
      · rw [e] at hs; simp at hs
    intro p n c' hs
    cases p with
    | start q => exact key _ _ _ hs
    | fromEnd q =>
      simp only [Cursor.seek] at hs
      split at hs
      · simp at hs
      · split at hs
        · simp at hs
        · exact key _ _ _ hs
    | current q =>
      simp only [Cursor.seek] at hs
      split at hs
      · simp at hs
      · exact key _ _ _ hs

/-- At bit 60 of a buffer of 10 bytes the position is byte 7; a seek by 0 goes back to bit 56. -/
example : Reachable .debug exCursor ∧ exCursor.inner.length < 2^63 ∧ exCursor.tellBit = 60 ∧ exCursor.streamPosition = 7 ∧
    (Cursor.seek .debug (.current 0) exCursor).1 = .ok 7 ∧ (Cursor.seek .debug (.current 0) exCursor).2.tellBit = 56 :=
  ⟨.step _ (.new _), by decide, by decide, by decide, by decide, by decide⟩

end Verif.Props
