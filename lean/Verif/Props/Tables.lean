import Verif.Props.Unroll

/-! C52: the identification, string table and symbol table blocks. -/

namespace Verif
open Spec

theorem blob_zero_iff (pf : Profile) (r : BRecord) (bs : List U8) :
    r.tryBlob pf 0 = .ok bs ↔ AreBytes r.fields bs ∧ r.fields.length ≠ 1 ∧ (r.fields = [] → pf = .release) := by
  by_cases h : r.fields = []
  · cases pf with
    | debug => rw [(C31_empty_record r h 0).2.1]; simp [h]
    | release =>
      rw [((C31_empty_record r h 0).2.2.1 rfl).2]
      simp [h, AreBytes, eq_comm]
  · rw [(C31_blob_partial pf r 0 h).2]
    have : r.fields.length ≠ 0 := by simpa using h
    simp [h]
    constructor
    · rintro ⟨h1, h2⟩; exact ⟨h2, by omega⟩
    · rintro ⟨h1, h2⟩; exact ⟨by omega, h1⟩

theorem string_zero_iff (pf : Profile) (r : BRecord) (s : Str) :
    r.tryString pf 0 = .ok s ↔ AreBytes r.fields (utf8 s) ∧ r.fields.length ≠ 1 ∧ (r.fields = [] → pf = .release) := by
  by_cases h : r.fields = []
  · cases pf with
    | debug => rw [(C31_empty_record r h 0).1]; simp [h]
    | release =>
      rw [((C31_empty_record r h 0).2.2.1 rfl).1]
      simp only [Out.ok.injEq, h, AreBytes, List.length_nil]
      constructor
      · rintro rfl; exact ⟨rfl, by simp, fun _ => trivial⟩
      · rintro ⟨h1, -⟩
        have : utf8 s = [] := by simpa using h1.symm
        have := utf8Decode_eq_some.2 this
        simpa [utf8Decode] using this
  · rw [(C31_string_partial pf r 0 h).2]
    have : r.fields.length ≠ 0 := by simpa using h
    simp [h]
    constructor
    · rintro ⟨h1, h2⟩; exact ⟨h2, by omega⟩
    · rintro ⟨h1, h2⟩; exact ⟨by omega, h1⟩

theorem one_iff (rs : Records) (code : U64) (r : BRecord) : Records.one rs code = some r ↔ FirstWith code rs r :=
  (C30_one rs code).1 r

/-- C52. A string table holds exactly the bytes of the first blob record; records after it, and records with other
codes, do not matter. A blob of one byte is not accepted, nor is an empty one in a debug build. -/
theorem C52_strtab (pf : Profile) (b : UBlock) (t : Strtab) :
    Strtab.tryFrom pf b = .ok t ↔ ∃ r, FirstWith 1 b.records r ∧ AreBytes r.fields t.bytes ∧ r.fields.length ≠ 1 ∧
      (r.fields = [] → pf = .release) := by
  simp only [← blob_zero_iff, ← one_iff]
  unfold Strtab.tryFrom
  rw [show StrtabCode.blob.code = 1 from rfl]
  cases h : Records.one b.records 1 with
  | none => simp
  | some r =>
    simp only [Out.ofOption_some, Out.ok_bind, Option.some.injEq, exists_eq_left']
    cases r.tryBlob pf 0 with
    | ok bs =>
      cases t
      simp [Out.mapErr, Strtab.mk.injEq]
    | err e => simp [Out.mapErr]
    | panic p => simp [Out.mapErr]
    | diverge => simp [Out.mapErr]

/-- C52 for symbol tables, which are blobs in the same way. -/
theorem C52_symtab (pf : Profile) (b : UBlock) (t : Symtab) :
    Symtab.tryFrom pf b = .ok t ↔ ∃ r, FirstWith 1 b.records r ∧ AreBytes r.fields t.bytes ∧ r.fields.length ≠ 1 ∧
      (r.fields = [] → pf = .release) := by
  simp only [← blob_zero_iff, ← one_iff]
  unfold Symtab.tryFrom
  rw [show SymtabCode.blob.code = 1 from rfl]
  cases h : Records.one b.records 1 with
  | none => simp
  | some r =>
    simp only [Out.ofOption_some, Out.ok_bind, Option.some.injEq, exists_eq_left']
    cases r.tryBlob pf 0 with
    | ok bs =>
      cases t
      simp [Out.mapErr, Symtab.mk.injEq]
    | err e => simp [Out.mapErr]
    | panic p => simp [Out.mapErr]
    | diverge => simp [Out.mapErr]

/-- C52 for the identification block: the producer is the text of the first producer record, the epoch the first field of
the first epoch record. -/
theorem C52_identification (pf : Profile) (b : UBlock) (i : Identification) :
    Identification.tryFrom pf b = .ok i ↔
      (∃ r, FirstWith 1 b.records r ∧ AreBytes r.fields (utf8 i.producer) ∧ r.fields.length ≠ 1 ∧
        (r.fields = [] → pf = .release)) ∧
      (∃ r fs, FirstWith 2 b.records r ∧ r.fields = i.epoch :: fs) := by
  simp only [← string_zero_iff, ← one_iff]
  unfold Identification.tryFrom
  rw [show IdentificationCode.producerString.code = 1 from rfl, show IdentificationCode.epoch.code = 2 from rfl]
  cases h : Records.one b.records 1 with
  | none => simp
  | some r =>
    simp only [Out.ofOption_some, Out.ok_bind, Option.some.injEq, exists_eq_left']
    cases r.tryString pf 0 with
    | err e => simp [Out.mapErr]
    | panic p => simp [Out.mapErr]
    | diverge => simp [Out.mapErr]
    | ok s =>
      simp only [Out.mapErr, Out.ok_bind]
      cases h2 : Records.one b.records 2 with
      | none => simp
      | some r2 =>
        simp only [Out.ofOption_some, Out.ok_bind, Option.some.injEq]
        cases hf : r2.fields with
        | nil =>
          simp only [List.head?_nil, Out.ofOption_none, Out.err_bind, reduceCtorEq, false_iff, not_and]
          rintro - ⟨r, fs, rfl, hr⟩
          rw [hf] at hr; simp at hr
        | cons e fs =>
          simp only [List.head?_cons, Out.ofOption_some, Out.ok_bind, Out.ok.injEq]
          cases i
          simp only [Identification.mk.injEq]
          constructor
          · rintro ⟨rfl, rfl⟩; exact ⟨rfl, r2, fs, rfl, hf⟩
          · rintro ⟨rfl, r, fs', rfl, hr⟩
            rw [hf] at hr; simp at hr; exact ⟨rfl, hr.1⟩

/-- The mappings return, except that an empty blob or producer record panics in a debug build. -/
theorem C52_returns (pf : Profile) (b : UBlock) :
    (¬ (Strtab.tryFrom pf b).Returns ↔ pf = .debug ∧ ∃ r, FirstWith 1 b.records r ∧ r.fields = []) ∧
    (¬ (Symtab.tryFrom pf b).Returns ↔ pf = .debug ∧ ∃ r, FirstWith 1 b.records r ∧ r.fields = []) ∧
    (¬ (Identification.tryFrom pf b).Returns ↔ pf = .debug ∧ ∃ r, FirstWith 1 b.records r ∧ r.fields = []) := by
  simp only [← one_iff]
  unfold Strtab.tryFrom Symtab.tryFrom Identification.tryFrom
  rw [show StrtabCode.blob.code = 1 from rfl, show SymtabCode.blob.code = 1 from rfl,
    show IdentificationCode.producerString.code = 1 from rfl]
  cases h : Records.one b.records 1 with
  | none => simp [Out.Returns]
  | some r =>
    simp only [Out.ofOption_some, Out.ok_bind, Option.some.injEq, exists_eq_left']
    have hid : ∀ s : Str, ((do
        let r ← Out.ofOption IdentificationError.missingEpoch (Records.one b.records IdentificationCode.epoch.code)
        let epoch ← Out.ofOption .missingEpoch r.fields.head?
        Out.ok { producer := s, epoch : Identification }) : Out _ _).Returns := by
      intro s
      cases Records.one b.records IdentificationCode.epoch.code with
      | none => trivial
      | some r2 => cases h3 : r2.fields <;> simp [h3, Out.Returns]
    by_cases hf : r.fields = []
    · cases pf with
      | debug =>
        rw [(C31_empty_record r hf 0).1, (C31_empty_record r hf 0).2.1]
        simp [Out.mapErr, Out.Returns, hf]
      | release =>
        rw [((C31_empty_record r hf 0).2.2.1 rfl).1, ((C31_empty_record r hf 0).2.2.1 rfl).2]
        simp only [Out.mapErr, Out.ok_bind, hid]
        simp [Out.Returns]
    · have h1 := (C31_blob_partial pf r 0 hf).1
      have h2 := (C31_string_partial pf r 0 hf).1
      simp only [hf, and_false, iff_false, Classical.not_not]
      refine ⟨?_, ?_, ?_⟩
      · cases hb : r.tryBlob pf 0 <;> rw [hb] at h1 <;> simp_all [Out.mapErr, Out.Returns]
      · cases hb : r.tryBlob pf 0 <;> rw [hb] at h1 <;> simp_all [Out.mapErr, Out.Returns]
      · cases hb : r.tryString pf 0 with
        | ok s => simp only [Out.mapErr, Out.ok_bind, hid]
        | err e => trivial
        | panic p => rw [hb] at h2; exact h2
        | diverge => rw [hb] at h2; exact h2

example (pf : Profile) : Identification.tryFrom pf
    (.mk (.ir .identification) [⟨none, 2, [0, 7]⟩, ⟨none, 1, [76, 86]⟩, ⟨none, 1, [256]⟩, ⟨none, 2, [5]⟩] []) =
      .ok ⟨"LV".toList, 0⟩ ∧
    Strtab.tryFrom pf (.mk (.ir .strtab) [⟨none, 9, [0, 7]⟩, ⟨none, 1, [76, 86]⟩] []) = .ok ⟨[76, 86]⟩ ∧
    Symtab.tryFrom pf (.mk (.ir .symtab) [⟨none, 1, [76, 256]⟩] []) = .err (.invalidBlob .badByte) := by
  cases pf <;> decide +kernel

end Verif
