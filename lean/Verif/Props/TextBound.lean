import Verif.Props.Costs

/-! C76, the text that is printed for a mapped file: never longer than a square. -/

namespace Verif
open Spec

theorem linesText_cons_length (d : Nat) (t : Str) (ls : List (Nat × Str)) :
    (linesText ((d, t) :: ls)).length = 4 * d + t.length + 1 + (linesText ls).length := by
  simp only [linesText, List.flatMap_cons, List.length_append, List.length_replicate, List.length_cons, List.length_nil]
  omega

theorem linesText_append_length (l m : List (Nat × Str)) : (linesText (l ++ m)).length = (linesText l).length + (linesText m).length := by
  simp only [linesText, List.flatMap_append, List.length_append]

theorem linesText_nil_length : (linesText []).length = 0 := rfl

theorem linesText_flatMap {α : Type} (l : List α) (f : α → List (Nat × Str)) :
    (linesText (l.flatMap f)).length = (l.map fun a => (linesText (f a)).length).sum := by
  induction l with
  | nil => rfl
  | cons a l ih => rw [List.flatMap_cons, linesText_append_length, ih, List.map_cons, List.sum_cons]

theorem group_text (o c : Str) (ps : List (Str × Doc)) (d : Nat) (pre post : Str) :
    (linesText (Doc.group o c ps d pre post)).length =
      8 * d + pre.length + o.length + c.length + post.length + 2 +
        (ps.map fun p => (linesText (p.2 (d + 1) p.1 [','])).length).sum := by
  simp only [Doc.group, linesText_cons_length, linesText_append_length, linesText_flatMap, linesText_nil_length, List.length_append]
  omega

theorem word_text (t : Str) (d : Nat) (pre post : Str) :
    (linesText (Doc.word t d pre post)).length = 4 * d + pre.length + t.length + post.length + 1 := by
  simp only [Doc.word, linesText_cons_length, linesText_nil_length, List.length_append]
  omega

/-- A list of parts: two lines more than those of its parts. -/
theorem list_text (ps : List Doc) (d : Nat) (pre post : Str) :
    (linesText (Doc.list ps d pre post)).length ≤
      8 * d + pre.length + post.length + 4 + (ps.map fun p => (linesText (p (d + 1) [] [','])).length).sum := by
  cases ps with
  | nil =>
    rw [Doc.list, word_text]
    simp
    omega
  | cons p ps =>
    rw [Doc.list, group_text]
    · rw [List.map_map]
      simp [Function.comp_def]
      omega
    · simp

theorem sum_map_le {α : Type} {f g : α → Nat} {l : List α} (h : ∀ a ∈ l, f a ≤ g a) : (l.map f).sum ≤ (l.map g).sum := by
  induction l with
  | nil => exact Nat.le_refl _
  | cons a l ih =>
    have := h a (by simp)
    have := ih fun a ha => h a (by simp [ha])
    simp only [List.map_cons, List.sum_cons]; omega

theorem sum_affine {α : Type} (f : α → Nat) (k c : Nat) (l : List α) :
    (l.map fun a => k * f a + c).sum = k * (l.map f).sum + c * l.length := by
  induction l with
  | nil => simp
  | cons a l ih =>
    simp only [List.map_cons, List.sum_cons, ih, List.length_cons, Nat.mul_add, Nat.mul_one]; omega

theorem byte_decimal (b : U8) : (decimal b.toNat).length ≤ 3 :=
  (Nat.length_toDigits_le_iff (by omega) (by omega)).2 (by have := b.isLt; omega)

theorem bytes_text (bs : List U8) (d : Nat) (pre post : Str) :
    (linesText (byteDoc bs d pre post)).length ≤ 8 * d + pre.length + post.length + 4 + (4 * d + 9) * bs.length := by
  refine Nat.le_trans (list_text ..) ?_
  rw [List.map_map]
  have : (bs.map ((fun p : Doc => (linesText (p (d + 1) [] [','])).length) ∘ fun b => Doc.word (decimal b.toNat))).sum ≤
      (bs.map fun _ => 4 * d + 9).sum := by
    refine sum_map_le fun b _ => ?_
    have := byte_decimal b
    simp only [Function.comp, word_text, List.length_nil, List.length_cons]
    omega
  rw [List.map_const', List.sum_replicate_nat, Nat.mul_comm] at this
  omega

theorem escape_text (plain : Char → Bool) (c : Char) : (Print.escape plain c).length ≤ 10 := by
  have hx : ∀ k n, (Print.hexDigits k n).length ≤ k := by
    intro k
    induction k with
    | zero => intro n; exact Nat.le_refl _
    | succ k ih =>
      intro n
      rw [Print.hexDigits]
      split
      · simp
      · have := ih (n / 16)
        simp; omega
  unfold Print.escape
  repeat' split
  all_goals try simp
  have := hx 6 c.toNat
  omega

theorem quote_text (plain : Char → Bool) (s : Str) : (Print.quote plain s).length ≤ 10 * s.length + 2 := by
  have : (s.flatMap (Print.escape plain)).length ≤ 10 * s.length := by
    induction s with
    | nil => exact Nat.le_refl _
    | cons c s ih =>
      have := escape_text plain c
      simp only [List.flatMap_cons, List.length_append, List.length_cons]; omega
  simp only [Print.quote, List.cons_append, List.length_cons, List.length_append, List.length_nil]
  omega

theorem strings_text (plain : Char → Bool) (l : List Str) (d : Nat) (pre post : Str) :
    (linesText (stringsDoc (Print.quote plain) l d pre post)).length ≤
      8 * d + pre.length + post.length + 4 + (10 * (l.map (·.length)).sum + (4 * d + 8) * l.length) := by
  refine Nat.le_trans (list_text ..) ?_
  rw [List.map_map, ← sum_affine]
  refine Nat.add_le_add_left (sum_map_le fun s _ => ?_) _
  have := quote_text plain s
  simp only [Function.comp, word_text, List.length_nil, List.length_cons]
  omega

/-- The lines that are texts of their own in a mapped module. -/
def moduleTexts (m : BitcodeModule) : Nat := m.module.asm.length + m.module.deplibs.length

theorem module_text (plain : Char → Bool) (m : BitcodeModule) :
    (linesText (moduleDoc (Print.quote plain) m 2 [] [','])).length ≤ 40 * (moduleSize m + moduleTexts m) + 1000 := by
  have h1 := quote_text plain m.identification.producer
  have h2 : (decimal m.identification.epoch.toNat).length ≤ 20 :=
    (Nat.length_toDigits_le_iff (by omega) (by omega)).2 (by have := m.identification.epoch.isLt; omega)
  have h3 := quote_text plain m.module.triple
  have h4 := strings_text plain m.module.asm 4 "asm: ".toList [',']
  have h5 := strings_text plain m.module.deplibs 4 "deplibs: ".toList [',']
  have h6 := bytes_text m.strtab.bytes 4 [] [',']
  unfold moduleDoc moduleSize moduleTexts
  simp only [group_text, word_text, List.map_cons, List.map_nil, List.sum_cons, List.sum_nil, List.length_nil, List.length_cons]
  simp only [Nat.reduceAdd, Nat.reduceMul] at h4 h5 h6 ⊢
  cases hs : m.symtab with
  | none =>
    simp [word_text] at h4 h5 h6 ⊢
    omega
  | some t =>
    have h7 := bytes_text t.bytes 5 [] [',']
    simp [group_text] at h4 h5 h6 h7 ⊢
    omega

theorem lines_count {s : Str} {ls : List Str} (h : Lines s ls) : ls.length ≤ s.length + 1 := by
  obtain ⟨-, -, h⟩ := h
  rw [← h]
  clear h
  induction ls with
  | nil => exact Nat.zero_le _
  | cons l ls ih =>
    cases ls with
    | nil => simp
    | cons l' ls =>
      rw [List.intercalate_cons_cons]
      simp only [List.length_cons, List.length_append, List.length_nil] at ih ⊢
      omega

theorem each_length {α β : Type} {P : α → β → Prop} {l : List α} {m : List β} (h : Each P l m) : m.length = l.length := by
  induction l generalizing m with
  | nil => rw [each_nil_left] at h; subst h; rfl
  | cons a l ih =>
    obtain ⟨b, m, rfl, -, h⟩ := each_cons_left.1 h
    simp [ih h]

/-- The lines of a module of a file are fewer than twice the bits of the file. -/
theorem part_texts {pf : Profile} {target : Str} {b : Bitstream} (ho : Opened pf b) {tops : List (BBlock × Forest)}
    (hit : items (iterate pf (completeEntries tops).length b).1 = completeEntries tops) {p : Parts (BBlock × Forest)}
    (hp : p ∈ parts tops) {m : BitcodeModule} (h : PartsSay pf target p m) : moduleTexts m ≤ 2 * b.len := by
  obtain ⟨-, -, ⟨d, ctx, fs, as, hd, hm⟩, -⟩ := h
  have hmem := parts_module_mem hp hd
  have h2 := (iterate_bound (pf := pf) (completeEntries tops).length ho.start.1)
  rw [hit] at h2
  have h3 := top_entries hmem
  have h4 := records_entries d.2
  have h1 : m.module.asm.length ≤ b.len := by
    have ha := hm.asm
    have hw : ∀ r ∈ withCode d.2.records 4, r ∈ d.2.records := fun r hr => (List.mem_filter.1 hr).1
    revert ha hw
    generalize withCode d.2.records 4 = l
    generalize m.module.asm = ls
    intro ha hw
    cases ha with
    | absent => exact Nat.zero_le _
    | @present r _ ha =>
      obtain ⟨s, h, hl⟩ := ha
      have g1 := holds_length h
      have g2 := lines_count hl
      have g3 := iterate_small (completeEntries tops).length ho.start.1 (opened_small ho) r
        (by rw [hit]; exact record_completeEntries hmem (hw _ (by simp)))
      omega
  have h5 : m.module.deplibs.length ≤ b.len := by
    rw [each_length hm.deplibs]
    have : (withCode d.2.records 6).length ≤ d.2.records.length := List.length_filter_le ..
    omega
  unfold moduleTexts
  omega

/-- C76 for the program that prints a mapped file, in full, would bound the text by the length of the file times a constant. What holds: it
is bounded by the square of the length. -/
theorem C76_text_partial (pf : Profile) (target : Str) (plain : Char → Bool) (bytes : List U8) (hlen : bytes.length ≤ 2 ^ 61) (text : Str)
    (h : Print.main pf target plain bytes = .ok text) :
    text.length ≤ 15360 * bytes.length ^ 2 + 320 * bytes.length * target.length := by
  obtain ⟨f, hf, rfl⟩ := (C75_prints pf target plain bytes text).1 h
  have hsize := C76_result_partial pf target bytes hlen f hf
  obtain ⟨w, b, tops, hb, hd, -, hs⟩ := (C51_bytes pf target bytes hlen f).1 hf
  have ho : Opened pf b := .auto hb
  have hl := from_len hb
  have hit := delivers_iterate hd
  have h2 := iterate_bound (pf := pf) (completeEntries tops).length ho.start.1
  rw [hit] at h2
  have hn : (parts tops).length ≤ b.len := by
    have := parts_length tops
    have := tops_length tops
    omega
  have h4 : 4 ≤ bytes.length := by
    rcases Props.C25_detect pf bytes with ⟨-, h⟩ | ⟨h, -⟩ | ⟨h, -⟩
    · rw [h] at hb; cases hb
    · exact h
    · exact h
  have key : ∀ (ps : List (Parts (BBlock × Forest))) (ms : List BitcodeModule), Each (PartsSay pf target) ps ms →
      (∀ p ∈ ps, p ∈ parts tops) → (ms.map moduleTexts).sum ≤ ps.length * (2 * b.len) := by
    intro ps
    induction ps with
    | nil => intro ms h _; rw [each_nil_left] at h; subst h; exact Nat.zero_le _
    | cons p ps ih =>
      intro ms h hk
      obtain ⟨m, ms, rfl, h1, h2⟩ := each_cons_left.1 h
      have g1 := part_texts ho hit (hk p (by simp)) h1
      have g2 := ih ms h2 fun q hq => hk q (by simp [hq])
      rw [List.map_cons, List.sum_cons, List.length_cons, Nat.add_mul, Nat.one_mul]
      omega
  have ht := key _ _ hs fun _ h => h
  have hm := each_length hs
  have htext : (bitcodeText (Print.quote plain) f).length ≤ 40 * (fileSize f + (f.modules.map moduleTexts).sum) + 1000 * f.modules.length + 60 := by
    unfold bitcodeText bitcodeDoc
    simp only [group_text, List.map_cons, List.map_nil, List.sum_cons, List.sum_nil]
    have h1 := list_text (f.modules.map (moduleDoc (Print.quote plain))) (0 + 1) "modules: ".toList [',']
    have h2 : (f.modules.map ((fun p : Doc => (linesText (p (0 + 1 + 1) [] [','])).length) ∘ moduleDoc (Print.quote plain))).sum ≤
        (f.modules.map fun m => 40 * (moduleSize m + moduleTexts m) + 1000).sum :=
      sum_map_le fun m _ => module_text plain m
    rw [sum_affine] at h2
    have h3 : (f.modules.map fun m => moduleSize m + moduleTexts m).sum = fileSize f + (f.modules.map moduleTexts).sum := by
      unfold fileSize
      generalize f.modules = l
      induction l with
      | nil => rfl
      | cons m l ih => simp only [List.map_cons, List.sum_cons, ih]; omega
    rw [h3] at h2
    rw [List.map_map] at h1
    simp at h1 h2 ⊢
    omega
  generalize hB : bytes.length = n at *
  have e1 : (parts tops).length * (2 * b.len) ≤ 2 * (8 * n) ^ 2 := by
    have := Nat.mul_le_mul (show (parts tops).length ≤ 8 * n by omega) (show 2 * b.len ≤ 2 * (8 * n) by omega)
    rw [Nat.mul_left_comm (8 * n), ← Nat.pow_two] at this
    exact this
  have e2 : 32 * (8 * n) ≤ (8 * n) ^ 2 := by
    rw [Nat.pow_two]; exact Nat.mul_le_mul_right _ (by omega)
  have e3 : (8 * n) ^ 2 = 64 * n ^ 2 := by rw [Nat.mul_pow]
  have e4 : 8 * n * target.length * 40 = 320 * n * target.length := by
    rw [Nat.mul_right_comm]; congr 1; omega
  omega

/-- There is something to bound: `C76_text` gives files of 400000 bytes for which a million characters are printed. -/
example : ∃ bytes text, bytes.length ≤ 2 ^ 61 ∧ Print.main .debug [] (fun _ => true) bytes = .ok text ∧ 10 ^ 6 ≤ text.length := by
  obtain ⟨bytes, text, h1, h2, h3⟩ := C76_text .debug [] (fun _ => true) 1000 (by omega) (by omega)
  exact ⟨bytes, text, by omega, h2, h3⟩

end Verif
