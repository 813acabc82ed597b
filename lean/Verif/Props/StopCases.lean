import Verif.Props.Stops
import Verif.Props.ErrorCases

/-! Files on which mapping panics or runs forever: cases in which the hypotheses of the theorems of C56 hold, for every cause
that is listed. -/

namespace Verif
open Spec

/-- A file whose module has a table of types with the given contents. -/
def typesFile (types : Items) : Items := fileOf (.unabbrev 1 [2] <| .block 17 4 types <| .block 14 4 .nil .nil)

/-! Texts and names without fields, in debug builds: a section, a structure, a producer, a string table. -/
example : mapFile .debug (fileOf (moduleOf (.unabbrev 5 [] .nil))) = some (.panic .recordLenSub) := by decide +kernel
example : mapFile .debug (typesFile (.unabbrev 1 [1] <| .unabbrev 19 [] .nil)) = some (.panic .recordLenSub) := by decide +kernel
example : mapFile .debug (.block 13 5 (.unabbrev 1 [] (.unabbrev 2 [0] .nil)) <| .block 8 3 (moduleOf .nil) <|
    .block 23 3 (.unabbrev 1 [97, 98] .nil) .nil) = some (.panic .recordLenSub) := by decide +kernel
example : mapFile .debug (.block 13 5 .nil <| .block 8 3 (moduleOf .nil) <| .block 23 3 (.unabbrev 1 [] .nil) .nil) =
    some (.panic .recordLenSub) := by decide +kernel

/-! Counts too large to reserve memory for: of types, and of basic blocks. -/
example (pf : Profile) : mapFile pf (typesFile (.unabbrev 1 [0x3000000000000000] .nil)) = some (.panic .capacity) := by
  cases pf <;> decide +kernel
example (pf : Profile) : mapFile pf (fileOf (moduleOf (.block 12 4 (.unabbrev 1 [0x7000000000000000] .nil) .nil))) =
    some (.panic .capacity) := by cases pf <;> decide +kernel

/-! A group that ends in a key, an attribute list of the old kind, a function body. -/
example (pf : Profile) : mapFile pf (fileOf (moduleOf (.block 10 3 (.unabbrev 3 [1, 0, 4, 0x6b] .nil) .nil))) =
    some (.panic .attrSlice) := by cases pf <;> decide +kernel
example (pf : Profile) : mapFile pf (fileOf (moduleOf (.block 9 3 (.unabbrev 1 [0, 0] .nil) .nil))) =
    some (.panic .unimplemented) := by cases pf <;> decide +kernel

/-- C56: no module with a function that does nothing but return maps: the mapper panics, in either build. -/
theorem C56_function_panics (pf : Profile) :
    mapFile pf (fileOf (moduleOf (.block 12 4 (.unabbrev 1 [1] (.unabbrev 10 [] .nil)) .nil))) = some (.panic .unimplemented) := by
  cases pf <;> decide +kernel

/-! Names that overflow, of a COMDAT and an alias. -/
example (pf : Profile) : mapFile pf (fileOf (moduleOf (.unabbrev 12 [1, 0xffffffffffffffff, 0] .nil))) =
    some (.panic (nameSite pf)) := by cases pf <;> decide +kernel
example (pf : Profile) : mapFile pf (fileOf (moduleOf (.unabbrev 14 [1, 0xffffffffffffffff, 0, 0, 0] .nil))) =
    some (.panic (nameSite pf)) := by cases pf <;> decide +kernel

/-- C56: a module that uses a linked list (`%node = type { i32, %node* }`) makes the mapper run forever. -/
theorem C56_linked_list (pf : Profile) :
    mapFile pf (typesFile (.unabbrev 1 [3] <| .unabbrev 7 [32] <| .unabbrev 19 [110, 111, 100, 101] <|
      .unabbrev 20 [0, 0, 2] <| .unabbrev 8 [1, 0] .nil)) = some .diverge := by
  cases pf <;> decide +kernel

/-- An empty structure, then a structure `%ab` with the one before as its only member. -/
def mergedStructs : UBlock := .mk (.ir .type)
  [⟨none, 1, [1]⟩, ⟨none, 18, [0]⟩, ⟨none, 19, [97, 98]⟩, ⟨none, 20, [0, 0]⟩] []

/-- C56, why adjacent structures are among the causes: the types listed here do not run in a circle, and no record refers to
itself or to a later type. The second structure is merged into the first, and then its own member. -/
theorem C56_merged_structs (pf : Profile) : TypeTable.tryFrom pf mergedStructs = .diverge ∧
    ¬ RefersForward mergedStructs.records ∧
    ∃ ds, Lists [] mergedStructs.records ds ∧ Acyclic ds ∧ ¬ Regular ds := by
  refine ⟨by cases pf <;> decide +kernel, ?_, [.struct none [] false, .struct (some ['a', 'b']) [0] false], ?_, ?_, ?_⟩
  · rintro ⟨pre, r, post, j, heq, hj, hle⟩
    have hi : mergedStructs.records[pre.length]? = some r := by rw [heq]; simp
    have ht : mergedStructs.records.take pre.length = pre := by rw [heq]; simp
    have hlt : pre.length < 4 := (List.getElem?_eq_some_iff.1 hi).1
    rw [← ht] at hle
    generalize pre.length = n at hi hle hlt
    match n, hlt, hi, hle with
    | 0, _, hi, _ => cases hi; simp [references] at hj
    | 1, _, hi, _ => cases hi; simp [references] at hj
    | 2, _, hi, _ => cases hi; simp [references] at hj
    | 3, _, hi, hle =>
      cases hi
      have : j = 0 := by simpa [references] using hj
      subst this
      exact absurd hle (by decide +kernel)
  · refine .numEntry rfl (.single (.structAnon (p := 0) (fs := []) rfl rfl) ?_)
    refine .name (s := ['a', 'b']) rfl (by decide +kernel) (by decide) ?_
    exact .named (r := ⟨none, 20, [0, 0]⟩) (p := 0) (fs := [0]) rfl rfl .nil
  · refine ⟨id, fun i d hd j hj => ?_⟩
    match i, hd with
    | 0, hd => cases hd; simp [TyDecl.refs] at hj
    | 1, hd => cases hd; simp [TyDecl.refs] at hj; subst hj; simp
  · intro h
    exact h [] _ _ [] rfl ⟨_, _, _, rfl⟩ ⟨_, _, _, rfl⟩

/-- In a file. -/
example (pf : Profile) : mapFile pf (typesFile (.unabbrev 1 [1] <| .unabbrev 18 [0] <| .unabbrev 19 [97, 98] <|
    .unabbrev 20 [0, 0] .nil)) = some .diverge := by cases pf <;> decide +kernel

end Verif
