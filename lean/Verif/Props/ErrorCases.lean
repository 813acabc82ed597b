import Verif.Props.ModuleErrors

/-! Files that are refused: cases in which the hypotheses of the theorems of C53 hold. -/

namespace Verif
open Spec

/-- What a file maps to. -/
def mapFile (pf : Profile) (its : Items) : Option (Out MapperError Bitcode) :=
  (streamBytes 0xdec04342 its).map fun x => Bitcode.tryFrom pf "t".toList x.1

/-- A file of an identification block, a module with the given contents, and a string table `cfg`. -/
def fileOf (contents : Items) : Items :=
  .block 13 5 (.unabbrev 1 [76, 76, 86, 77] (.unabbrev 2 [0] .nil)) <|
  .block 8 3 contents <|
  .block 23 3 (.unabbrev 1 [99, 102, 103] .nil) .nil

/-- The contents of a module with a version, a table of one type and a symbol table, and the given rest. -/
def moduleOf (rest : Items) : Items :=
  .unabbrev 1 [2] <| .block 17 4 (.unabbrev 1 [1] <| .unabbrev 7 [32] .nil) <| .block 14 4 .nil rest

/-- Such a file without more is accepted. -/
example : mapFile .debug (fileOf (moduleOf .nil)) = some (.ok { modules := [
    { identification := { producer := "LLVM".toList, epoch := 0 }
      module := { triple := "t".toList, asm := [], deplibs := [] }
      strtab := { bytes := [99, 102, 103] }, symtab := none }] }) := by decide +kernel

/-! No version, two triples, no table of types, two symbol tables, a text of one byte. -/
example : mapFile .debug (fileOf .nil) = some (.err (.map (.module (.map (.inconsistent (.missingRecord 1)))))) := by
  decide +kernel
example : mapFile .debug (fileOf (moduleOf (.unabbrev 2 [97, 98] (.unabbrev 2 [97, 98] .nil)))) =
    some (.err (.map (.module (.map (.inconsistent (.tooManyRecords 2)))))) := by decide +kernel
example : mapFile .debug (fileOf (.unabbrev 1 [2] .nil)) =
    some (.err (.map (.module (.map (.inconsistent (.missingBlock (.ir .type))))))) := by decide +kernel
example : mapFile .debug (fileOf (moduleOf (.block 14 4 .nil .nil))) =
    some (.err (.map (.module (.map (.inconsistent (.tooManyBlocks (.ir .valueSymtab))))))) := by decide +kernel
example : mapFile .debug (fileOf (moduleOf (.unabbrev 5 [97] .nil))) =
    some (.err (.map (.module (.map (.recordString (.badIndex 0 1)))))) := by decide +kernel

/-! A table of types with too few of them, a list of attributes that uses a group that is not there, a body with an unknown
instruction. -/
example : mapFile .debug (fileOf (.unabbrev 1 [2] <| .block 17 4 (.unabbrev 1 [2] <| .unabbrev 7 [32] .nil) .nil)) =
    some (.err (.map (.module (.typeTableBlock (.badSize 2 1))))) := by decide +kernel
example : mapFile .debug (fileOf (moduleOf (.block 9 3 (.unabbrev 2 [1] .nil) .nil))) =
    some (.err (.map (.module (.attributeBlock (.badAttributeGroup 1))))) := by decide +kernel
example : mapFile .debug (fileOf (moduleOf (.block 12 4 (.unabbrev 1 [1] (.unabbrev 99 [] .nil)) .nil))) =
    some (.err (.map (.module (.functionBlock (.unknownFunctionCode 99))))) := by decide +kernel

/-! Faults of the file: no string table, no identification, two modules after one identification, a block that does not
belong there, a string table without contents, an identification without epoch. -/
example : mapFile .debug (.block 13 5 (.unabbrev 1 [76, 76, 86, 77] (.unabbrev 2 [0] .nil)) (.block 8 3 (moduleOf .nil) .nil)) =
    some (.err (.unroll .missingStrtab)) := by decide +kernel
example : mapFile .debug (.block 8 3 (moduleOf .nil) .nil) = some (.err (.unroll .moduleWithoutIdentification)) := by
  decide +kernel
example : mapFile .debug (.block 13 5 .nil (.block 8 3 .nil (.block 8 3 .nil .nil))) = some (.err (.unroll .adjacentModules)) := by
  decide +kernel
example : mapFile .debug (.block 17 5 .nil .nil) = some (.err (.unroll (.unexpectedTopLevel (.ir .type)))) := by
  decide +kernel
example : mapFile .debug (.block 13 5 .nil (.block 8 3 .nil (.block 23 3 .nil .nil))) =
    some (.err (.map (.strtab .missingBlob))) := by decide +kernel
example : mapFile .debug (.block 13 5 (.unabbrev 1 [76, 76] .nil) (.block 8 3 .nil (.block 23 3 (.unabbrev 1 [97, 98] .nil) .nil))) =
    some (.err (.map (.identification .missingEpoch))) := by decide +kernel

/-- C53 does not hold of the error about operands of binary operators: an addition of two 32-bit integers is refused for its
type. -/
theorem C53_operand_counterexample (pf : Profile) :
    mapFile pf (fileOf (moduleOf (.block 12 4 (.unabbrev 1 [1] (.unabbrev 2 [1, 0, 2, 0] .nil)) .nil))) =
      some (.err (.map (.module (.functionBlock (.badBinOp (.invalidType (.integer 32))))))) := by
  cases pf <;> decide +kernel

end Verif
