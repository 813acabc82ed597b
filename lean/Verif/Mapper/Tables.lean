import Verif.Mapper.Unroll

/-! The string table, symbol table, identification and value symbol table blocks:
`llvm-mapper/src/block/{strtab,symtab,identification,vst}.rs`. -/

namespace Verif

/-- `llvm-mapper/src/block/strtab.rs:16-36`: `StrtabError`. The variant `Map` is never constructed and left out. -/
inductive StrtabError where
  | missingBlob
  | badBlob (e : RecordBlobError)
  | badRange
  | badString
deriving DecidableEq, Repr

/-- `llvm-mapper/src/block/strtab.rs:40`: `Strtab`. -/
structure Strtab where
  bytes : List U8
deriving DecidableEq, Repr

/-- `llvm-mapper/src/block/strtab.rs:39`: `#[derive(Default)]`. -/
def Strtab.default : Strtab := { bytes := [] }

/-- `llvm-support/src/lib.rs:127-132`: `StrtabRef`; `usize` is 64 bits wide, so the conversion from `(u64, u64)`
(l. 143-147) loses nothing. -/
structure StrtabRef where
  offset : U64
  size : U64
deriving DecidableEq, Repr

/-- `llvm-mapper/src/block/strtab.rs:48-64`: `TryFrom<&Block> for Strtab`. -/
def Strtab.tryFrom (pf : Profile) (b : UBlock) : Out StrtabError Strtab := do
  let r ← Out.ofOption .missingBlob (Records.one b.records StrtabCode.blob.code)
  let bytes ← (r.tryBlob pf 0).mapErr .badBlob
  .ok { bytes }

/-- `offset + size` on `usize`. -/
def addUsize {ε : Type} (pf : Profile) (a b : U64) : Out ε U64 :=
  if a.toNat + b.toNat < 2 ^ 64 then .ok (a + b)
  else match pf with
    | .debug => .panic .strtabAdd
    | .release => .ok (a + b)

/-- `&inner[start..stop]` -/
def sliceBytes {ε : Type} (bytes : List U8) (start stop : U64) : Out ε (List U8) :=
  if start.toNat ≤ stop.toNat ∧ stop.toNat ≤ bytes.length then .ok ((bytes.take stop.toNat).drop start.toNat)
  else .panic .strtabSlice

/-- `llvm-mapper/src/block/strtab.rs:79-89`: `try_get`. `||` does not evaluate its right operand if the left one holds. -/
def Strtab.tryGet (pf : Profile) (t : Strtab) (s : StrtabRef) : Out StrtabError Str :=
  if s.size = 0 then .err .badRange
  else if s.offset.toNat ≥ t.bytes.length then .err .badRange
  else do
    let stop ← addUsize pf s.offset s.size
    if stop.toNat > t.bytes.length then .err .badRange
    else do
      let stop ← addUsize pf s.offset s.size
      let bytes ← sliceBytes t.bytes s.offset stop
      Out.ofOption .badString (utf8Decode bytes)

/-- `llvm-mapper/src/block/strtab.rs:71-73`: `get`. -/
def Strtab.get (pf : Profile) (t : Strtab) (s : StrtabRef) : Out Empty (Option Str) :=
  match t.tryGet pf s with
  | .ok v => .ok (some v)
  | .err _ => .ok none
  | .panic p => .panic p
  | .diverge => .diverge

/-- `fields[i]` -/
def fieldAt {ε : Type} (fields : List U64) (i : Nat) : Out ε U64 :=
  match fields[i]? with
  | some v => .ok v
  | none => .panic .recordIndex

/-- `llvm-mapper/src/block/strtab.rs:97-101`: `read_name`. -/
def Strtab.readName (pf : Profile) (t : Strtab) (r : BRecord) : Out StrtabError Str := do
  let offset ← fieldAt r.fields 0
  let size ← fieldAt r.fields 1
  t.tryGet pf { offset, size }

/-- `llvm-mapper/src/block/symtab.rs:14-26`: `SymtabError`. The variant `Map`, which nothing constructs, is left out. -/
inductive SymtabError where
  | missingBlob
  | invalidBlob (e : RecordBlobError)
deriving DecidableEq, Repr

/-- `llvm-mapper/src/block/symtab.rs:33`: `Symtab`. -/
structure Symtab where
  bytes : List U8
deriving DecidableEq, Repr

/-- `llvm-mapper/src/block/symtab.rs:41-53`: `TryFrom<&Block> for Symtab`. -/
def Symtab.tryFrom (pf : Profile) (b : UBlock) : Out SymtabError Symtab := do
  let r ← Out.ofOption .missingBlob (Records.one b.records SymtabCode.blob.code)
  let bytes ← (r.tryBlob pf 0).mapErr .invalidBlob
  .ok { bytes }

/-- `llvm-mapper/src/block/identification.rs:13-29`: `IdentificationError`. The variant `Map`, which nothing
constructs, is left out. -/
inductive IdentificationError where
  | missingProducer
  | badProducer
  | missingEpoch
deriving DecidableEq, Repr

/-- `llvm-mapper/src/block/identification.rs:34-39`: `Identification`. -/
structure Identification where
  producer : Str
  epoch : U64
deriving DecidableEq, Repr

/-- `llvm-mapper/src/block/identification.rs:41-62`: `TryFrom<&Block> for Identification`. -/
def Identification.tryFrom (pf : Profile) (b : UBlock) : Out IdentificationError Identification := do
  let r ← Out.ofOption .missingProducer (Records.one b.records IdentificationCode.producerString.code)
  let producer ← (r.tryString pf 0).mapErr fun _ => .badProducer
  let r ← Out.ofOption .missingEpoch (Records.one b.records IdentificationCode.epoch.code)
  let epoch ← Out.ofOption .missingEpoch r.fields.head?
  .ok { producer, epoch }

end Verif
