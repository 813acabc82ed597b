import Verif.Mapper.Unroll
import Verif.Mapper.TypeTable

/-! The recursive functions of the mapper with a limited call stack. `Parser.advanceFuel` and `resolveRef` have the limit already. -/

namespace Verif

/-- `llvm-mapper/src/unroll.rs:266-302`: `enter_block` from the loop on, as `enterLoop`, with room on the stack for `d` further calls
of `enter_block`; `none` is a stack overflow. -/
def enterWithin (pf : Profile) : Nat → Nat → UBlock → Bitstream → Option (Out UErr UBlock × Bitstream)
  | _, 0, _, b => some (.diverge, b)
  | d, n + 1, acc, b =>
    match Bitstream.next pf b with
    | (.done, b') => some (.err (.unroll .unexpectedEnd), b')
    | (.error e, b') => some (.err (.parse e), b')
    | (.panic p, b') => some (.panic p, b')
    | (.diverge, b') => some (.diverge, b')
    | (.item (.record r), b') => enterWithin pf d n (acc.pushRecord r) b'
    | (.item (.subBlock s), b') =>
      match d with
      | 0 => none
      | d + 1 =>
        match enterWithin pf d n (UBlock.new s.blockId) b' with
        | some (.ok child, b'') => enterWithin pf (d + 1) n (acc.pushBlock child) b''
        | some (.err e, b'') => some (.err e, b'')
        | some (.panic p, b'') => some (.panic p, b'')
        | some (.diverge, b'') => some (.diverge, b'')
        | none => none
    | (.item .endBlock, b') => some (.ok acc, b')

/-- `llvm-mapper/src/unroll.rs:311-408`: the main loop, as `unrollLoop`, with room for `d` calls of `enter_block` inside each other. -/
def unrollLoopWithin (pf : Profile) (d : Nat) : Nat → List PartialModule → Bitstream → Option (Out UErr (List PartialModule))
  | 0, _, _ => some .diverge
  | n + 1, ps, b =>
    match Bitstream.next pf b with
    | (.done, _) => some (.ok ps)
    | (.error e, _) => some (.err (.parse e))
    | (.panic p, _) => some (.panic p)
    | (.diverge, _) => some .diverge
    | (.item e, b') =>
      match e.asBlock with
      | none => some (.err (.unroll .topLevelNonBlock))
      | some s =>
        match d with
        | 0 => none
        | d' + 1 =>
          match enterWithin pf d' n (UBlock.new s.blockId) b' with
          | some (.ok top, b'') =>
            match addTop ps top with
            | .ok ps' => unrollLoopWithin pf d n ps' b''
            | .err e => some (.err e)
            | .panic p => some (.panic p)
            | .diverge => some .diverge
          | some (.err e, _) => some (.err e)
          | some (.panic p, _) => some (.panic p)
          | some (.diverge, _) => some .diverge
          | none => none

/-- `llvm-mapper/src/unroll.rs:265-408`, as `unroll`, with room for `d` calls of `enter_block` inside each other. -/
def unrollWithin (pf : Profile) (d : Nat) (b : Bitstream) : Option (Out UErr (List PartialModule)) :=
  unrollLoopWithin pf d (unrollFuel b) [] b

/-- `llvm-mapper/src/block/type_table.rs:262-276` and `290-512`, as `reifyTypes` and `TypeTable.tryFrom`, with room for `d` calls of
`get` inside each other; a call that needs more gives `diverge`. -/
def TypeTable.tryFromWithin (pf : Profile) (d : Nat) (b : UBlock) : Out TypeTableError TypeTable := do
  let r ← Out.ofOption .badTable (Records.one b.records TypeCode.numEntry.code)
  let n ← Out.ofOption .badTable r.fields.head?
  typeCapacity n
  let s ← b.records.foldlM (typeStep pf) { inner := [], lastName := [] }
  if s.inner.length ≠ n.toNat then .err (.badSize n.toNat s.inner.length)
  else mapOut (PType.resolve (resolveRef s.inner d)) s.inner

end Verif
