/-!
# Outcomes

The result of running a piece of Rust code: a value, an `Err`, a panic (naming its site), or no
result at all (`diverge`).
-/

namespace Verif

/-- Build profile: `debug` has `overflow-checks` on (arithmetic overflow and over-long shifts panic),
`release` has them off (arithmetic wraps, shift amounts are reduced modulo the bit width). -/
inductive Profile where
  | debug
  | release
deriving DecidableEq, Repr

/-- The places in the modelled code that can panic, as far as the Rust language is concerned. -/
inductive PanicSite where
  /-- slice expression out of range, `llvm-bitcursor/src/lib.rs:176,178` -/
  | cursorSlice
  /-- `<< shift` with `shift >= 64`, `llvm-bitcursor/src/lib.rs:301` (debug only) -/
  | vbrShift
  /-- `i64` addition overflow, `llvm-bitcursor/src/lib.rs:374,376` (debug only) -/
  | seekAdd
  /-- negation overflow, `llvm-bitcursor/src/lib.rs:329` (debug only) -/
  | svbrNeg
  /-- `CHAR6_ALPHABET[..]`, `llvm-bitstream/src/abbrev.rs:53` -/
  | char6Index
  /-- `Vec::with_capacity` capacity overflow, `llvm-bitstream/src/abbrev.rs:81,101`,
  `llvm-bitstream/src/parser.rs:325` -/
  | capacity
  /-- `num_abbrev_opnds - 2`, `llvm-bitstream/src/abbrev.rs:177` (debug only) -/
  | abbrevArraySub
  /-- `num_abbrev_opnds - 1`, `llvm-bitstream/src/abbrev.rs:209` (debug only) -/
  | abbrevBlobSub
  /-- `abbrev_id - FIRST_APPLICATION_ABBREV_ID`, `llvm-bitstream/src/parser.rs:113` (debug only) -/
  | abbrevIdSub
  /-- `scopes.last().unwrap()`, `llvm-bitstream/src/parser.rs:194,202` -/
  | scopeUnwrap
  /-- `self.cursor.read(32)? * 4`, `llvm-bitstream/src/parser.rs:225` (debug only) -/
  | blockLenMul
  /-- `record.fields[0]`, `llvm-bitstream/src/parser.rs:335` -/
  | setBidField
  /-- `fields.remove(0)`, `llvm-bitstream/src/parser.rs:366` -/
  | recordCodeRemove
  /-- `fields.len() - 1`, `llvm-mapper/src/unroll.rs:35,56` (debug only) -/
  | recordLenSub
  /-- `fields[idx..]`, `llvm-mapper/src/unroll.rs:39,60` -/
  | recordSlice
  /-- `fields[i]`, `llvm-mapper/src/block/strtab.rs:100`, `llvm-mapper/src/record/*.rs` -/
  | recordIndex
  /-- `offset + size`, `llvm-mapper/src/block/strtab.rs` (debug only) -/
  | strtabAdd
  /-- slice of the string table, `llvm-mapper/src/block/strtab.rs` -/
  | strtabSlice
  /-- `unimplemented!()` / `todo!()` -/
  | unimplemented
  /-- `byte_align() * 8`, `llvm-support/src/align.rs` (debug only) -/
  | bitAlignMul
  /-- string slice not on a character boundary, `llvm-support/src/align.rs` -/
  | strSlice
  /-- attribute record slice, `llvm-mapper/src/block/attributes.rs` -/
  | attrSlice
  /-- attribute record index, `llvm-mapper/src/block/attributes.rs` -/
  | attrIndex
  /-- `scope += 1` and `scope -= 1`, `llvm-bitstream/examples/dump-bitstream.rs:41,44` (debug only) -/
  | dumpScope
  /-- `unwrap`/`expect`/index that the code argues cannot fail -/
  | unreachable
deriving DecidableEq, Repr

/-- What running a fallible Rust function can result in. -/
inductive Out (ε α : Type) where
  | ok (a : α)
  | err (e : ε)
  | panic (p : PanicSite)
  | diverge
deriving DecidableEq, Repr

namespace Out
variable {ε ε' α β : Type}

/-- `?`-style sequencing. -/
def bind (x : Out ε α) (f : α → Out ε β) : Out ε β :=
  match x with
  | ok a => f a
  | err e => err e
  | panic p => panic p
  | diverge => diverge

instance : Monad (Out ε) where
  pure := ok
  bind := bind

@[simp] theorem pure_eq (a : α) : (pure a : Out ε α) = ok a := rfl
@[simp] theorem ok_bind (a : α) (f : α → Out ε β) : (ok a >>= f) = f a := rfl
@[simp] theorem err_bind (e : ε) (f : α → Out ε β) : (err e >>= f) = err e := rfl
@[simp] theorem panic_bind (p : PanicSite) (f : α → Out ε β) : (panic p >>= f) = panic p := rfl
@[simp] theorem diverge_bind (f : α → Out ε β) : ((diverge : Out ε α) >>= f) = diverge := rfl

theorem bind_eq_ok {x : Out ε α} {f : α → Out ε β} {b : β} :
    (x >>= f) = ok b ↔ ∃ a, x = ok a ∧ f a = ok b := by
  cases x <;> simp

/-- `Result::map_err`. -/
def mapErr (f : ε → ε') : Out ε α → Out ε' α
  | ok a => ok a
  | err e => err (f e)
  | panic p => panic p
  | diverge => diverge

/-- `Option::ok_or`. -/
def ofOption (e : ε) : Option α → Out ε α
  | some a => ok a
  | none => err e

@[simp] theorem ofOption_some (e : ε) (a : α) : ofOption e (some a) = ok a := rfl
@[simp] theorem ofOption_none (e : ε) : ofOption e (none : Option α) = err e := rfl
@[simp] theorem mapErr_ok (f : ε → ε') (a : α) : mapErr f (ok a) = ok a := rfl
@[simp] theorem mapErr_err (f : ε → ε') (e : ε) : mapErr f (err e : Out ε α) = err (f e) := rfl
@[simp] theorem mapErr_panic (f : ε → ε') (p) : mapErr f (panic p : Out ε α) = panic p := rfl
@[simp] theorem mapErr_diverge (f : ε → ε') : mapErr f (diverge : Out ε α) = diverge := rfl

/-- The outcome is a returned value: `Ok` or `Err`, no panic, no divergence. -/
def Returns : Out ε α → Prop
  | ok _ => True
  | err _ => True
  | _ => False

instance (x : Out ε α) : Decidable x.Returns := by
  cases x <;> simp only [Returns] <;> infer_instance

end Out

/-- A `&mut self` method: the state is kept whatever the outcome. -/
def StM (σ ε α : Type) := σ → Out ε α × σ

namespace StM
variable {σ ε ε' α β : Type}

def pure (a : α) : StM σ ε α := fun s => (.ok a, s)

def bind (m : StM σ ε α) (f : α → StM σ ε β) : StM σ ε β := fun s =>
  match m s with
  | (.ok a, s') => f a s'
  | (.err e, s') => (.err e, s')
  | (.panic p, s') => (.panic p, s')
  | (.diverge, s') => (.diverge, s')

instance : Monad (StM σ ε) where
  pure := pure
  bind := bind

def throw (e : ε) : StM σ ε α := fun s => (.err e, s)
def panic (p : PanicSite) : StM σ ε α := fun s => (.panic p, s)
def diverge : StM σ ε α := fun s => (.diverge, s)
def get : StM σ ε σ := fun s => (.ok s, s)
def set (s : σ) : StM σ ε Unit := fun _ => (.ok (), s)
def modify (f : σ → σ) : StM σ ε Unit := fun s => (.ok (), f s)
/-- Lift a pure outcome. -/
def lift (x : Out ε α) : StM σ ε α := fun s => (x, s)
/-- Convert the error (`?` with `From`). -/
def mapErr (f : ε → ε') (m : StM σ ε α) : StM σ ε' α := fun s => ((m s).1.mapErr f, (m s).2)

theorem pure_apply (a : α) (s : σ) : (Pure.pure a : StM σ ε α) s = (.ok a, s) := rfl
theorem bind_apply (m : StM σ ε α) (f : α → StM σ ε β) (s : σ) :
    (m >>= f) s = match m s with
      | (.ok a, s') => f a s'
      | (.err e, s') => (.err e, s')
      | (.panic p, s') => (.panic p, s')
      | (.diverge, s') => (.diverge, s') := rfl
theorem bind_ok {m : StM σ ε α} {f : α → StM σ ε β} {s s' : σ} {a : α} (h : m s = (.ok a, s')) :
    (m >>= f) s = f a s' := by simp [bind_apply, h]
theorem bind_err {m : StM σ ε α} {f : α → StM σ ε β} {s s' : σ} {e : ε} (h : m s = (.err e, s')) :
    (m >>= f) s = (.err e, s') := by simp [bind_apply, h]
theorem bind_panic {m : StM σ ε α} {f : α → StM σ ε β} {s s' : σ} {p} (h : m s = (.panic p, s')) :
    (m >>= f) s = (.panic p, s') := by simp [bind_apply, h]
theorem bind_diverge {m : StM σ ε α} {f : α → StM σ ε β} {s s' : σ} (h : m s = (.diverge, s')) :
    (m >>= f) s = (.diverge, s') := by simp [bind_apply, h]
theorem throw_apply (e : ε) (s : σ) : (throw e : StM σ ε α) s = (.err e, s) := rfl
theorem panic_apply (p) (s : σ) : (panic p : StM σ ε α) s = (.panic p, s) := rfl
theorem lift_apply (x : Out ε α) (s : σ) : (lift x : StM σ ε α) s = (x, s) := rfl
theorem mapErr_apply (f : ε → ε') (m : StM σ ε α) (s : σ) :
    (mapErr f m) s = ((m s).1.mapErr f, (m s).2) := rfl

end StM

/-- Machine words. -/
abbrev U64 := BitVec 64
abbrev U32 := BitVec 32
abbrev U8 := BitVec 8

end Verif
