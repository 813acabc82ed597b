import Verif.Support.Ty
import Verif.Mapper.UnrollSpec

/-! Specification of types and type tables: LLVM's rules for composite types (LangRef, "Type System") and the meaning of the
records of a `TYPE_BLOCK_ID_NEW` block (LLVM's bitcode format document). -/

namespace Verif.Spec

/-! ## Which types may be part of which -/

def IsFunction (t : Ty) : Prop := ∃ r ps v, t = .function r ps v
def IsScalable (t : Ty) : Prop := ∃ n e, t = .scalableVector n e
def IsInteger (t : Ty) : Prop := ∃ w, t = .integer w
def IsFloat (t : Ty) : Prop :=
  ∃ p ∈ [Prim.half, .bFloat, .float, .double, .x86Fp80, .fp128, .ppcFp128], t = .prim p
/-- A pointer with a pointee; opaque pointers are a kind of their own. -/
def IsTypedPointer (t : Ty) : Prop := ∃ p a, t = .pointer p a

def OkPointee (t : Ty) : Prop := ∀ p ∈ [Prim.void, .label, .metadata, .token, .x86Amx], t ≠ .prim p
def OkArrayElement (t : Ty) : Prop :=
  (∀ p ∈ [Prim.void, .label, .metadata, .token, .x86Amx], t ≠ .prim p) ∧ ¬ IsFunction t ∧ ¬ IsScalable t
def OkStructElement (t : Ty) : Prop := (∀ p ∈ [Prim.void, .label, .metadata, .token], t ≠ .prim p) ∧ ¬ IsFunction t
def OkVectorElement (t : Ty) : Prop := IsFloat t ∨ IsInteger t ∨ IsTypedPointer t
def OkArgument (t : Ty) : Prop := t ≠ .prim .void ∧ ¬ IsFunction t
def OkReturn (t : Ty) : Prop := (∀ p ∈ [Prim.label, .metadata], t ≠ .prim p) ∧ ¬ IsFunction t

/-- A type that keeps the rules at every depth. -/
inductive Valid : Ty → Prop
  | prim (p : Prim) : Valid (.prim p)
  | integer {w : U32} : 1 ≤ w.toNat → w.toNat ≤ 2 ^ 24 - 1 → Valid (.integer w)
  | function {r : Ty} {ps : List Ty} {v : Bool} : Valid r → OkReturn r → (∀ p ∈ ps, Valid p) → (∀ p ∈ ps, OkArgument p) →
      Valid (.function r ps v)
  | pointer {p : Ty} {a : AddressSpace} : Valid p → OkPointee p → Valid (.pointer p a)
  | opaquePointer (a : AddressSpace) : Valid (.opaquePointer a)
  | struct {n : Option Str} {fs : List Ty} {p : Bool} : (∀ f ∈ fs, Valid f) → (∀ f ∈ fs, OkStructElement f) →
      Valid (.struct n fs p)
  | array {n : U64} {e : Ty} : Valid e → OkArrayElement e → Valid (.array n e)
  | fixedVector {n : U64} {e : Ty} : Valid e → OkVectorElement e → Valid (.fixedVector n e)
  | scalableVector {n : U64} {e : Ty} : Valid e → OkVectorElement e → Valid (.scalableVector n e)

/-! ## What a table declares -/

/-- One entry of a type table; other types are referred to by their position in the table. -/
inductive TyDecl where
  | prim (p : Prim)
  | integer (width : Nat)
  | function (ret : Nat) (params : List Nat) (vararg : Bool)
  | pointer (pointee : Nat) (addressSpace : AddressSpace)
  | opaquePointer (addressSpace : AddressSpace)
  | struct (name : Option Str) (fields : List Nat) (packed : Bool)
  | array (n : U64) (elem : Nat)
  | vector (scalable : Bool) (n : U64) (elem : Nat)
deriving DecidableEq, Repr

/-- The positions an entry refers to. -/
def TyDecl.refs : TyDecl → List Nat
  | function r ps _ => r :: ps
  | pointer p _ => [p]
  | struct _ fs _ => fs
  | array _ e => [e]
  | vector _ _ e => [e]
  | _ => []

def TyDecl.IsStruct (d : TyDecl) : Prop := ∃ n fs p, d = .struct n fs p
def TyDecl.IsNamed (d : TyDecl) : Prop := ∃ n fs p, d = .struct (some n) fs p

/-- `Denotes ds i t`: the entry at position `i` of the table `ds` stands for the type `t`, with all references
followed. -/
inductive Denotes (ds : List TyDecl) : Nat → Ty → Prop
  | prim {i : Nat} {p : Prim} : ds[i]? = some (.prim p) → Denotes ds i (.prim p)
  | integer {i : Nat} {w : U32} : ds[i]? = some (.integer w.toNat) → Denotes ds i (.integer w)
  | function {i r : Nat} {ps : List Nat} {v : Bool} {tr : Ty} {tps : List Ty} :
      ds[i]? = some (.function r ps v) → Denotes ds r tr → tps.length = ps.length →
      (∀ (k j : Nat) (t : Ty), ps[k]? = some j → tps[k]? = some t → Denotes ds j t) →
      Denotes ds i (.function tr tps v)
  | pointer {i p : Nat} {a : AddressSpace} {tp : Ty} :
      ds[i]? = some (.pointer p a) → Denotes ds p tp → Denotes ds i (.pointer tp a)
  | opaquePointer {i : Nat} {a : AddressSpace} : ds[i]? = some (.opaquePointer a) → Denotes ds i (.opaquePointer a)
  | struct {i : Nat} {n : Option Str} {fs : List Nat} {p : Bool} {tfs : List Ty} :
      ds[i]? = some (.struct n fs p) → tfs.length = fs.length →
      (∀ (k j : Nat) (t : Ty), fs[k]? = some j → tfs[k]? = some t → Denotes ds j t) →
      Denotes ds i (.struct n tfs p)
  | array {i e : Nat} {n : U64} {te : Ty} : ds[i]? = some (.array n e) → Denotes ds e te → Denotes ds i (.array n te)
  | fixedVector {i e : Nat} {n : U64} {te : Ty} :
      ds[i]? = some (.vector false n e) → Denotes ds e te → Denotes ds i (.fixedVector n te)
  | scalableVector {i e : Nat} {n : U64} {te : Ty} :
      ds[i]? = some (.vector true n e) → Denotes ds e te → Denotes ds i (.scalableVector n te)

/-- References never run in a circle: each leads to an entry of smaller rank. -/
def Acyclic (ds : List TyDecl) : Prop :=
  ∃ rank : Nat → Nat, ∀ (i : Nat) (d : TyDecl), ds[i]? = some d → ∀ j ∈ d.refs, rank j < rank i

/-- `S` is a set of positions such that following references in order from one of them leads back into the set, past
references to types only. -/
def Loop (ds : List TyDecl) (S : Nat → Prop) : Prop :=
  ∀ i, S i → ∃ d pre j post, ds[i]? = some d ∧ d.refs = pre ++ j :: post ∧ S j ∧ ∀ k ∈ pre, ∃ t, Denotes ds k t ∧ Valid t

/-! ## What the records say -/

def primCodes : List (Nat × Prim) :=
  [(2, .void), (3, .float), (4, .double), (5, .label), (10, .half), (13, .x86Fp80), (14, .fp128), (15, .ppcFp128),
   (16, .metadata), (17, .x86Mmx), (22, .token), (23, .bFloat), (24, .x86Amx)]

/-- A record that declares a type by itself. -/
inductive Says : BRecord → TyDecl → Prop
  | prim {r : BRecord} {p : Prim} : (r.code.toNat, p) ∈ primCodes → Says r (.prim p)
  | integer {r : BRecord} {w : U64} {rest : List U64} :
      r.code = 7 → r.fields = w :: rest → w.toNat < 2 ^ 32 → Says r (.integer w.toNat)
  | pointer {r : BRecord} {p a : U64} {rest : List U64} :
      r.code = 8 → r.fields = p :: a :: rest → a.toNat < 2 ^ 23 → Says r (.pointer p.toNat ⟨a.setWidth 32⟩)
  | opaquePointer {r : BRecord} {a : U64} {rest : List U64} :
      r.code = 25 → r.fields = a :: rest → a.toNat < 2 ^ 23 → Says r (.opaquePointer ⟨a.setWidth 32⟩)
  | array {r : BRecord} {n e : U64} {rest : List U64} :
      r.code = 11 → r.fields = n :: e :: rest → Says r (.array n e.toNat)
  | fixedVector {r : BRecord} {n e : U64} {rest : List U64} :
      r.code = 12 → r.fields = n :: e :: rest → rest.head?.getD 0 = 0 → Says r (.vector false n e.toNat)
  | scalableVector {r : BRecord} {n e s : U64} {rest : List U64} :
      r.code = 12 → r.fields = n :: e :: s :: rest → s ≠ 0 → Says r (.vector true n e.toNat)
  | structAnon {r : BRecord} {p : U64} {fs : List U64} :
      r.code = 18 → r.fields = p :: fs → Says r (.struct none (fs.map (·.toNat)) (p ≠ 0))
  | function {r : BRecord} {v ret : U64} {ps : List U64} :
      r.code = 21 → r.fields = v :: ret :: ps → Says r (.function ret.toNat (ps.map (·.toNat)) (v ≠ 0))

/-- `Lists name rs ds`: with the given name pending, the records `rs` declare the types `ds`. A name is built up by name
records (of two or more bytes) and belongs to the next named or opaque structure. -/
inductive Lists : Str → List BRecord → List TyDecl → Prop
  | nil {nm : Str} : Lists nm [] []
  | numEntry {nm : Str} {r : BRecord} {rs : List BRecord} {ds : List TyDecl} :
      r.code = 1 → Lists nm rs ds → Lists nm (r :: rs) ds
  | single {nm : Str} {r : BRecord} {d : TyDecl} {rs : List BRecord} {ds : List TyDecl} :
      Says r d → Lists nm rs ds → Lists nm (r :: rs) (d :: ds)
  | name {nm s : Str} {r : BRecord} {rs : List BRecord} {ds : List TyDecl} :
      r.code = 19 → r.fields = (utf8 s).map (·.setWidth 64) → 2 ≤ r.fields.length → Lists (nm ++ s) rs ds →
      Lists nm (r :: rs) ds
  | named {nm : Str} {r : BRecord} {p : U64} {fs : List U64} {rs : List BRecord} {ds : List TyDecl} :
      r.code = 20 → r.fields = p :: fs → Lists [] rs ds →
      Lists nm (r :: rs) (.struct (some nm) (fs.map (·.toNat)) (p ≠ 0) :: ds)
  | opaqueStruct {nm : Str} {r : BRecord} {rs : List BRecord} {ds : List TyDecl} :
      r.code = 6 → nm ≠ [] → Lists [] rs ds → Lists nm (r :: rs) (.struct (some nm) [] false :: ds)

/-- No named (or opaque) structure comes directly after another structure. -/
def Regular (ds : List TyDecl) : Prop :=
  ∀ pre a b post, ds = pre ++ a :: b :: post → a.IsStruct → ¬ b.IsNamed

/-- The count a block declares: the first field of the first count record. -/
def DeclaresCount (b : UBlock) (n : U64) : Prop := ∃ r rest, FirstWith 1 b.records r ∧ r.fields = n :: rest

/-! ### As the code reads them

`Lists` and `Regular` are LLVM's meaning of the records. What is accepted goes beyond it in three ways: the width of an integer
is cut to 32 bits, a release build takes an empty name, and a named or opaque structure right after an anonymous one may take
its place. -/

/-- The fields of the record are the bytes of the text. Texts of one byte are not accepted, nor are empty ones in a debug
build. -/
def Holds (pf : Profile) (r : BRecord) (s : Str) : Prop :=
  AreBytes r.fields (utf8 s) ∧ r.fields.length ≠ 1 ∧ (r.fields = [] → pf = .release)

/-- A record that declares a type by itself, as it is read. -/
inductive Adds : BRecord → TyDecl → Prop
  | says {r : BRecord} {d : TyDecl} : Says r d → Adds r d
  | wide {r : BRecord} {w : U64} {rest : List U64} : r.code = 7 → r.fields = w :: rest → Adds r (.integer (w.toNat % 2 ^ 32))

/-- `Builds pf ds nm rs out nm'`: with the types `ds` declared and the name `nm` pending, the records `rs` lead to the types
`out` and the pending name `nm'`. -/
inductive Builds (pf : Profile) : List TyDecl → Str → List BRecord → List TyDecl → Str → Prop
  | nil {ds : List TyDecl} {nm : Str} : Builds pf ds nm [] ds nm
  | count {ds out : List TyDecl} {nm nm' : Str} {r : BRecord} {rs : List BRecord} :
      r.code = 1 → Builds pf ds nm rs out nm' → Builds pf ds nm (r :: rs) out nm'
  | single {ds out : List TyDecl} {nm nm' : Str} {r : BRecord} {rs : List BRecord} {d : TyDecl} :
      Adds r d → Builds pf (ds ++ [d]) nm rs out nm' → Builds pf ds nm (r :: rs) out nm'
  | name {ds out : List TyDecl} {nm nm' s : Str} {r : BRecord} {rs : List BRecord} :
      r.code = 19 → Holds pf r s → Builds pf ds (nm ++ s) rs out nm' → Builds pf ds nm (r :: rs) out nm'
  | named {ds out : List TyDecl} {nm nm' : Str} {r : BRecord} {rs : List BRecord} {p : U64} {fs : List U64} :
      r.code = 20 → r.fields = p :: fs → (∀ d, ds.getLast? = some d → ¬ d.IsStruct) →
      Builds pf (ds ++ [.struct (some nm) (fs.map (·.toNat)) (p ≠ 0)]) [] rs out nm' → Builds pf ds nm (r :: rs) out nm'
  /-- The fields and the name go to the anonymous structure without fields before it, which stays packed or not. -/
  | namedOver {ds out : List TyDecl} {nm nm' : Str} {r : BRecord} {rs : List BRecord} {p : U64} {fs : List U64} {q : Bool} :
      r.code = 20 → r.fields = p :: fs → Builds pf (ds ++ [.struct (some nm) (fs.map (·.toNat)) q]) [] rs out nm' →
      Builds pf (ds ++ [.struct none [] q]) nm (r :: rs) out nm'
  | opaqueStruct {ds out : List TyDecl} {nm nm' : Str} {r : BRecord} {rs : List BRecord} :
      r.code = 6 → nm ≠ [] → (∀ d, ds.getLast? = some d → ¬ d.IsStruct) →
      Builds pf (ds ++ [.struct (some nm) [] false]) [] rs out nm' → Builds pf ds nm (r :: rs) out nm'
  /-- The name goes to the anonymous structure before it. -/
  | opaqueOver {ds out : List TyDecl} {nm nm' : Str} {r : BRecord} {rs : List BRecord} {fs : List Nat} {q : Bool} :
      r.code = 6 → nm ≠ [] → Builds pf (ds ++ [.struct (some nm) fs q]) [] rs out nm' →
      Builds pf (ds ++ [.struct none fs q]) nm (r :: rs) out nm'

/-- The count that the records declare: the first field of the first count record. -/
def Counts (rs : List BRecord) (n : U64) : Prop := ∃ r rest, FirstWith 1 rs r ∧ r.fields = n :: rest

/-- The records declare the types `ds`, as many as they should. The bound on the count is that of the memory a vector may
have. -/
def Declares (pf : Profile) (rs : List BRecord) (ds : List TyDecl) : Prop :=
  ∃ n nm, Counts rs n ∧ n.toNat * 56 < 2 ^ 63 ∧ Builds pf [] [] rs ds nm ∧ ds.length = n.toNat

/-- The entry stands for a type that keeps the rules. -/
def Sound (ds : List TyDecl) (i : Nat) : Prop := ∃ t, Denotes ds i t ∧ Valid t

/-- The records of a type block and the types that they give, each one valid and with all references followed. -/
def TypesSay (pf : Profile) (rs : List BRecord) (ts : List Ty) : Prop :=
  ∃ ds, Declares pf rs ds ∧ ts.length = ds.length ∧ ∀ (i : Nat) (t : Ty), ts[i]? = some t → Denotes ds i t ∧ Valid t

/-! ## What an error means -/

/-- The number of fields a record needs. -/
def neededFields (code : Nat) : Nat :=
  if code ∈ [7, 18, 20, 25] then 1 else if code ∈ [8, 11, 12, 21] then 2 else 0

/-- The last type the records declare is a structure. -/
def AfterStruct (rs : List BRecord) : Prop :=
  ∃ pre r post, rs = pre ++ r :: post ∧ r.code.toNat ∈ [6, 18, 20] ∧ ∀ x ∈ post, x.code.toNat ∈ [1, 19]

/-- An entry that refers to types only, but breaks the rules, and the error that says how: of several parts that are not allowed
the first is named, the return type before the parameters. -/
inductive EntryFault (ds : List TyDecl) : TyDecl → Ty.Error → Prop
  | width {w : Nat} : w = 0 ∨ 2 ^ 24 ≤ w → EntryFault ds (.integer w) .integerBadWidth
  | returns {r : Nat} {ps : List Nat} {v : Bool} {t : Ty} :
      Denotes ds r t → ¬ OkReturn t → EntryFault ds (.function r ps v) (.functionBadReturn t)
  | parameter {r j : Nat} {pre post : List Nat} {v : Bool} {t u : Ty} : Denotes ds r u → OkReturn u →
      (∀ k ∈ pre, ∃ u, Denotes ds k u ∧ OkArgument u) → Denotes ds j t → ¬ OkArgument t →
      EntryFault ds (.function r (pre ++ j :: post) v) (.functionBadParameter t)
  | pointee {p : Nat} {a : AddressSpace} {t : Ty} :
      Denotes ds p t → ¬ OkPointee t → EntryFault ds (.pointer p a) (.pointerBadPointee t)
  | member {n : Option Str} {pre post : List Nat} {p : Bool} {j : Nat} {t : Ty} :
      (∀ k ∈ pre, ∃ u, Denotes ds k u ∧ OkStructElement u) → Denotes ds j t → ¬ OkStructElement t →
      EntryFault ds (.struct n (pre ++ j :: post) p) (.structBadElement t)
  | element {n : U64} {e : Nat} {t : Ty} :
      Denotes ds e t → ¬ OkArrayElement t → EntryFault ds (.array n e) (.arrayBadElement t)
  | lane {s : Bool} {n : U64} {e : Nat} {t : Ty} :
      Denotes ds e t → ¬ OkVectorElement t → EntryFault ds (.vector s n e) (.vectorBadElement t)

/-- `Endless ds i`: from the entry `i`, references lead into a loop before anything else is wrong. -/
def Endless (ds : List TyDecl) (i : Nat) : Prop := ∃ S, Loop ds S ∧ S i

end Verif.Spec
