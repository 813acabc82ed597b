import Verif.Mapper.MapLogSpec
import Verif.Props.Depth
import Verif.Props.TypeErrors

/-! The log of the mapper: the outcomes that go with it are those of the model. -/

namespace Verif
open Spec

namespace Logged
variable {ε δ α β : Type}

@[ext] theorem ext {x y : Logged ε α} (h1 : x.lines = y.lines) (h2 : x.out = y.out) : x = y := Prod.ext h1 h2

@[simp] theorem out_of (x : Out ε α) : (of x).out = x := rfl
@[simp] theorem lines_of (x : Out ε α) : (of x).lines = [] := rfl
@[simp] theorem out_tell (l : MapLine) : (tell l : Logged ε Unit).out = .ok () := rfl
@[simp] theorem lines_tell (l : MapLine) : (tell l : Logged ε Unit).lines = [l] := rfl
@[simp] theorem out_mapErr (g : ε → δ) (x : Logged ε α) : (x.mapErr g).out = x.out.mapErr g := rfl
@[simp] theorem lines_mapErr (g : ε → δ) (x : Logged ε α) : (x.mapErr g).lines = x.lines := rfl

@[simp] theorem out_bind (x : Logged ε α) (f : α → Logged ε β) : (x >>= f).out = (x.out >>= fun a => (f a).out) := by
  obtain ⟨ls, o⟩ := x
  cases o <;> rfl

theorem lines_bind_ok {x : Logged ε α} {a : α} (f : α → Logged ε β) (h : x.out = .ok a) :
    (x >>= f).lines = x.lines ++ (f a).lines := by
  obtain ⟨ls, o⟩ := x
  simp only [out] at h
  subst h
  rfl

theorem lines_bind_not {x : Logged ε α} (f : α → Logged ε β) (h : ∀ a, x.out ≠ .ok a) : (x >>= f).lines = x.lines := by
  obtain ⟨ls, o⟩ := x
  cases o with
  | ok a => exact absurd rfl (h a)
  | _ => rfl

theorem lines_of_bind_ok {x : Out ε α} {a : α} (f : α → Logged ε β) (h : x = .ok a) : (of x >>= f).lines = (f a).lines := by
  rw [lines_bind_ok f (by rw [out_of]; exact h)]; rfl

theorem lines_tell_bind (l : MapLine) (f : Unit → Logged ε β) : (tell l >>= f).lines = l :: (f ()).lines := rfl

theorem out_orElse (x : Option α) (b : β) (f : α → Logged ε β) : (orElse x b f).out = Verif.orElse x b fun a => (f a).out := by
  cases x <;> rfl

theorem out_mapAll (f : α → Logged ε β) (l : List α) : (mapAll f l).out = mapOut (fun a => (f a).out) l := by
  induction l with
  | nil => rfl
  | cons a l ih => simp only [mapAll, mapOut, out_bind, out_of, ih]

/-- If all succeed, the messages are those of each, in order. -/
theorem lines_mapAll_ok {f : α → Logged ε β} {l : List α} {bs : List β} (h : (mapAll f l).out = .ok bs) :
    (mapAll f l).lines = l.flatMap fun a => (f a).lines := by
  induction l generalizing bs with
  | nil => rfl
  | cons a l ih =>
    simp only [mapAll, out_bind, out_of, Out.bind_eq_ok, Out.ok.injEq] at h
    obtain ⟨b, hb, bs', hbs, rfl⟩ := h
    simp only [mapAll, List.flatMap_cons]
    rw [lines_bind_ok _ hb, lines_bind_ok _ hbs, ih hbs, lines_of, List.append_nil]

/-- If not, they are those of the ones before the first that does not, then its own. -/
theorem lines_mapAll_not {f : α → Logged ε β} {pre post : List α} {a : α} (hpre : ∀ x ∈ pre, ∃ b, (f x).out = .ok b)
    (ha : ∀ b, (f a).out ≠ .ok b) : (mapAll f (pre ++ a :: post)).lines = (pre.flatMap fun x => (f x).lines) ++ (f a).lines := by
  induction pre with
  | nil =>
    simp only [List.nil_append, mapAll, List.flatMap_nil]
    rw [lines_bind_not _ ha]
  | cons c pre ih =>
    obtain ⟨b, hb⟩ := hpre c (by simp)
    have hrest : ∀ bs, (mapAll f (pre ++ a :: post)).out ≠ .ok bs := by
      intro bs h
      rw [out_mapAll] at h
      obtain ⟨b', hb'⟩ := mapOut_exists.1 ⟨bs, h⟩ a (by simp)
      exact ha b' hb'
    simp only [List.cons_append, mapAll, List.flatMap_cons, List.append_assoc]
    rw [lines_bind_ok _ hb, lines_bind_not _ hrest, ih fun x hx => hpre x (by simp [hx])]

end Logged

open Logged

/-! ## The outcomes are those of the model -/

theorem log_resolve (table : List PType) (f : TypeRef → Logged TypeTableError Ty) (p : PType) :
    (MapLog.resolve table f p).out = p.resolve fun r => (f r).out := by
  cases p <;> simp only [MapLog.resolve, PType.resolve, out_bind, out_of, out_tell, out_mapAll, Out.ok_bind]

theorem log_resolveRef (table : List PType) (n : Nat) (r : TypeRef) : (MapLog.resolveRef table n r).out = resolveRef table n r := by
  induction n generalizing r with
  | zero => rfl
  | succ n ih =>
    simp only [MapLog.resolveRef, resolveRef]
    cases table[r.toNat]? with
    | none => rfl
    | some p => simp only [out_bind, out_tell, Out.ok_bind, log_resolve, ih]

theorem log_typesWithin (pf : Profile) (d : Nat) (b : UBlock) :
    (MapLog.typesWithin pf (fun _ => d) b).out = TypeTable.tryFromWithin pf d b := by
  simp only [MapLog.typesWithin, TypeTable.tryFromWithin, out_bind, out_of, MapLog.reifyTypes]
  congr; funext r; congr; funext n; congr; funext _; congr; funext s
  split
  · rfl
  · simp only [out_mapAll, log_resolve, log_resolveRef]

theorem log_types (pf : Profile) (b : UBlock) : (MapLog.types pf b).out = TypeTable.tryFrom pf b := by
  simp only [MapLog.types, MapLog.typesWithin, TypeTable.tryFrom, out_bind, out_of, MapLog.reifyTypes, reifyTypes]
  congr; funext r; congr; funext n; congr; funext _; congr; funext s
  split
  · rfl
  · simp only [out_mapAll, log_resolve, log_resolveRef]

theorem log_attributes (b : UBlock) (g : AttributeGroups) : (MapLog.attributes b g).out = Attributes.tryFrom b g := by
  simp only [MapLog.attributes, Attributes.tryFrom, out_mapAll]
  congr; funext r
  simp only [MapLog.attrsStep, attrsStep, out_bind, out_of]
  congr; funext c
  cases c <;> simp only [out_of, out_mapAll]
  congr

theorem log_fill (pf : Profile) (b : UBlock) (ctx : PartialMapCtx) : (MapLog.fill pf b ctx).out = Module.fill pf b ctx := by
  simp only [MapLog.fill, Module.fill, out_bind, out_of, out_mapErr, log_types, out_orElse, log_attributes]

theorem log_finish (pf : Profile) (target : Str) (b : UBlock) (ctx : MapCtx) :
    (MapLog.finish pf target b ctx).out = Module.finish pf target b ctx := by
  simp only [MapLog.finish, Module.finish, out_bind, out_of, out_tell, Out.ok_bind]

theorem log_moduleFull (pf : Profile) (target : Str) (b : UBlock) (ctx : PartialMapCtx) :
    (MapLog.moduleFull pf target b ctx).out = Module.tryFromFull pf target b ctx := by
  simp only [MapLog.moduleFull, Module.tryFromFull, out_bind, out_of, out_mapErr, log_fill, MapLog.reify, out_tell, Out.ok_bind,
    log_finish]

theorem log_module (pf : Profile) (target : Str) (p : PartialModule) :
    (MapLog.«module» pf target p).out = PartialModule.reify pf target p := by
  simp only [MapLog.«module», PartialModule.reify, out_bind, out_of, out_mapErr, log_moduleFull, Module.tryFrom]
  congr; funext sb; congr; funext st; congr; funext i; congr; funext mb
  cases Module.tryFromFull pf target mb { PartialMapCtx.default with strtab := st } <;> rfl

/-- C86. The log belongs to the mapping: the outcome is the same. -/
theorem C86_same (pf : Profile) (target : Str) (bytes : List U8) :
    (MapLog.file pf target bytes).out = Bitcode.tryFrom pf target bytes := by
  simp only [MapLog.file, Bitcode.tryFrom, Bitcode.ofStream, out_bind, out_of, out_mapAll, log_module]

end Verif
