import Verif.Base.ProfileSpec
import Verif.Support.Lemmas

/-! How agreement of the two build profiles is carried through sequencing. -/

namespace Verif

/-- A function with a result in both profiles: it overflows in debug builds or does the same in both. -/
def OSame {ε α : Type} (x : Profile → Out ε α) : Prop := (x .debug).Overflows ∨ x .release = x .debug

/-- The same for a function with state. -/
def SSame {σ ε α : Type} (m : Profile → StM σ ε α) : Prop :=
  ∀ s, (m .debug s).1.Overflows ∨ m .release s = m .debug s

theorem Out.Overflows.bind {ε α β : Type} {x : Out ε α} (h : x.Overflows) (f : α → Out ε β) : (x >>= f).Overflows := by
  obtain ⟨p, rfl, hp⟩ := h
  exact ⟨p, rfl, hp⟩

theorem Out.Overflows.mapErr {ε ε' α : Type} {x : Out ε α} (h : x.Overflows) (f : ε → ε') : (x.mapErr f).Overflows := by
  obtain ⟨p, rfl, hp⟩ := h
  exact ⟨p, rfl, hp⟩

theorem OSame.cases {ε α : Type} {x : Profile → Out ε α} (h : OSame x) : (x .debug).Overflows ∨ x .release = x .debug := h

theorem SSame.cases {σ ε α : Type} {m : Profile → StM σ ε α} (h : SSame m) (s : σ) :
    (∃ p s', m .debug s = (.panic p, s') ∧ p.overflow = true) ∨ m .release s = m .debug s := by
  rcases h s with ⟨p, h, hp⟩ | h
  · exact .inl ⟨p, (m .debug s).2, by rw [← h], hp⟩
  · exact .inr h

theorem Out.Overflows.intro {ε α : Type} {p : PanicSite} (h : p.overflow = true) : (Out.panic p : Out ε α).Overflows :=
  ⟨p, rfl, h⟩

namespace OSame
variable {ε ε' α β : Type}

theorem const (x : Out ε α) : OSame fun _ => x := .inr rfl

theorem bind {x : Profile → Out ε α} {f : Profile → α → Out ε β} (hx : OSame x) (hf : ∀ a, OSame fun pf => f pf a) :
    OSame fun pf => x pf >>= f pf := by
  rcases hx with h | h
  · exact .inl (h.bind _)
  · cases hd : x .debug with
    | ok a =>
      rcases hf a with h' | h'
      · exact .inl (by dsimp only; rw [hd]; exact h')
      · exact .inr (by dsimp only; rw [h, hd]; exact h')
    | err e => exact .inr (by dsimp only; rw [h, hd]; rfl)
    | panic p => exact .inr (by dsimp only; rw [h, hd]; rfl)
    | diverge => exact .inr (by dsimp only; rw [h, hd]; rfl)

theorem mapErr {x : Profile → Out ε α} (hx : OSame x) (f : ε → ε') : OSame fun pf => (x pf).mapErr f := by
  rcases hx with h | h
  · exact .inl (h.mapErr f)
  · exact .inr (by dsimp only; rw [h])

theorem foldlM {σ : Type} {f : Profile → σ → α → Out ε σ} (hf : ∀ s a, OSame fun pf => f pf s a) (l : List α) (s : σ) :
    OSame fun pf => l.foldlM (f pf) s := by
  induction l generalizing s with
  | nil => exact const _
  | cons a l ih =>
    simp only [List.foldlM_cons]
    exact (hf s a).bind ih

end OSame

namespace SSame
variable {σ ε ε' α β : Type}

theorem const (m : StM σ ε α) : SSame fun _ => m := fun _ => .inr rfl

theorem bind {m : Profile → StM σ ε α} {f : Profile → α → StM σ ε β} (hm : SSame m) (hf : ∀ a, SSame fun pf => f pf a) :
    SSame fun pf => m pf >>= f pf := by
  intro s
  show ((m .debug >>= f .debug) s).1.Overflows ∨ (m .release >>= f .release) s = (m .debug >>= f .debug) s
  rw [StM.bind_apply, StM.bind_apply]
  rcases hm s with ⟨p, h, hp⟩ | h
  · left
    generalize hr : m .debug s = r at h
    obtain ⟨o, s'⟩ := r
    cases h
    exact ⟨p, rfl, hp⟩
  · rw [h]
    generalize m .debug s = r
    obtain ⟨o, s'⟩ := r
    cases o with
    | ok a => exact hf a s'
    | err e => exact .inr rfl
    | panic p => exact .inr rfl
    | diverge => exact .inr rfl

theorem mapErr {m : Profile → StM σ ε α} (hm : SSame m) (f : ε → ε') : SSame fun pf => StM.mapErr f (m pf) := by
  intro s
  rcases hm s with h | h
  · exact .inl (h.mapErr f)
  · exact .inr (by simp only [StM.mapErr_apply, h])

theorem lift {x : Profile → Out ε α} (hx : OSame x) : SSame (σ := σ) fun pf => StM.lift (x pf) := by
  intro s
  rcases hx with h | h
  · exact .inl h
  · exact .inr (by simp only [StM.lift_apply, h])

theorem fst {m : Profile → StM σ ε α} (hm : SSame m) (s : σ) : OSame fun pf => (m pf s).1 := by
  rcases hm s with h | h
  · exact .inl h
  · exact .inr (by dsimp only; rw [h])

end SSame

end Verif
