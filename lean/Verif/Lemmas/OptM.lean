import Verif.Model.BoWGp
import Verif.Model.BoWTp
import Verif.Model.BoWTrees

/-! Reasoning about method calls: case analysis of a sequence, and relating two runs. -/

namespace Verif.Lemmas

open Verif.BoCommon

variable {σ α β γ δ : Type}

theorem OptM.bind_ok {m : OptM σ α} {f : α → OptM σ β} {s r : σ × ℕ} {b : β}
    (h : (m >>= f) s = (r, .ok b)) : ∃ a s1, m s = (s1, .ok a) ∧ f a s1 = (r, .ok b) := by
  change (match m s with
    | (s', .ok a) => f a s'
    | (s', .error e) => (s', .error e)) = _ at h
  split at h
  · next s' a hm => exact ⟨a, s', hm, h⟩
  · next s' e hm => cases (Prod.mk.inj h).2

theorem OptM.bind_cases (m : OptM σ α) (f : α → OptM σ β) (s : σ × ℕ) :
    (∃ a s1, m s = (s1, .ok a) ∧ (m >>= f) s = f a s1) ∨
      (∃ e s1, m s = (s1, .error e) ∧ (m >>= f) s = (s1, .error e)) := by
  change _ ∨ _
  rcases hm : m s with ⟨s1, a | a⟩
  · right
    refine ⟨a, s1, rfl, ?_⟩
    change (match m s with
      | (s', .ok a) => f a s'
      | (s', .error e) => (s', .error e)) = _
    rw [hm]
  · left
    refine ⟨a, s1, rfl, ?_⟩
    change (match m s with
      | (s', .ok a) => f a s'
      | (s', .error e) => (s', .error e)) = _
    rw [hm]

theorem OptM.bind_of_ok {m : OptM σ α} {f : α → OptM σ β} {s s1 : σ × ℕ} {a : α}
    (h : m s = (s1, .ok a)) : (m >>= f) s = f a s1 := by
  change (match m s with
    | (s', .ok a) => f a s'
    | (s', .error e) => (s', .error e)) = _
  rw [h]

theorem OptM.bind_of_error {m : OptM σ α} {f : α → OptM σ β} {s s1 : σ × ℕ} {e : PyErr}
    (h : m s = (s1, .error e)) : (m >>= f) s = (s1, .error e) := by
  change (match m s with
    | (s', .ok a) => f a s'
    | (s', .error e) => (s', .error e)) = _
  rw [h]

/-- Two outcomes agree up to `R`. -/
def OutRel (R : α → β → Prop) : Py α → Py β → Prop
  | .ok a, .ok b => R a b
  | .error e, .error e' => e = e'
  | _, _ => False

/-- Two method calls change the object in the same way and have outcomes related by `R`,
whenever they start. -/
def Rel (R : α → β → Prop) (m : OptM σ α) (m' : OptM σ β) : Prop :=
  ∀ s t t', (m (s, t)).1.1 = (m' (s, t')).1.1 ∧ OutRel R (m (s, t)).2 (m' (s, t')).2

theorem Rel.bind {R : α → β → Prop} {Q : γ → δ → Prop} {m : OptM σ α} {m' : OptM σ β}
    {f : α → OptM σ γ} {f' : β → OptM σ δ} (h : Rel R m m')
    (hf : ∀ a b, R a b → Rel Q (f a) (f' b)) : Rel Q (m >>= f) (m' >>= f') := by
  intro s t t'
  obtain ⟨h1, h2⟩ := h s t t'
  rcases hm : m (s, t) with ⟨⟨s1, t1⟩, e | a⟩ <;> rcases hm' : m' (s, t') with ⟨⟨s2, t2⟩, e' | b⟩ <;>
    rw [hm, hm'] at h1 h2
  · rw [OptM.bind_of_error hm, OptM.bind_of_error hm']
    exact ⟨h1, h2⟩
  · exact h2.elim
  · exact h2.elim
  · rw [OptM.bind_of_ok hm, OptM.bind_of_ok hm']
    simp only at h1
    subst h1
    exact hf a b h2 s1 t1 t2

theorem Rel.pure {R : α → β → Prop} {a : α} {b : β} (h : R a b) :
    Rel R (Pure.pure a : OptM σ α) (Pure.pure b) := fun _ _ _ => ⟨rfl, h⟩

theorem OutRel.refl (p : Py α) : OutRel Eq p p := by cases p <;> rfl

theorem Rel.lift {R : α → β → Prop} {p : Py α} {q : Py β} (h : OutRel R p q) :
    Rel R (OptM.lift p : OptM σ α) (OptM.lift q) := fun _ _ _ => ⟨rfl, h⟩

theorem Rel.lift_eq (p : Py α) : Rel Eq (OptM.lift p : OptM σ α) (OptM.lift p) :=
  Rel.lift (OutRel.refl p)

theorem Rel.now (c c' : ℕ → ℝ) :
    Rel (fun _ _ => True) (OptM.now c : OptM σ ℝ) (OptM.now c') :=
  fun _ _ _ => ⟨rfl, trivial⟩

theorem Rel.get : Rel Eq (OptM.get : OptM σ σ) OptM.get := fun _ _ _ => ⟨rfl, rfl⟩

theorem Rel.set (a : σ) : Rel Eq (OptM.set a) (OptM.set a) := fun _ _ _ => ⟨rfl, rfl⟩

theorem pyAssert_ok {p : Prop} [Decidable p] {u : Unit} (h : pyAssert p = .ok u) : p := by
  unfold pyAssert at h
  split at h
  · assumption
  · cases h

theorem lift_ok {p : Py α} {s r : σ × ℕ} {a : α} (h : (OptM.lift p : OptM σ α) s = (r, .ok a)) :
    p = .ok a ∧ r = s := by
  obtain ⟨h1, h2⟩ := Prod.mk.inj h
  exact ⟨h2, h1.symm⟩

end Verif.Lemmas
