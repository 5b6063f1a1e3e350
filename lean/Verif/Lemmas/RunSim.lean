import Verif.Lemmas.WrapperSteps

/-! Runs whose steps differ in their times only have the same rows. -/

namespace Verif.Lemmas

open Verif.Spec Verif.WrappersBo

variable {d : ℕ} {σ : Type}

/-- Two runs leave the same model and the same evaluations and have related outcomes. -/
def RunRel {α β : Type} (R : α → β → Prop) (m : RunM d σ α) (m' : RunM d σ β) : Prop :=
  ∀ w w' : World d σ, w.model = w'.model → w.log = w'.log →
    (m w).1.model = (m' w').1.model ∧ (m w).1.log = (m' w').1.log ∧ OutRel R (m w).2 (m' w').2

theorem RunRel.bind {α β γ δ : Type} {R : α → β → Prop} {Q : γ → δ → Prop} {m : RunM d σ α}
    {m' : RunM d σ β} {f : α → RunM d σ γ} {f' : β → RunM d σ δ} (h : RunRel R m m')
    (hf : ∀ a b, R a b → RunRel Q (f a) (f' b)) : RunRel Q (m >>= f) (m' >>= f') := by
  intro w w' h1 h2
  obtain ⟨a1, a2, a3⟩ := h w w' h1 h2
  rw [bind_apply, bind_apply]
  rcases hm : m w with ⟨u, e | a⟩ <;> rcases hm' : m' w' with ⟨u', e' | b⟩ <;>
    rw [hm, hm'] at a1 a2 a3
  · exact ⟨a1, a2, a3⟩
  · exact a3.elim
  · exact a3.elim
  · exact hf a b a3 u u' a1 a2

theorem RunRel.pure {α β : Type} {R : α → β → Prop} {a : α} {b : β} (h : R a b) :
    RunRel R (Pure.pure a : RunM d σ α) (Pure.pure b) := fun _ _ h1 h2 => ⟨h1, h2, h⟩

theorem RunRel.lift {α β : Type} {R : α → β → Prop} {p : Py α} {q : Py β} (h : OutRel R p q) :
    RunRel R (RunM.lift p : RunM d σ α) (RunM.lift q) := fun _ _ h1 h2 => ⟨h1, h2, h⟩

theorem RunRel.lift_eq {α : Type} (p : Py α) :
    RunRel Eq (RunM.lift p : RunM d σ α) (RunM.lift p) := .lift (OutRel.refl p)

theorem RunRel.now (env env' : Env d σ) : RunRel (fun _ _ => True) (now env) (now env') :=
  fun _ _ h1 h2 => ⟨h1, h2, trivial⟩

/-- The two surroundings have the same target, and steps that differ in their times only. -/
structure SameEnv (env env' : Env d σ) : Prop where
  target : env.target = env'.target
  model : ∀ s t t' X Y, (env.step s t X Y).1.1 = (env'.step s t' X Y).1.1
  out : ∀ s t t' X Y, OutRel SameButTimes (env.step s t X Y).2 (env'.step s t' X Y).2

theorem RunRel.target {env env' : Env d σ} (h : SameEnv env env') (x : Point d) :
    RunRel Eq (callTarget env x) (callTarget env' x) := by
  intro w w' h1 h2
  refine ⟨h1, by simp only [callTarget, h2], ?_⟩
  simp only [callTarget, h2, h.target]
  exact OutRel.refl _

theorem RunRel.step {env env' : Env d σ} (h : SameEnv env env') (X : List (Point d))
    (Y : List Flt) : RunRel SameButTimes (callStep env X Y) (callStep env' X Y) := by
  intro w w' h1 h2
  simp only [callStep, h1]
  exact ⟨h.model _ _ _ _ _, h2, h.out _ _ _ _ _⟩

/-- The same rows and responses. -/
def SameRows (a b : LoopSt d) : Prop := a.X = b.X ∧ a.Y = b.Y

theorem iteration_rel {env env' : Env d σ} (h : SameEnv env env') {st st' : LoopSt d}
    (hs : SameRows st st') : RunRel SameRows (classIteration env st) (classIteration env' st') := by
  obtain ⟨hX, hY⟩ := hs
  unfold classIteration
  refine .bind (.now _ _) fun _ _ _ => ?_
  rw [hX, hY]
  refine .bind (.step h _ _) ?_
  rintro ⟨p, i⟩ ⟨p', i'⟩ ⟨hp, h1, h2⟩
  simp only at hp h1 h2
  subst hp
  simp only [h1, h2]
  refine .bind (.lift_eq _) ?_
  rintro q _ rfl
  refine .bind (.lift_eq _) ?_
  rintro ⟨X', q'⟩ _ rfl
  refine .bind (.now _ _) fun _ _ _ => ?_
  refine .bind (.target h _) ?_
  rintro y _ rfl
  refine .bind (.now _ _) fun _ _ _ => ?_
  refine .bind (.now _ _) fun _ _ _ => ?_
  exact .pure ⟨rfl, rfl⟩

theorem loop_rel {env env' : Env d σ} (h : SameEnv env env') : ∀ (n : ℕ) {st st' : LoopSt d},
    SameRows st st' → RunRel SameRows (classLoop env n st) (classLoop env' n st')
  | 0, _, _, hs => .pure hs
  | n + 1, _, _, hs => .bind (iteration_rel h hs) fun _ _ hs' => loop_rel h n hs'

theorem data_rel {env env' : Env d σ} (h : SameEnv env env') (n : ℕ) (X : List (Point d))
    (Y : List Flt) : RunRel SameRows (optimizeWithAllInitialInformation env n X Y)
      (optimizeWithAllInitialInformation env' n X Y) := by
  unfold optimizeWithAllInitialInformation
  refine .bind (.lift_eq _) fun _ _ _ => ?_
  refine .bind (.now _ _) fun _ _ _ => ?_
  refine .bind (loop_rel h n ⟨rfl, rfl⟩) fun _ _ hs => ?_
  refine .bind (.now _ _) fun _ _ _ => ?_
  exact .pure hs

theorem initials_rel {env env' : Env d σ} (h : SameEnv env env') : ∀ X : List (Point d),
    RunRel (fun a b : List Flt × List ℝ => a.1 = b.1) (classInitials env X) (classInitials env' X)
  | [] => .pure rfl
  | x :: X => by
    refine .bind (.now _ _) fun _ _ _ => ?_
    refine .bind (.target h _) ?_
    rintro y _ rfl
    refine .bind (.now _ _) fun _ _ _ => ?_
    refine .bind (initials_rel h X) ?_
    rintro ⟨Y, ts⟩ ⟨Y', ts'⟩ hY
    simp only at hY
    exact .pure (by simp only [hY])

theorem inputs_rel {env env' : Env d σ} (h : SameEnv env env') (n : ℕ) (X : List (Point d)) :
    RunRel SameRows (optimizeWithInitialInputs env n X) (optimizeWithInitialInputs env' n X) := by
  unfold optimizeWithInitialInputs
  refine .bind (initials_rel h X) ?_
  rintro ⟨Y, ts⟩ ⟨Y', ts'⟩ hY
  simp only at hY
  subst hY
  exact .bind (data_rel h n X Y) fun _ _ hs => .pure hs

theorem optimize_rel {env env' : Env d σ} (h : SameEnv env env')
    (initials : ℤ → Py (List (Point d))) (n : ℕ) (num_init : ℤ) :
    RunRel SameRows (classOptimize env initials n num_init)
      (classOptimize env' initials n num_init) := by
  unfold classOptimize
  refine .bind (.lift_eq _) fun _ _ _ => ?_
  refine .bind (.now _ _) fun _ _ _ => ?_
  refine .bind (.lift_eq _) ?_
  rintro X _ rfl
  refine .bind (inputs_rel h n X) fun _ _ hs => ?_
  refine .bind (.now _ _) fun _ _ _ => ?_
  exact .pure hs

end Verif.Lemmas
