import Verif.Model.WrappersBo
import Verif.Model.BaseBo

/-! Specification vocabulary for runs (C06-C12). -/

namespace Verif.Spec

/-- The point lies in the search space. -/
def InBox {d : ℕ} (B : Bounds d) (p : Point d) : Prop :=
  ∀ i, (B i).1 ≤ p i ∧ p i ≤ (B i).2

/-- The generators keep their promise: unit draws lie between 0 and 1 (normal draws may be
anything). -/
def UnitDraws {d : ℕ} (r : BaseBo.Draws d) : Prop :=
  (∀ k, 0 ≤ r.uniform k ∧ r.uniform k ≤ 1) ∧ (∀ k j, 0 ≤ r.sobol k j ∧ r.sobol k j ≤ 1) ∧
    (∀ k j, 0 ≤ r.halton k j ∧ r.halton k j ≤ 1)

open WrappersBo

/-- The model step only ever proposes points of the search space. -/
def StepInBox {d : ℕ} {σ : Type} (B : Bounds d) (env : Env d σ) : Prop :=
  ∀ s t X Y r p info, env.step s t X Y = (r, .ok (p, info)) →
    InBox B p ∧ ∀ q ∈ info.next_points, InBox B q

/-- The outcome of a model step without the times. -/
def untimed {d : ℕ} : Py (Point d × Info d) → Py (Point d × List (Point d) × List Flt)
  | .ok (p, info) => .ok (p, info.next_points, info.acquisitions)
  | .error e => .error e

/-- The model step reads the clock but does not decide by it. -/
def ClockFree {d : ℕ} {σ : Type} (env : Env d σ) : Prop :=
  ∀ s t t' X Y, (env.step s t X Y).1.1 = (env.step s t' X Y).1.1 ∧
    untimed (env.step s t X Y).2 = untimed (env.step s t' X Y).2

/-- The two times a model step reports are differences of clock readings made during the
step, the surrogate fit before the acquisition search. -/
def TimedByClock {d : ℕ} {σ : Type} (env : Env d σ) : Prop :=
  ∀ s t X Y s' t' p info, env.step s t X Y = ((s', t'), .ok (p, info)) →
    ∃ a b c e : ℕ, t ≤ a ∧ a ≤ b ∧ b ≤ c ∧ c ≤ e ∧ e ≤ t' ∧
      info.time_surrogate = env.clock b - env.clock a ∧
      info.time_acq = env.clock e - env.clock c

/-- A run, by the function or by the class interface, with `n` initial points and `T` iterations. -/
def RunGives {d : ℕ} {σ : Type} (env : WrappersBo.Env d σ) (initials : ℤ → Py (List (Point d))) (n : ℤ) (T : ℕ)
    (st : WrappersBo.LoopSt d) : Prop :=
  ∃ w w', WrappersBo.runSingleRound env initials n T w = (w', .ok st) ∨
    WrappersBo.classOptimize env initials T n w = (w', .ok st)

end Verif.Spec
