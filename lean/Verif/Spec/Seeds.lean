import Verif.Spec.Wrapper
import Verif.Model.Seeds

/-! Vocabulary for seeds (C91, C92). -/

namespace Verif.Spec

open Verif.WrappersBo Verif.WrapperClass

/-- Two runs leave behind the same model and the same list of evaluations, and both return the same
rows and responses or both raise the same exception. -/
def SameRun {d : ℕ} {σ : Type} (a b : World d σ × Py (LoopSt d)) : Prop :=
  a.1.model = b.1.model ∧ a.1.log = b.1.log ∧
    a.2.map (fun r => (r.X, r.Y)) = b.2.map (fun r => (r.X, r.Y))

/-- The steps of a run draw no random numbers: a process model whose acquisition function is
maximised by DIRECT, or by L-BFGS-B from the points of a grid. -/
def NoRandomSteps {d : ℕ} (env : UtilsBo.Installed) (a : Args d) : Prop :=
  a.str_surrogate ∈ ["gp", "tp"] ∧
    (usedOptimizer env d a.str_optimizer_method_bo = "DIRECT" ∨
      usedOptimizer env d a.str_optimizer_method_bo = "L-BFGS-B" ∧
        a.str_sampling_method_ao = "grid")

/-- What a call of `optimize` of a process model returns, without the times. -/
def proposal {n d : ℕ} : Py (Point d × BoCommon.DictInfo n d) →
    Py (Point d × List (Point d) × List ℝ × List ℝ × List ℝ × Option (BoCommon.Fit n))
  | .ok (p, i) => .ok (p, i.next_points, i.acquisitions, i.Y_original, i.Y_normalized, i.fit)
  | .error e => .error e

end Verif.Spec
