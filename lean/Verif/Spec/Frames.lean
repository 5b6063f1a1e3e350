import Verif.Model.WrapperClass
import Verif.Spec.Symmetry

/-! Vocabulary of C107 and C108: the same problem with another origin and another unit of every
coordinate of the search space. -/

namespace Verif.Spec

open Verif.Covariance Verif.Gp Verif.BaseBo Verif.BoCommon Verif.WrappersBo Verif.WrapperClass

/-- Another origin and unit of every coordinate: what was `x i` is `s i * x i + t i`. -/
structure Frame (d : ℕ) where
  s : Fin d → ℝ
  t : Fin d → ℝ
  pos : ∀ i, 0 < s i

namespace Frame

variable {d : ℕ} (F : Frame d)

/-- The frame differs only in its origin. -/
def IsShift : Prop := ∀ i, F.s i = 1

/-- A point in the new coordinates. -/
def pt (x : Point d) : Point d := fun i => F.s i * x i + F.t i

/-- The point with the given new coordinates. -/
noncomputable def inv (y : Point d) : Point d := fun i => (y i - F.t i) / F.s i

/-- A box in the new coordinates. -/
def bounds (B : Bounds d) : Bounds d := fun i =>
  (F.s i * (B i).1 + F.t i, F.s i * (B i).2 + F.t i)

/-- The box with the given new coordinates. -/
noncomputable def boundsInv (B : Bounds d) : Bounds d := fun i =>
  (((B i).1 - F.t i) / F.s i, ((B i).2 - F.t i) / F.s i)

/-- The prior mean as a function of the new coordinates. -/
noncomputable def prior (p : PriorMu d) : PriorMu d :=
  p.map fun f n X => f n (mapInputs F.inv X)

/-- The target as a function of the new coordinates. -/
noncomputable def target (f : ℕ → Point d → Py Flt) : ℕ → Point d → Py Flt :=
  fun k x => f k (F.inv x)

/-- Numerical routines that work on a problem in the new coordinates the way `o` works on the
problem in the old ones. -/
noncomputable def oracles (o : Oracles d) : Oracles d where
  fitHyps := o.fitHyps
  lbfgsb := fun f x B => (o.lbfgsb (fun y => f (F.pt y)) (F.inv x) (F.boundsInv B)).map F.pt
  direct := fun f B => (o.direct (fun y => f (F.pt y)) (F.boundsInv B)).map F.pt
  cma := fun f x c B => (o.cma (fun y => f (F.pt y)) (F.inv x) c (F.boundsInv B)).map F.pt
  draws := o.draws

/-- The same for all steps of a run. -/
noncomputable def runOracles (o : RunOracles d) : RunOracles d where
  routines := fun k => F.oracles (o.routines k)
  forest := o.forest

/-- The arguments of the constructor for the problem in the new coordinates. -/
noncomputable def args (a : Args d) : Args d :=
  { a with range_X := F.bounds a.range_X, prior_mu := F.prior a.prior_mu }

/-- The surrogate in the new coordinates. -/
noncomputable def surrogate : Surrogate d → Surrogate d
  | .gp bo => .gp { bo with range_X := F.bounds bo.range_X, prior_mu := F.prior bo.prior_mu }
  | .tp bo => .tp { bo with range_X := F.bounds bo.range_X, prior_mu := F.prior bo.prior_mu }
  | .trees bo => .trees { bo with range_X := F.bounds bo.range_X }

/-- The object in the new coordinates. -/
noncomputable def object (w : BayesianOptimization d) : BayesianOptimization d :=
  { w with model_bo := F.surrogate w.model_bo }

/-- What a step reports, in the new coordinates. -/
def info (i : Info d) : Info d := { i with next_points := i.next_points.map F.pt }

/-- What a run has done, in the new coordinates. -/
def world {σ : Type} (u : World d σ) : World d σ := { u with log := u.log.map F.pt }

/-- What a run returns, in the new coordinates. -/
def loop (s : LoopSt d) : LoopSt d := { s with X := s.X.map F.pt }

/-- Of the points of `S`, those closer than the tolerance of the wrappers are the same in both
frames. -/
def Resolves (S : Set (Point d)) : Prop :=
  ∀ x ∈ S, ∀ y ∈ S, Real.sqrt (∑ i, (F.pt x i - F.pt y i) ^ 2) < 1e-8 ↔
    Real.sqrt (∑ i, (x i - y i) ^ 2) < 1e-8

end Frame

end Verif.Spec
