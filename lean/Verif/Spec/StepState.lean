import Verif.Model.BoCommon

/-! Vocabulary of C22, C23, C58 and C59. -/

namespace Verif.Spec

open Verif.BoCommon Verif.Gp

/-- The arguments of a call of `optimize` of a Gaussian process model, sensible or not, and the
routines it may use. -/
structure AnyCall (d : ℕ) where
  n : ℕ
  X : Covariance.Inputs n d
  Y : List ℝ
  routines : Oracles d
  sampling : String
  samples : ℤ
  mlm : String

/-- The call with another minimiser of the hyperparameters. -/
def AnyCall.withFit {d : ℕ} (c : AnyCall d) (m : Minimize) : AnyCall d :=
  { c with routines := { c.routines with fitHyps := m } }

/-- The vector `w` lies within 5 % of the vector `v`: `‖w - v‖ < 0.05 ‖v‖`. -/
def Near (v w : List ℝ) : Prop :=
  v.length = w.length ∧
    (List.zipWith (fun a b => (b - a) ^ 2) v w).sum < (1 / 20) ^ 2 * (v.map (· ^ 2)).sum

/-- A value that beats the initial `np.inf`: neither NaN nor `+inf`. -/
def Usable (y : Flt) : Prop := y ≠ .nan ∧ y ≠ .pinf

/-- A minimiser that evaluates its objective at the start and does not catch its exceptions. -/
def EvaluatesStart (m : Minimize) : Prop :=
  ∀ method f x0 bounds jac e, f x0 = .error e → m method f x0 bounds jac = .error e

end Verif.Spec
