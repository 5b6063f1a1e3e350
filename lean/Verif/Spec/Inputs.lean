import Verif.Model.Covariance
import Verif.Spec.Kernels

/-!
One vocabulary for both kinds of inputs (C28-C40): every row of an input array is a set of
points, a plain input being the set with that one element.
-/

namespace Verif.Spec

open Verif.Covariance

/-- A finite family of points. -/
abbrev Item (d : ℕ) := Σ p : ℕ, (Fin p → Point d)

/-- The `i`-th row of an input array. -/
def item {n d : ℕ} : Inputs n d → Fin n → Item d
  | .vec x, i => ⟨1, fun _ => x i⟩
  | .set p x, i => ⟨p, x i⟩

/-- The covariance of two rows. -/
noncomputable def itemKernel {d : ℕ} (base : String) (s : ℝ) (l : Fin d → ℝ) (x y : Item d) : ℝ :=
  setKernel base s l x.2 y.2

/-- The inputs suit the covariance function `name` built on `base`: plain inputs for a base
name, non-empty sets for a set name. -/
def Suits {n d : ℕ} (name base : String) (X : Inputs n d) : Prop :=
  base ∈ baseNames ∧
    ((name = base ∧ ∃ x, X = .vec x) ∨ (name = "set_" ++ base ∧ ∃ p x, p ≠ 0 ∧ X = .set p x))

/-- The matrix of covariances of the rows of `X` and the rows of `Y`. -/
noncomputable def gram {n m d : ℕ} (base : String) (s : ℝ) (l : Fin d → ℝ) (X : Inputs n d)
    (Y : Inputs m d) : Matrix (Fin n) (Fin m) ℝ :=
  Matrix.of fun i j => itemKernel base s l (item X i) (item Y j)

/-- The covariance matrix of noisy observations: kernel matrix plus noise variance and the
package's jitter of `1e-5` on the diagonal. -/
noncomputable def noisyGram {n d : ℕ} (base : String) (σ s : ℝ) (l : Fin d → ℝ)
    (X : Inputs n d) : Matrix (Fin n) (Fin n) ℝ :=
  gram base s l X X + (σ ^ 2 + 1 / 100000) • (1 : Matrix (Fin n) (Fin n) ℝ)

end Verif.Spec
