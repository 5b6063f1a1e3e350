import Verif.Spec.Inputs
import Mathlib.Data.Fintype.Basic

/-! Specification of repeated inputs (C96, C97). -/

namespace Verif.Spec

open Verif.Covariance
open Classical in
/-- The rows whose input is that of row `i`. -/
noncomputable def repeats {n d : ℕ} (X : Inputs n d) (i : Fin n) : Finset (Fin n) :=
  Finset.univ.filter fun j => item X j = item X i

/-- At every input the responses add up to the same total. -/
def SameTotals {n d : ℕ} (X : Inputs n d) (Y Y' : Fin n → ℝ) : Prop :=
  ∀ i, ∑ j ∈ repeats X i, Y j = ∑ j ∈ repeats X i, Y' j

/-- The average of the responses at the input of row `i`. -/
noncomputable def avgAt {n d : ℕ} (X : Inputs n d) (Y : Fin n → ℝ) (i : Fin n) : ℝ :=
  (∑ j ∈ repeats X i, Y j) / (repeats X i).card

end Verif.Spec
