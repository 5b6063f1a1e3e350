import Verif.Model.Basic

/-! What it means to pick the best candidate (specification for C03-C05, C60). -/

namespace Verif.Spec

/-- Candidate `i` of the list `c` (candidates paired with values) is eligible, its value is
a number below `+inf`, no eligible candidate has a smaller value, and every earlier eligible
one has a larger value (NaN values do not count). -/
def FirstBest {α : Type _} (eligible : α → Prop) (c : List (α × Flt)) (i : ℕ) (a : α)
    (v : Flt) : Prop :=
  c[i]? = some (a, v) ∧ eligible a ∧ v < Flt.pinf ∧
  (∀ (j : ℕ) b w, c[j]? = some (b, w) → eligible b → w = Flt.nan ∨ v ≤ w) ∧
  (∀ (j : ℕ) b w, j < i → c[j]? = some (b, w) → eligible b → w = Flt.nan ∨ v < w)

/-- `p` keeps a distance of at least `tol` from every point of `l`. -/
def FarFrom {d : ℕ} (tol : ℝ) (l : List (Point d)) (p : Point d) : Prop :=
  ∀ e ∈ l, tol ≤ Real.sqrt (∑ i, (p i - e i) ^ 2)

/-- Index `i` is the first minimum of a list of numbers without NaN. -/
def FirstMinIdx (l : List Flt) (i : ℕ) : Prop :=
  ∃ v, l[i]? = some v ∧ (∀ (j : ℕ) w, l[j]? = some w → v ≤ w) ∧ ∀ (j : ℕ) w, j < i → l[j]? = some w → v < w

/-- Index `i` is the first NaN of a list. -/
def FirstNanIdx (l : List Flt) (i : ℕ) : Prop :=
  l[i]? = some Flt.nan ∧ ∀ (j : ℕ) w, j < i → l[j]? = some w → w ≠ Flt.nan

end Verif.Spec
