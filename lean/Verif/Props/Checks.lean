import Verif.Model.UtilsBo
import Verif.Model.UtilsCovariance

/-! C65, C66: the input checks used by every surrogate. -/

namespace Verif.Props

open Verif.UtilsBo Verif.UtilsCovariance Verif.Constants

/-- C65: `check_points_in_bounds` lets the points through unchanged exactly when every
coordinate of every point lies between its two bounds; otherwise it is an `AssertionError`. -/
theorem C65_points_in_bounds {d : ℕ} (points : List (Point d)) (bounds : Bounds d) :
    checkPointsInBounds points bounds = .ok points ∧
        (∀ p ∈ points, ∀ i, (bounds i).1 ≤ p i ∧ p i ≤ (bounds i).2) ∨
      checkPointsInBounds points bounds = .error .assertion ∧
        ∃ p ∈ points, ∃ i, p i < (bounds i).1 ∨ (bounds i).2 < p i := by
  by_cases h1 : ∀ p ∈ points, ∀ i, (bounds i).1 ≤ p i
  · by_cases h2 : ∀ p ∈ points, ∀ i, p i ≤ (bounds i).2
    · left
      refine ⟨?_, fun p hp i => ⟨h1 p hp i, h2 p hp i⟩⟩
      simp only [checkPointsInBounds, pyAssert, if_pos h1, if_pos h2]
      rfl
    · right
      constructor
      · simp only [checkPointsInBounds, pyAssert, if_pos h1, if_neg h2]
        rfl
      · push Not at h2
        obtain ⟨p, hp, i, hi⟩ := h2
        exact ⟨p, hp, i, .inr hi⟩
  · right
    constructor
    · simp only [checkPointsInBounds, pyAssert, if_neg h1]
      rfl
    · push Not at h1
      obtain ⟨p, hp, i, hi⟩ := h1
      exact ⟨p, hp, i, .inl hi⟩

/-- Concrete case of C65: one point on the upper bound, one just outside. -/
example : checkPointsInBounds [fun _ : Fin 1 => (1 : ℝ)] (fun _ => (0, 1)) =
      .ok [fun _ => 1] ∧
    checkPointsInBounds [fun _ : Fin 1 => (1.5 : ℝ)] (fun _ => (0, 1)) = .error .assertion := by
  constructor
  · rcases C65_points_in_bounds [fun _ : Fin 1 => (1 : ℝ)] (fun _ => (0, 1)) with h | ⟨-, p, hp, i, h⟩
    · exact h.1
    · simp at hp; subst hp; norm_num at h
  · rcases C65_points_in_bounds [fun _ : Fin 1 => (1.5 : ℝ)] (fun _ => (0, 1)) with ⟨-, h⟩ | h
    · have := h (fun _ => 1.5) (by simp) 0; norm_num at this
    · exact h.1

/-- The rank of input arrays a covariance name asks for: two for the four kernels on points,
three for the four kernels on sets, none for anything else. -/
def requiredRank (str_cov : String) : Option ℕ :=
  if str_cov ∈ ["eq", "se", "matern32", "matern52"] then some 2
  else if str_cov ∈ ["set_eq", "set_se", "set_matern32", "set_matern52"] then some 3
  else none

/-- C66: `check_str_cov` passes exactly when the name is known and all shapes given have the
rank it asks for; a wrong rank is an `AssertionError`, an unknown name a `ValueError`. -/
theorem C66_check_str_cov (str_cov : String) (rank1 : ℕ) (rank2 : Option ℕ) :
    checkStrCov str_cov rank1 rank2 =
      match requiredRank str_cov with
      | none => .error .value
      | some r => if rank1 = r ∧ (∀ r2, rank2 = some r2 → r2 = r) then .ok () else
          .error .assertion := by
  have hb : ALLOWED_COV_BASE = ["eq", "se", "matern32", "matern52"] := rfl
  have hs : ALLOWED_COV_SET = ["set_eq", "set_se", "set_matern32", "set_matern52"] := rfl
  unfold checkStrCov requiredRank
  rw [hb, hs]
  split_ifs <;> cases rank2 <;> simp [pyAssert, bind, Except.bind, pure, Except.pure] <;>
    split_ifs <;> simp_all

/-- Concrete cases of C66. -/
example : checkStrCov "matern52" 2 (some 2) = .ok () ∧
    checkStrCov "set_se" 3 (some 2) = .error .assertion ∧
    checkStrCov "cosine" 2 none = .error .value := by
  refine ⟨?_, ?_, ?_⟩ <;> rw [C66_check_str_cov] <;> simp [requiredRank]

end Verif.Props
