import Verif.Lemmas.StepTrace
import Verif.Props.Normalize
import Verif.Props.Total

/-! # C61: the proposal does not depend on the unit of the responses -/

namespace Verif.Props

open Verif.Spec Verif.Lemmas Verif.BoCommon Verif.UtilsBo Verif.Constants Verif.BaseBo
open Verif.Covariance (Inputs)

variable {n d : ℕ}

private theorem column_ignored {σ α : Type} (n : ℕ) {Y Y' : List ℝ} (h : Y'.length = Y.length)
    (k : OptM σ α) :
    ((OptM.lift (column n Y') : OptM σ (Fin n → ℝ)) >>= fun _ => k) =
      ((OptM.lift (column n Y) : OptM σ (Fin n → ℝ)) >>= fun _ => k) := by
  unfold column
  by_cases hn : n = Y.length
  · rw [dif_pos hn, dif_pos (hn.trans h.symm)]
    rfl
  · rw [dif_neg hn, dif_neg (fun e => hn (e.trans h))]

private theorem map_bind {σ α β γ : Type} (g : β → γ) (m : OptM σ α) (f : α → OptM σ β)
    (f' : α → OptM σ γ) (h : ∀ a s, f' a s = ((f a s).1, (f a s).2.map g)) (s : σ × ℕ) :
    (m >>= f') s = (((m >>= f) s).1, ((m >>= f) s).2.map g) := by
  rcases hm : m s with ⟨s1, e | a⟩
  · rw [OptM.bind_of_error hm, OptM.bind_of_error hm]
    rfl
  · rw [OptM.bind_of_ok hm, OptM.bind_of_ok hm]
    exact h a s1

/-- C61 for Gaussian processes: with normalised responses, a call on `a * Y + b` has the same
effect on the object, raises the same exception or returns the same proposal, the same candidates,
acquisition values, fitted kernel and hyperparameters and the same normalised responses as a call
on `Y`; only the recorded original responses are the ones given. For every optimiser (a raising one
included), every clock and every earlier state; not in the 'converged' mode, which never
normalises. -/
theorem C61_gp (bo : BoWGp.BOwGP d) (hN : bo.normalize_Y = true) (o : Oracles d)
    (clock : ℕ → ℝ) (X : Inputs n d) (Y : List ℝ) (hY : ∃ x ∈ Y, ∃ y ∈ Y, x ≠ y) (a b : ℝ)
    (ha : 0 < a) (sm : String) (ns : ℤ) (mlm : String) (hm : mlm ≠ "converged")
    (s : BoWGp.GpState × ℕ) :
    BoWGp.optimize bo o clock X (Y.map fun y => a * y + b) sm ns mlm s =
      ((BoWGp.optimize bo o clock X Y sm ns mlm s).1,
        (BoWGp.optimize bo o clock X Y sm ns mlm s).2.map fun r =>
          (r.1, { r.2 with Y_original := Y.map fun y => a * y + b })) := by
  unfold BoWGp.optimize
  rw [column_ignored n (Y' := Y.map fun y => a * y + b) (Y := Y) (by simp)]
  simp only [hN, ne_eq, hm, not_false_eq_true, and_self, if_true,
    C02_normalize_affine_invariant Y a b ha hY]
  iterate 19 refine map_bind _ _ _ _ (fun _ s => ?_) s
  rfl

/-- C61 for Student-t processes. -/
theorem C61_tp (bo : BoWTp.BOwTP d) (hN : bo.normalize_Y = true) (o : Oracles d)
    (clock : ℕ → ℝ) (X : Inputs n d) (Y : List ℝ) (hY : ∃ x ∈ Y, ∃ y ∈ Y, x ≠ y) (a b : ℝ)
    (ha : 0 < a) (sm : String) (ns : ℤ) (s : BoWTp.TpState × ℕ) :
    BoWTp.optimize bo o clock X (Y.map fun y => a * y + b) sm ns s =
      ((BoWTp.optimize bo o clock X Y sm ns s).1,
        (BoWTp.optimize bo o clock X Y sm ns s).2.map fun r =>
          (r.1, { r.2 with Y_original := Y.map fun y => a * y + b })) := by
  unfold BoWTp.optimize
  rw [column_ignored n (Y' := Y.map fun y => a * y + b) (Y := Y) (by simp)]
  simp only [hN, if_true, C02_normalize_affine_invariant Y a b ha hY]
  iterate 19 refine map_bind _ _ _ _ (fun _ s => ?_) s
  rfl

/-- C61 for random forests. -/
theorem C61_trees {σ : Type} (bo : BaseBO d) (hN : bo.normalize_Y = true)
    (o : BoWTrees.TreesOracles d) (clock : ℕ → ℝ) (X : List (Point d)) (Y : List ℝ)
    (hY : ∃ x ∈ Y, ∃ y ∈ Y, x ≠ y) (a b : ℝ) (ha : 0 < a) (sm : String) (ns : ℤ) (s : σ × ℕ) :
    BoWTrees.optimize bo o clock X (Y.map fun y => a * y + b) sm ns s =
      ((BoWTrees.optimize bo o clock X Y sm ns s).1,
        (BoWTrees.optimize bo o clock X Y sm ns s).2.map fun r =>
          (r.1, { r.2 with Y_original := Y.map fun y => a * y + b })) := by
  unfold BoWTrees.optimize
  simp only [hN, if_true, C02_normalize_affine_invariant Y a b ha hY, List.length_map]
  iterate 16 refine map_bind _ _ _ _ (fun _ s => ?_) s
  rfl

/-- C61: in the 'converged' mode the fit and the acquisition function see the responses as given,
whatever `normalize_Y` says. -/
theorem C61_converged_not_normalised {bo : BoWGp.BOwGP d} {o : Oracles d} {clock : ℕ → ℝ}
    {X : Inputs n d} {Y : List ℝ} {sm : String} {ns : ℤ} {s r : BoWGp.GpState × ℕ} {p : Point d}
    {info : DictInfo n d}
    (h : BoWGp.optimize bo o clock X Y sm ns "converged" s = (r, .ok (p, info))) :
    info.Y_normalized = Y ∧ info.Y_original = Y := by
  obtain ⟨-, -, -, -, -, h1, h2, -⟩ := gp_optimize_ok h
  simp only [ne_eq, not_true, and_false, if_false] at h2
  exact ⟨(Except.ok.inj h2).symm, h1⟩

/-- C61 at work: the responses in another unit, the same proposal. -/
example : ∃ r p info info', BoWGp.optimize exBo exRoutines (fun k => k)
      (.vec ![![1, 2], ![3, 4], ![5, 5]] : Inputs 3 2) [3, 1, 7] "sobol" 4 "regular" ({}, 0) =
        (r, .ok (p, info)) ∧
    BoWGp.optimize exBo exRoutines (fun k => k)
      (.vec ![![1, 2], ![3, 4], ![5, 5]] : Inputs 3 2) [3 * 3 + 32, 3 * 1 + 32, 3 * 7 + 32] "sobol" 4
        "regular" ({}, 0) = (r, .ok (p, info')) := by
  obtain ⟨r, p, info, e⟩ := exStep (mlm := "regular") (by simp)
  have := C61_gp exBo rfl exRoutines (fun k => k)
    (.vec ![![1, 2], ![3, 4], ![5, 5]] : Inputs 3 2) [3, 1, 7]
    ⟨3, by simp, 1, by simp, by norm_num⟩ 3 32 (by norm_num) "sobol" 4 "regular" (by decide) ({}, 0)
  rw [e] at this
  exact ⟨r, p, info, _, e, this⟩

/-- C61 for the Student-t process and the random forest of the examples. -/
example : ∃ r p info info', BoWTp.optimize exBoT exRoutines (fun k => k)
      (.vec ![![1, 2], ![3, 4], ![5, 5]] : Inputs 3 2) [3, 1, 7] "sobol" 4 ({}, 0) =
        (r, .ok (p, info)) ∧
    BoWTp.optimize exBoT exRoutines (fun k => k)
      (.vec ![![1, 2], ![3, 4], ![5, 5]] : Inputs 3 2) [3 * 3 + 32, 3 * 1 + 32, 3 * 7 + 32] "sobol" 4
        ({}, 0) = (r, .ok (p, info')) := by
  obtain ⟨r, p, info, e⟩ := exStepT
  have := C61_tp exBoT rfl exRoutines (fun k => k)
    (.vec ![![1, 2], ![3, 4], ![5, 5]] : Inputs 3 2) [3, 1, 7]
    ⟨3, by simp, 1, by simp, by norm_num⟩ 3 32 (by norm_num) "sobol" 4 ({}, 0)
  rw [e] at this
  exact ⟨r, p, info, _, e, this⟩

example : ∃ r p info info', BoWTrees.optimize (σ := Unit) exBoF exForest (fun k => k)
      [![1, 2], ![3, 4], ![5, 5]] [3, 1, 7] "uniform" 4 ((), 0) = (r, .ok (p, info)) ∧
    BoWTrees.optimize (σ := Unit) exBoF exForest (fun k => k)
      [![1, 2], ![3, 4], ![5, 5]] [3 * 3 + 32, 3 * 1 + 32, 3 * 7 + 32] "uniform" 4 ((), 0) =
        (r, .ok (p, info')) := by
  obtain ⟨r, p, info, e, -⟩ := exStepF
  have := C61_trees (σ := Unit) exBoF rfl exForest (fun k => k) [![1, 2], ![3, 4], ![5, 5]]
    [3, 1, 7] ⟨3, by simp, 1, by simp, by norm_num⟩ 3 32 (by norm_num) "uniform" 4 ((), 0)
  rw [e] at this
  exact ⟨r, p, info, _, e, this⟩

example : ∃ r p info, BoWGp.optimize exBo exRoutines (fun k => k)
      (.vec ![![1, 2], ![3, 4], ![5, 5]] : Inputs 3 2) [3, 1, 7] "sobol" 4 "converged" ({}, 0) =
        (r, .ok (p, info)) := exStep (by simp)

end Verif.Props
