import Verif.Lemmas.FrameRun

/-! The constructors on the arguments of a problem in other coordinates (C107). -/

namespace Verif.Lemmas

open Verif.Spec Verif.BoCommon Verif.UtilsBo Verif.Constants Verif.BaseBo Verif.WrapperClass

variable {d : ℕ}

theorem assert_ok {p : Prop} [Decidable p] (h : p) : pyAssert p = .ok () := if_pos h

theorem assert_fails {p : Prop} [Decidable p] (h : ¬ p) : pyAssert p = .error .assertion :=
  if_neg h

theorem frame_assert (F : Frame d) (B : Bounds d) :
    pyAssert (∀ i, (F.bounds B i).1 ≤ (F.bounds B i).2) = pyAssert (∀ i, (B i).1 ≤ (B i).2) := by
  by_cases h : ∀ i, (B i).1 ≤ (B i).2
  · rw [assert_ok h]
    exact assert_ok fun i => (frame_le F i _ _).2 (h i)
  · rw [assert_fails h]
    exact assert_fails fun h' => h fun i => (frame_le F i _ _).1 (h' i)

theorem frame_initBase (F : Frame d) (env : Installed) (B : Bounds d) (sur acq m : String)
    (nY : Bool) :
    initBase env (F.bounds B) sur acq m nY = (initBase env B sur acq m nY).map (frameBase F) := by
  unfold initBase
  rw [frame_assert]
  rcases pyAssert (∀ i, (B i).1 ≤ (B i).2) with e | _
  · rfl
  rcases pyAssert (sur ∈ ALLOWED_SURROGATE ++ ALLOWED_SURROGATE_TREES) with e | _
  · rfl
  rcases pyAssert (acq ∈ ALLOWED_BO_ACQ) with e | _
  · rfl
  rcases pyAssert (m ∈ ALLOWED_OPTIMIZER_METHOD_BO ++ ALLOWED_OPTIMIZER_METHOD_BO_TREES) with e | _
  · rfl
  rcases h : checkOptimizerMethodBo env m d with e | _ <;> rfl

theorem frame_treesInit (F : Frame d) (env : Installed) (B : Bounds d) (sur acq m : String)
    (nY : Bool) :
    BoWTrees.init env (F.bounds B) sur acq nY m =
      (BoWTrees.init env B sur acq nY m).map (frameBase F) := by
  unfold BoWTrees.init
  rw [frame_assert, frame_initBase]
  rcases pyAssert (∀ i, (B i).1 ≤ (B i).2) with e | _
  · rfl
  rcases pyAssert (sur ∈ ALLOWED_SURROGATE_TREES) with e | _
  · rfl
  rcases pyAssert (acq ∈ ALLOWED_BO_ACQ) with e | _
  · rfl
  rcases pyAssert (m ∈ ALLOWED_OPTIMIZER_METHOD_BO_TREES) with e | _ <;> rfl

theorem frame_gpInit (F : Frame d) (env : Installed) (B : Bounds d) (cov acq : String)
    (nY ard : Bool) (p : Gp.PriorMu d) (mg m ms : String) :
    BoWGp.init env (F.bounds B) cov acq nY ard (F.prior p) mg m ms =
      (BoWGp.init env B cov acq nY ard p mg m ms).map fun r => (frameGp F r.1, r.2) := by
  unfold BoWGp.init
  rw [frame_assert]
  simp only [frame_initBase]
  rcases pyAssert (∀ i, (B i).1 ≤ (B i).2) with e | _
  · rfl
  rcases pyAssert (cov ∈ ALLOWED_COV) with e | _
  · rfl
  rcases pyAssert (acq ∈ ALLOWED_BO_ACQ) with e | _
  · rfl
  rcases pyAssert (mg ∈ ALLOWED_OPTIMIZER_METHOD_GP) with e | _
  · rfl
  rcases pyAssert (m ∈ ALLOWED_OPTIMIZER_METHOD_BO) with e | _
  · rfl
  rcases pyAssert (ms ∈ ALLOWED_MODELSELECTION_METHOD) with e | _
  · rfl
  rcases pyAssert ("gp" ∈ ALLOWED_SURROGATE) with e | _
  · rfl
  rcases initBase env B "gp" acq m nY with e | b <;> rfl

theorem frame_tpInit (F : Frame d) (env : Installed) (B : Bounds d) (cov acq : String)
    (nY ard : Bool) (p : Gp.PriorMu d) (mt m : String) :
    BoWTp.init env (F.bounds B) cov acq nY ard (F.prior p) mt m =
      (BoWTp.init env B cov acq nY ard p mt m).map fun r => (frameTp F r.1, r.2) := by
  unfold BoWTp.init
  rw [frame_assert]
  simp only [frame_initBase]
  rcases pyAssert (∀ i, (B i).1 ≤ (B i).2) with e | _
  · rfl
  rcases pyAssert (cov ∈ ALLOWED_COV) with e | _
  · rfl
  rcases pyAssert (acq ∈ ALLOWED_BO_ACQ) with e | _
  · rfl
  rcases pyAssert (mt ∈ ALLOWED_OPTIMIZER_METHOD_TP) with e | _
  · rfl
  rcases pyAssert (m ∈ ALLOWED_OPTIMIZER_METHOD_BO) with e | _
  · rfl
  rcases pyAssert ("tp" ∈ ALLOWED_SURROGATE) with e | _
  · rfl
  rcases initBase env B "tp" acq m nY with e | b <;> rfl

theorem frame_getModelBo (F : Frame d) (env : Installed) (a : Args d) (m : String) :
    getModelBo env (F.args a) m =
      (getModelBo env a m).map fun r => (F.surrogate r.1, r.2) := by
  unfold getModelBo
  by_cases c1 : a.str_surrogate ∈ ALLOWED_SURROGATE_TREES
  · rw [if_pos c1, if_pos (show (F.args a).str_surrogate ∈ _ from c1)]
    change (BoWTrees.init env (F.bounds a.range_X) a.str_surrogate a.str_acq a.normalize_Y m >>= _)
      = _
    rw [frame_treesInit]
    rcases BoWTrees.init env a.range_X a.str_surrogate a.str_acq a.normalize_Y m with e | b <;> rfl
  rw [if_neg c1, if_neg (show ¬ (F.args a).str_surrogate ∈ _ from c1)]
  by_cases c2 : a.str_surrogate = "gp"
  · rw [if_pos c2, if_pos (show (F.args a).str_surrogate = _ from c2)]
    change (BoWGp.init env (F.bounds a.range_X) a.str_cov a.str_acq a.normalize_Y a.use_ard
      (F.prior a.prior_mu) a.str_optimizer_method_gp m a.str_modelselection_method >>= _) = _
    rw [frame_gpInit]
    rcases BoWGp.init env a.range_X a.str_cov a.str_acq a.normalize_Y a.use_ard
      a.prior_mu a.str_optimizer_method_gp m a.str_modelselection_method with e | b <;> rfl
  rw [if_neg c2, if_neg (show ¬ (F.args a).str_surrogate = _ from c2)]
  by_cases c3 : a.str_surrogate = "tp"
  · rw [if_pos c3, if_pos (show (F.args a).str_surrogate = _ from c3)]
    change (BoWTp.init env (F.bounds a.range_X) a.str_cov a.str_acq a.normalize_Y a.use_ard
      (F.prior a.prior_mu) a.str_optimizer_method_tp m >>= _) = _
    rw [frame_tpInit]
    rcases BoWTp.init env a.range_X a.str_cov a.str_acq a.normalize_Y a.use_ard
      a.prior_mu a.str_optimizer_method_tp m with e | b <;> rfl
  rw [if_neg c3, if_neg (show ¬ (F.args a).str_surrogate = _ from c3)]
  rfl

theorem frame_ownChecks (F : Frame d) (a : Args d) : ownChecks (F.args a) = ownChecks a := by
  unfold ownChecks
  rw [show pyAssert (∀ i, ((F.args a).range_X i).1 ≤ ((F.args a).range_X i).2) = _ from
    frame_assert F a.range_X]
  rfl

end Verif.Lemmas
