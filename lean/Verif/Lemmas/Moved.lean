import Verif.Lemmas.Frames
import Verif.Lemmas.OptM

/-! Covariances, Gaussian and Student-t processes when the origin of the inputs moves. -/

namespace Verif.Lemmas

open Verif.Spec Verif.Covariance Verif.UtilsCovariance Verif.UtilsBo Verif.BaseBo
open Verif.BoCommon Verif.Constants Verif.Gp

variable {d n m : ℕ} {F : Frame d}

theorem shift_pt (hF : F.IsShift) (x : Point d) (i : Fin d) : F.pt x i = x i + F.t i := by
  rw [Frame.pt, hF, one_mul]

theorem shift_scaledDist (hF : F.IsShift) (X : Fin n → Point d) (Y : Fin m → Point d)
    (l : Lengthscales d) :
    scaledDist (fun i => F.pt (X i)) (fun j => F.pt (Y j)) l = scaledDist X Y l := by
  funext i j
  simp only [scaledDist]
  congr 1
  funext k
  cases l <;> simp only [Lengthscales.scale, shift_pt hF] <;> ring

theorem shift_coordDist (hF : F.IsShift) (X : Fin n → Point d) (Y : Fin m → Point d)
    (k : Fin d) :
    coordDist (fun i => F.pt (X i)) (fun j => F.pt (Y j)) k = coordDist X Y k := by
  funext i j
  simp only [coordDist, shift_pt hF, add_sub_add_right_eq_sub]

theorem shift_cov (hF : F.IsShift) (c : CovName) (X : Fin n → Point d) (Y : Fin m → Point d)
    (l : Lengthscales d) (s : ℝ) :
    c.cov (fun i => F.pt (X i)) (fun j => F.pt (Y j)) l s = c.cov X Y l s := by
  cases c <;> simp only [CovName.cov, covSe, covMatern32, covMatern52, shift_scaledDist hF] <;> rfl

theorem shift_covSet (hF : F.IsShift) (name : String) (X : Fin n → Point d) (Y : Fin m → Point d)
    (l : Lengthscales d) (s : ℝ) :
    covSet name (fun i => F.pt (X i)) (fun j => F.pt (Y j)) l s = covSet name X Y l s := by
  simp only [covSet, shift_cov hF]

theorem shift_covMain (hF : F.IsShift) (name : String) (X : Inputs n d) (Y : Inputs m d)
    (h : HypDict) (same : Bool) (j : ℝ) :
    covMain name (mapInputs F.pt X) (mapInputs F.pt Y) h same j = covMain name X Y h same j := by
  cases X <;> cases Y <;>
    simp only [covMain, mapInputs, shift_cov hF, setLoop, setLoopSame, shift_covSet hF]

theorem shift_gradCov (hF : F.IsShift) (c : CovName) (K : Matrix (Fin n) (Fin m) ℝ)
    (X : Fin n → Point d) (Y : Fin m → Point d) (h : HypDict) (k : ℕ) (fix : Bool) :
    gradCov c K (fun i => F.pt (X i)) (fun j => F.pt (Y j)) h k fix = gradCov c K X Y h k fix := by
  simp only [gradCov, CovName.termPre, shift_scaledDist hF, shift_coordDist hF]

theorem shift_gradCovMain (hF : F.IsShift) (name : String) (X : Inputs n d) (Y : Inputs m d)
    (h : HypDict) (fix same : Bool) (j : ℝ) :
    gradCovMain name (mapInputs F.pt X) (mapInputs F.pt Y) h fix same j =
      gradCovMain name X Y h fix same j := by
  unfold gradCovMain
  simp only [shift_covMain hF]
  cases X <;> cases Y <;> simp only [mapInputs, shift_gradCov hF]

theorem mapInputs_rank {e : ℕ} (f : Point d → Point e) (X : Inputs n d) :
    (mapInputs f X).rank = X.rank := by
  cases X <;> rfl

theorem shift_noisyCov (hF : F.IsShift) (X : Inputs n d) (h : HypDict) (name : String) :
    noisyCov (mapInputs F.pt X) h name = noisyCov X h name := by
  simp only [noisyCov, shift_covMain hF]
  rfl

theorem shift_kernelInverse (hF : F.IsShift) (X : Inputs n d) (h : HypDict) (name : String)
    (fix ug : Bool) :
    getKernelInverse (mapInputs F.pt X) h name fix ug = getKernelInverse X h name fix ug := by
  simp only [getKernelInverse, mapInputs_rank, shift_noisyCov hF, shift_gradCovMain hF]

theorem shift_kernelCholesky (hF : F.IsShift) (X : Inputs n d) (h : HypDict) (name : String)
    (fix ug : Bool) :
    getKernelCholesky (mapInputs F.pt X) h name fix ug = getKernelCholesky X h name fix ug := by
  simp only [getKernelCholesky, mapInputs_rank, shift_noisyCov hF, shift_gradCovMain hF]

theorem mapInputs_inv (F : Frame d) (X : Inputs n d) : mapInputs F.inv (mapInputs F.pt X) = X := by
  cases X <;> simp only [mapInputs, frame_inv_pt]

theorem frame_prior (F : Frame d) (p : PriorMu d) (X : Inputs n d) :
    getPriorMu (F.prior p) (mapInputs F.pt X) = getPriorMu p X := by
  cases p with
  | none => rfl
  | some f =>
    simp only [Frame.prior, getPriorMu, Option.map, mapInputs_inv]

theorem mapInputs_validate {l : ℕ} (f : Point d → Point d) (X : Inputs n d) (Y : Inputs l d) :
    validateCommonArgs (mapInputs f X) (mapInputs f Y) = validateCommonArgs X Y := by
  cases X <;> cases Y <;> rfl

theorem shift_predict (hF : F.IsShift) (X : Inputs n d) (Y : Fin n → ℝ) (Xs : Inputs m d)
    (K V : Matrix (Fin n) (Fin n) ℝ) (h : HypDict) (name : String) (p : PriorMu d) :
    predictWithCov (mapInputs F.pt X) Y (mapInputs F.pt Xs) K V h name (F.prior p) =
      predictWithCov X Y Xs K V h name p := by
  simp only [predictWithCov, mapInputs_validate, mapInputs_rank, frame_prior, shift_covMain hF]

theorem shift_tpPredict (hF : F.IsShift) (X : Inputs n d) (Y : Fin n → ℝ) (Xs : Inputs m d)
    (K V : Matrix (Fin n) (Fin n) ℝ) (h : HypDict) (name : String) (p : PriorMu d) :
    Tp.predictWithCov (mapInputs F.pt X) Y (mapInputs F.pt Xs) K V h name (F.prior p) =
      Tp.predictWithCov X Y Xs K V h name p := by
  simp only [Tp.predictWithCov, mapInputs_validate, mapInputs_rank, frame_prior, shift_covMain hF]

theorem shift_negLogMl (hF : F.IsShift) (X : Inputs n d) (Y : Fin n → ℝ) (v : List Flt)
    (name : String) (μ : Fin n → ℝ) (ard fix ch ug : Bool) :
    negLogMl (mapInputs F.pt X) Y v name μ ard fix ch ug = negLogMl X Y v name μ ard fix ch ug := by
  simp only [negLogMl, mapInputs_rank, shift_kernelInverse hF, shift_kernelCholesky hF]

theorem shift_loocv (hF : F.IsShift) (X : Inputs n d) (Y : Fin n → ℝ) (v : List Flt)
    (name : String) (μ : Fin n → ℝ) (fix : Bool) :
    negLogPseudoLLoocv (mapInputs F.pt X) Y v name μ fix = negLogPseudoLLoocv X Y v name μ fix := by
  simp only [negLogPseudoLLoocv, mapInputs_rank, shift_kernelInverse hF]

theorem shift_tpNegLogMl (hF : F.IsShift) (X : Inputs n d) (Y : Fin n → ℝ) (v : List Flt)
    (name : String) (μ : Fin n → ℝ) (ard fix ug : Bool) :
    Tp.negLogMl (mapInputs F.pt X) Y v name μ ard fix ug = Tp.negLogMl X Y v name μ ard fix ug := by
  simp only [Tp.negLogMl, mapInputs_rank, shift_kernelInverse hF]

theorem shift_optimizedKernel (hF : F.IsShift) (mini : Minimize) (X : Inputs n d) (Y : Fin n → ℝ)
    (p : PriorMu d) (name om ms : String) (ard fix : Bool) :
    getOptimizedKernel mini (mapInputs F.pt X) Y (F.prior p) name om ms ard fix =
      getOptimizedKernel mini X Y p name om ms ard fix := by
  simp only [getOptimizedKernel, mapInputs_rank, frame_prior, shift_negLogMl hF, shift_loocv hF,
    shift_kernelInverse hF]

theorem shift_tpOptimizedKernel (hF : F.IsShift) (mini : Minimize) (X : Inputs n d)
    (Y : Fin n → ℝ) (p : PriorMu d) (name om : String) (ard fix : Bool) :
    Tp.getOptimizedKernel mini (mapInputs F.pt X) Y (F.prior p) name om ard fix =
      Tp.getOptimizedKernel mini X Y p name om ard fix := by
  simp only [Tp.getOptimizedKernel, mapInputs_rank, frame_prior, shift_tpNegLogMl hF,
    shift_kernelInverse hF]

/-! ### The search for the next point -/

theorem frame_bestByEvaluation (F : Frame d) (pts : List (Point d)) (f : Point d → Py Flt) :
    getBestAcquisitionByEvaluation (pts.map F.pt) f =
      (getBestAcquisitionByEvaluation pts fun x => f (F.pt x)).map (List.map F.pt) := by
  have key : ∀ (pts : List (Point d)) (st : Flt × Option (Point d)),
      (pts.map F.pt).foldlM (fun (st : Flt × Option (Point d)) initial =>
        (do
          let acq_val ← f initial
          if acq_val < st.1 then return (acq_val, some initial) else return st :
          Py (Flt × Option (Point d))))
        (st.1, st.2.map F.pt) =
      Except.map (fun r : Flt × Option (Point d) => (r.1, r.2.map F.pt))
        (pts.foldlM (fun (st : Flt × Option (Point d)) initial =>
        (do
          let acq_val ← f (F.pt initial)
          if acq_val < st.1 then return (acq_val, some initial) else return st :
          Py (Flt × Option (Point d)))) st) := by
    intro pts
    induction pts with
    | nil => intro st; rfl
    | cons p pts ih =>
      intro st
      simp only [List.map_cons, List.foldlM_cons, bind, Except.bind]
      rcases f (F.pt p) with e | a
      · rfl
      · simp only
        split_ifs
        · exact ih (a, some p)
        · exact ih st
  have h := key pts (Flt.pinf, none)
  simp only [Option.map_none] at h
  unfold getBestAcquisitionByEvaluation
  rw [h]
  rcases pts.foldlM _ _ with e | ⟨a, _ | p⟩ <;> rfl

theorem frame_mapM (F : Frame d) {f g : Point d → Py (Point d)}
    (h : ∀ x, f (F.pt x) = (g x).map F.pt) (pts : List (Point d)) :
    (pts.map F.pt).mapM f = (pts.mapM g).map (List.map F.pt) := by
  induction pts with
  | nil => rfl
  | cons p pts ih =>
    simp only [List.map_cons, List.mapM_cons, ih, h, bind, Except.bind]
    rcases g p with e | a
    · rfl
    · simp only [Except.map]
      rcases pts.mapM g with e | a <;> rfl

/-- A surrogate object of the base class in the new coordinates. -/
noncomputable def frameBase (F : Frame d) (bo : BaseBO d) : BaseBO d :=
  { bo with range_X := F.bounds bo.range_X }

theorem shift_candidates (hF : F.IsShift) (bo : BaseBO d) (o : Oracles d) (f : Point d → Py Flt)
    (sm : String) (ns : ℤ) :
    candidates (frameBase F bo) (F.oracles o) f sm ns =
      (candidates bo o (fun x => f (F.pt x)) sm ns).map (List.map F.pt) := by
  have hw : (∑ i, ((F.bounds bo.range_X i).2 - (F.bounds bo.range_X i).1)) =
      ∑ i, ((bo.range_X i).2 - (bo.range_X i).1) := by
    refine Finset.sum_congr rfl fun i _ => ?_
    simp only [Frame.bounds, hF i]
    ring
  simp only [candidates, frameBase, frame_samples, hw, Frame.oracles]
  split_ifs
  · rcases getSamples bo.range_X o.draws sm ns with e | pts
    · rfl
    · simp only [Except.map, bind, Except.bind]
      refine frame_mapM F (fun x => ?_) pts
      rw [frame_inv_pt, frame_boundsInv]
      rcases o.lbfgsb (fun y => f (F.pt y)) x bo.range_X with e | p <;> rfl
  · rw [frame_boundsInv]
    rcases o.direct (fun x => f (F.pt x)) bo.range_X with e | p <;> rfl
  · rcases getSamples bo.range_X o.draws sm 1 with e | pts <;> rfl
  · rcases getSamples bo.range_X o.draws sm 1 with e | pts
    · rfl
    · simp only [Except.map, bind, Except.bind, pure, Except.pure]
      rcases pts with _ | ⟨p, pts⟩
      · rfl
      · have h1 : pyIndex ((p :: pts).map F.pt) 0 = .ok (F.pt p) := rfl
        have h2 : pyIndex (p :: pts) 0 = .ok p := rfl
        simp only [h1, h2]
        rw [frame_inv_pt, frame_boundsInv]
        rcases o.cma (fun x => f (F.pt x)) p _ bo.range_X with e | p <;> rfl
  · rfl

theorem shift_optimizeAcq (hF : F.IsShift) (bo : BaseBO d) (o : Oracles d) (f : Point d → Py Flt)
    (sm : String) (ns : ℤ) :
    optimizeAcq (frameBase F bo) (F.oracles o) f sm ns =
      (optimizeAcq bo o (fun x => f (F.pt x)) sm ns).map fun r => (F.pt r.1, r.2.map F.pt) := by
  simp only [optimizeAcq, shift_candidates hF]
  rcases candidates bo o (fun x => f (F.pt x)) sm ns with e | pts
  · rfl
  · simp only [Except.map, bind, Except.bind, ne_eq, List.map_eq_nil_iff,
      frame_bestByEvaluation]
    rcases pyAssert (¬pts = []) with e | _
    · rfl
    · simp only
      rcases getBestAcquisitionByEvaluation pts fun x => f (F.pt x) with e | best
      · rfl
      · rcases best with _ | ⟨b, best⟩ <;> rfl

end Verif.Lemmas
