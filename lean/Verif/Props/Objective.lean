import Verif.Lemmas.Objective
import Verif.Props.Total
import Verif.Props.Tp
import Verif.Props.Trees

/-! C98: what the search for the next point maximises. C99: predictions far from the data. -/

namespace Verif.Props

open Verif.Spec Verif.Lemmas Verif.Covariance Verif.UtilsCovariance Verif.Constants Verif.BaseBo
open Verif.BoCommon Verif.UtilsBo
open Matrix hiding gram

variable {n d : ℕ}

/-! ### C98 -/

/-- C98: with a Gaussian process the acquisition values are those of one continuous function, whatever
the array of candidates, and this function has a best point in the box. -/
theorem C98_gp {bo : BoWGp.BOwGP d} (hcov : bo.str_cov ∈ baseNames)
    (hacq : bo.str_acq ∈ ALLOWED_BO_ACQ) (hB : ∀ i, (bo.range_X i).1 ≤ (bo.range_X i).2)
    {p : Point d → ℝ} (hp : PriorIs bo.prior_mu p) (hpc : Continuous p) (hn : n ≠ 0)
    (X : Fin n → Point d) (Y : Fin n → ℝ) {fit : BoCommon.Fit n} {σ s : ℝ} {l : Fin d → ℝ}
    (hd : Describes fit.2.2 σ s l) (hσ : bo.str_acq = "aei" → σ ≠ 0) :
    ∃ a : Point d → ℝ, Continuous a ∧
      (∀ pts : List (Point d),
        BoWGp.computeAcquisitions bo (.vec pts.get) (.vec X) Y fit = .ok (pts.map a)) ∧
      ∃ x, BestInBox bo.range_X a x := by
  have hY : List.ofFn Y ≠ [] := by simpa [List.ofFn_eq_nil_iff] using hn
  obtain ⟨a, hc, -, f, hf, hv⟩ := objective_of_post hacq hσ hY
    (m := meanAt bo.str_cov s l X fit.2.1 (fun i => Y i - p (X i)) p)
    (s := fun x => √(max (varAt bo.str_cov s l X fit.2.1 x) 0)) (fun x => Real.sqrt_nonneg _)
  have hca : Continuous a := hc (continuous_meanAt _ _ _ _ _ _ hpc)
    (Real.continuous_sqrt.comp ((continuous_varAt ..).max continuous_const))
  refine ⟨a, hca, fun pts => ?_, bestInBox_of_continuous hB hca⟩
  obtain ⟨S, -, hS⟩ := predictWithCov_at hcov X Y pts.get fit.1 fit.2.1 hd hp
  obtain ⟨v, h1, h2⟩ := hv pts
  have hm := ofFn_get_map (meanAt bo.str_cov s l X fit.2.1 (fun i => Y i - p (X i)) p) pts
  have hsd := ofFn_get_map (fun x => √(max (varAt bo.str_cov s l X fit.2.1 x) 0)) pts
  simp only [BoWGp.computeAcquisitions, BoWGp.computePosteriors, Gp.validateCommonArgs,
    noiseArg_describes hd, hf, hS, hm, hsd, h1, h2, bind, Except.bind, pure, Except.pure]

/-- C98: the same with a Student-t process. -/
theorem C98_tp {bo : BoWTp.BOwTP d} (hcov : bo.str_cov ∈ baseNames)
    (hacq : bo.str_acq ∈ ALLOWED_BO_ACQ) (hB : ∀ i, (bo.range_X i).1 ≤ (bo.range_X i).2)
    {p : Point d → ℝ} (hp : PriorIs bo.prior_mu p) (hpc : Continuous p) (hn : n ≠ 0)
    (X : Fin n → Point d) (Y : Fin n → ℝ) {fit : BoCommon.Fit n} {σ s ν : ℝ} {l : Fin d → ℝ}
    (hd : Describes fit.2.2 σ s l) (hν : 2 < ν) (hdof : fit.2.2.dof = some (.flt (.fin ν)))
    (hσ : bo.str_acq = "aei" → σ ≠ 0) :
    ∃ a : Point d → ℝ, Continuous a ∧
      (∀ pts : List (Point d),
        BoWTp.computeAcquisitions bo (.vec pts.get) (.vec X) Y fit = .ok (pts.map a)) ∧
      ∃ x, BestInBox bo.range_X a x := by
  have hY : List.ofFn Y ≠ [] := by simpa [List.ofFn_eq_nil_iff] using hn
  set c : ℝ := (ν - 2 + (Y - fun i => p (X i)) ⬝ᵥ (fit.2.1 *ᵥ (Y - fun i => p (X i)))) /
    (ν - 2 + n) with hcdef
  obtain ⟨a, hc, -, f, hf, hv⟩ := objective_of_post hacq hσ hY
    (m := meanAt bo.str_cov s l X fit.2.1 (fun i => Y i - p (X i)) p)
    (s := fun x => √(max (c * varAt bo.str_cov s l X fit.2.1 x) 0)) (fun x => Real.sqrt_nonneg _)
  have hca : Continuous a := hc (continuous_meanAt _ _ _ _ _ _ hpc)
    (Real.continuous_sqrt.comp ((continuous_const.mul (continuous_varAt ..)).max continuous_const))
  refine ⟨a, hca, fun pts => ?_, bestInBox_of_continuous hB hca⟩
  obtain ⟨S, hSv, hS⟩ := predictWithCov_at hcov X Y pts.get fit.1 fit.2.1 hd hp
  obtain ⟨μ, c', hμ, hc', ht⟩ := (C39_predict_with_cov (.vec X) Y (.vec pts.get) fit.1 fit.2.1
    fit.2.2 bo.str_cov bo.prior_mu hν hdof).2 _ _ _ hS
  rw [hp] at hμ
  obtain rfl := Except.ok.inj hμ
  rw [← hcdef] at hc'
  subst hc'
  simp only [hSv] at ht
  obtain ⟨v, h1, h2⟩ := hv pts
  have hm := ofFn_get_map (meanAt bo.str_cov s l X fit.2.1 (fun i => Y i - p (X i)) p) pts
  have hsd := ofFn_get_map (fun x => √(max (c * varAt bo.str_cov s l X fit.2.1 x) 0)) pts
  simp only [BoWTp.computeAcquisitions, BoWTp.computePosteriors, Gp.validateCommonArgs,
    noiseArg_describes hd, hf, ht, hm, hsd, h1, h2, bind, Except.bind, pure, Except.pure]

/-- C98: with a forest the function takes finitely many values only, and has a best point in the
box. -/
theorem C98_forest {bo : BaseBO d} (hacq : bo.str_acq ∈ ALLOWED_BO_ACQ)
    (hB : ∀ i, (bo.range_X i).1 ≤ (bo.range_X i).2) {X : List (Point d)} {Y : List ℝ}
    (hl : X.length = Y.length) (hY : Y ≠ []) {dm : ℤ} {trees : List (Trees.Tree d)}
    (hf : SoundForest X Y dm trees) (hne : trees ≠ []) :
    ∃ a : Point d → ℝ, (Set.range a).Finite ∧
      (∀ pts, BoWTrees.computeAcquisitions bo pts X Y trees = .ok (pts.map a)) ∧
      ∃ x, BestInBox bo.range_X a x := by
  obtain ⟨lo, hlo⟩ : ∃ lo, ∀ y ∈ Y, lo ≤ y := by
    obtain ⟨b, hb⟩ := (Set.Finite.bddBelow (List.finite_toSet Y))
    exact ⟨b, fun y hy => hb hy⟩
  obtain ⟨hi, hhi⟩ : ∃ hi, ∀ y ∈ Y, y ≤ hi := by
    obtain ⟨b, hb⟩ := (Set.Finite.bddAbove (List.finite_toSet Y))
    exact ⟨b, fun y hy => hb hy⟩
  choose mu sd hps using fun x => C51_range hf hne (fun y hy => ⟨hlo y hy, hhi y hy⟩) x
  obtain ⟨a, -, hfin, f, hch, hv⟩ := objective_of_post hacq (e := GP_NOISE)
    (fun _ => by norm_num [GP_NOISE]) hY (m := mu) (s := sd) (fun x => (hps x).2.2.2.1)
  have hr : (Set.range fun x => (mu x, sd x)).Finite := by
    refine ((forest_finite trees).preimage (f := fun v : ℝ × ℝ => (.ok v : Py (ℝ × ℝ)))
      (fun _ _ _ _ h => Except.ok.inj h)).subset ?_
    rintro _ ⟨x, rfl⟩
    exact ⟨x, (hps x).1⟩
  refine ⟨a, hfin hr, fun pts => ?_, bestInBox_of_finite hB (hfin hr)⟩
  obtain ⟨v, h1, h2⟩ := hv pts
  have hm : pts.mapM (fun bx => Trees.predictByTreesOne bx trees) =
      .ok (pts.map fun x => (mu x, sd x)) := Trees.mapM_ok _ _ _ fun x _ => (hps x).1
  simp only [BoWTrees.computeAcquisitions, BoWTrees.computePosteriors, C52_rowwise, hm, pyAssert, hl,
    if_true, hch, List.map_map, Function.comp_def, bind, Except.bind, pure, Except.pure]
  rw [h1, ← h2]

/-- Hypotheses of C98 met: five calls of the examples' models. -/
example (X : Fin 3 → Point 2) (Y : Fin 3 → ℝ) (K P : Matrix (Fin 3) (Fin 3) ℝ) :
    (∃ a x, Continuous a ∧ BestInBox exBox a x ∧ BoWGp.computeAcquisitions exBo
      (.vec [x].get) (.vec X) Y (K, P, ⟨some (.flt (.fin 0)), none, some (.flt (.fin 2)),
        some (.flt (.fin 3))⟩) = .ok [a x]) ∧
    ∃ a x, Continuous a ∧ BestInBox exBox a x ∧ BoWTp.computeAcquisitions exBoT
      (.vec [x].get) (.vec X) Y (K, P, ⟨some (.flt (.fin 1)), some (.flt (.fin 5)),
        some (.flt (.fin 2)), some (.flt (.fin 3))⟩) = .ok [a x] := by
  have hp : PriorIs (none : Gp.PriorMu 2) fun _ => 0 := fun _ _ => rfl
  constructor
  · obtain ⟨a, h1, h2, x, h3⟩ := C98_gp (bo := exBo) (by simp [exBo, baseNames]) (by decide)
      exBox_le hp continuous_const (by norm_num) X Y
      (fit := (K, P, ⟨some (.flt (.fin 0)), none, some (.flt (.fin 2)), some (.flt (.fin 3))⟩))
      (σ := 0) (s := 2) (l := fun _ => 3)
      ⟨rfl, rfl, .inr ⟨3, by norm_num, fun _ => rfl, rfl⟩, fun _ => by norm_num⟩
      (by simp [exBo])
    exact ⟨a, x, h1, h3, h2 [x]⟩
  · obtain ⟨a, h1, h2, x, h3⟩ := C98_tp (bo := exBoT) (by simp [exBoT, baseNames]) (by decide)
      exBox_le hp continuous_const (by norm_num) X Y
      (fit := (K, P, ⟨some (.flt (.fin 1)), some (.flt (.fin 5)), some (.flt (.fin 2)),
        some (.flt (.fin 3))⟩))
      (σ := 1) (s := 2) (ν := 5) (l := fun _ => 3)
      ⟨rfl, rfl, .inr ⟨3, by norm_num, fun _ => rfl, rfl⟩, fun _ => by norm_num⟩ (by norm_num) rfl
      (by simp)
    exact ⟨a, x, h1, h3, h2 [x]⟩

/-- A forest of the examples. -/
example : ∃ trees a x, BestInBox exBox a x ∧ (Set.range a).Finite ∧
    BoWTrees.computeAcquisitions exBoF [x] [![0, 0], ![1, 1], ![5, 5]] [3, 4, 9] trees =
      .ok [a x] := by
  obtain ⟨trees, -, h2, h3⟩ := C53_random_forest exForest_ok
    (X := [![0, 0], ![1, 1], ![5, 5]]) (Y := [3, 4, 9]) (by simp) (by simp) (nf := 1)
    (by norm_num) (by norm_num) 10 5 1
  obtain ⟨a, h4, h5, x, h6⟩ := C98_forest (bo := exBoF) (by decide) exBox_le (by simp) (by simp) h3
    (by rintro rfl; simp at h2)
  exact ⟨trees, a, x, h6, h4, h5 [x]⟩

/-! ### C99 -/

private theorem priorCov_self_nonneg {m : ℕ} (base : String) (s : ℝ) (l : Fin d → ℝ)
    (Xs : Inputs m d) (j : Fin m) : 0 ≤ priorCov base s l Xs j j := by
  have : 0 ≤ itemKernel base s l (item Xs j) (item Xs j) :=
    (itemKernel_bound (δ := s ^ 2) (sq_nonneg s) fun a b => kernel_le ..).1
  simp only [priorCov, if_true]
  linarith

/-- C99: far from all training inputs the prediction returns to the prior, uniformly in the test
inputs: means, standard deviations and covariances. -/
theorem C99_gp {name base : String} {X : Inputs n d} (hX : Suits name base X) {h : HypDict}
    {σ s : ℝ} {l : Fin d → ℝ} (hd : Describes h σ s l) {prior : Gp.PriorMu d} {μ : Fin n → ℝ}
    (hμ : Gp.getPriorMu prior X = .ok μ) (Y : Fin n → ℝ) {ε : ℝ} (hε : 0 < ε) :
    ∃ R, ∀ (m : ℕ) (Xs : Inputs m d) (μs : Fin m → ℝ), Suits name base Xs →
      Gp.getPriorMu prior Xs = .ok μs → FarRows R l X Xs →
      ∃ mu sd S, Gp.predictWithHyps X Y Xs h name prior = .ok (mu, sd, S) ∧
        (∀ j, |mu j - μs j| < ε) ∧ (∀ j, |sd j - √(priorCov base s l Xs j j)| < ε) ∧
        ∀ j j', |S j j' - priorCov base s l Xs j j'| < ε := by
  obtain ⟨R, hR⟩ := post_far base σ s l X (Y - μ) (ε := min ε (ε ^ 2)) (lt_min hε (by positivity))
  refine ⟨R, fun m Xs μs hXs hμs hf => ⟨_, _, _, predictWithHyps_ok hX hXs hd Y hμ hμs, ?_, ?_, ?_⟩⟩
  · intro j
    rw [Pi.add_apply, add_sub_cancel_right]
    exact ((hR m Xs hf).1 j).trans_le (min_le_left _ _)
  · intro j
    exact sqrt_near (priorCov_self_nonneg ..) hε (((hR m Xs hf).2 j j).trans_le (min_le_right _ _))
  · intro j j'
    exact ((hR m Xs hf).2 j j').trans_le (min_le_left _ _)

/-- C99: the same for the Student-t process, where all covariances keep the factor `c` that the
observations give. -/
theorem C99_tp {name base : String} {X : Inputs n d} (hX : Suits name base X) {h : HypDict}
    {σ s : ℝ} {l : Fin d → ℝ} (hd : Describes h σ s l) {ν : ℝ} (hν : 2 < ν)
    (hdof : h.dof = some (.flt (.fin ν))) {prior : Gp.PriorMu d} {μ : Fin n → ℝ}
    (hμ : Gp.getPriorMu prior X = .ok μ) (Y : Fin n → ℝ) :
    ∃ c : ℝ, c = (ν - 2 + (Y - μ) ⬝ᵥ ((noisyGram base σ s l X)⁻¹ *ᵥ (Y - μ))) / (ν - 2 + n) ∧ 0 < c ∧
    ∀ ε : ℝ, 0 < ε →
    ∃ R, ∀ (m : ℕ) (Xs : Inputs m d) (μs : Fin m → ℝ), Suits name base Xs →
      Gp.getPriorMu prior Xs = .ok μs → FarRows R l X Xs →
      ∃ mu sd S, Tp.predictWithHyps X Y Xs h name prior = .ok (ν + n, mu, sd, S) ∧
        (∀ j, |mu j - μs j| < ε) ∧ (∀ j, |sd j - √(c * priorCov base s l Xs j j)| < ε) ∧
        ∀ j j', |S j j' - c * priorCov base s l Xs j j'| < ε := by
  have hn0 : (0 : ℝ) ≤ n := Nat.cast_nonneg n
  have hm := misfit_nonneg (noisyGram_posDef base σ s l X) (Y - μ)
  have hc0 : 0 < (ν + misfit (noisyGram base σ s l X) (Y - μ) - 2) / (ν + n - 2) :=
    div_pos (by linarith) (by linarith)
  have hceq : (ν + misfit (noisyGram base σ s l X) (Y - μ) - 2) / (ν + n - 2) =
      (ν - 2 + (Y - μ) ⬝ᵥ ((noisyGram base σ s l X)⁻¹ *ᵥ (Y - μ))) / (ν - 2 + n) := by
    rw [misfit]
    congr 1 <;> ring
  set c := (ν + misfit (noisyGram base σ s l X) (Y - μ) - 2) / (ν + n - 2) with hc
  refine ⟨c, hceq, hc0, fun ε hε => ?_⟩
  obtain ⟨R, hR⟩ := post_far base σ s l X (Y - μ) (ε := min ε (min ε (ε ^ 2) / c))
    (lt_min hε (div_pos (lt_min hε (by positivity)) hc0))
  have hcov : ∀ {m : ℕ} {Xs : Inputs m d} (hf : FarRows R l X Xs) (j j' : Fin m),
      |(c • postCov base σ s l X Xs) j j' - c * priorCov base s l Xs j j'| < min ε (ε ^ 2) := by
    intro m Xs hf j j'
    rw [Matrix.smul_apply, smul_eq_mul, ← mul_sub, abs_mul, abs_of_pos hc0, mul_comm,
      ← lt_div_iff₀ hc0]
    exact ((hR m Xs hf).2 j j').trans_le (min_le_right _ _)
  refine ⟨R, fun m Xs μs hXs hμs hf => ⟨_, _, _, tpPredictWithHyps_ok hX hXs hd hν hdof Y hμ hμs,
    ?_, ?_, ?_⟩⟩
  · intro j
    rw [Pi.add_apply, add_sub_cancel_right]
    exact ((hR m Xs hf).1 j).trans_le (min_le_left _ _)
  · intro j
    exact sqrt_near (mul_nonneg hc0.le (priorCov_self_nonneg ..)) hε
      ((hcov hf j j).trans_le (min_le_right _ _))
  · intro j j'
    exact (hcov hf j j').trans_le (min_le_left _ _)

/-- C99 at work: test inputs that meet the hypotheses exist for every distance, and there the mean is
close to the prior mean 0 although all responses are large. -/
example : ∃ (x : ℝ) (mu sd : Fin 1 → ℝ) (S : Matrix (Fin 1) (Fin 1) ℝ),
    Gp.predictWithHyps exTrain3 ![100, 200, 400] (.vec fun _ _ => x : Inputs 1 1) exHyps "matern32"
      none = .ok (mu, sd, S) ∧ |mu 0| < 1 / 1000 ∧ |sd 0 - √(4 + 1 / 100000)| < 1 / 1000 := by
  obtain ⟨R, hR⟩ := C99_gp exTrain3_suits exHyps_describes (prior := none) (μ := 0) rfl
    ![100, 200, 400] (ε := 1 / 1000) (by norm_num)
  obtain ⟨mu, sd, S, h1, h2, h3, -⟩ := hR 1 (.vec fun _ _ => 5 + 3 * |R|) 0
    (vec_suits (by simp [baseNames]) _) rfl (by
      intro i j a b
      simp only [item, exTrain3, scaledDistance]
      refine Real.le_sqrt_of_sq_le ?_
      simp only [Finset.univ_unique, Finset.sum_singleton]
      have : ((5 : ℝ) - (5 + 3 * |R|)) / 3 = -|R| := by ring
      rw [this, neg_sq, sq_abs])
  refine ⟨_, mu, sd, S, h1, by simpa using h2 0, ?_⟩
  have hp : priorCov "matern32" 2 (fun _ : Fin 1 => 3)
      (.vec fun (_ : Fin 1) _ => 5 + 3 * |R|) 0 0 = 4 + 1 / 100000 := by
    rw [priorCov, itemKernel_vec, kernel_self]
    norm_num
  have := h3 0
  rwa [hp] at this

end Verif.Props
