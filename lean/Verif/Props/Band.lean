import Verif.Lemmas.Band
import Verif.Props.GpPosterior
import Verif.Props.Figures
import Verif.Props.Regret

/-! # How often the true value lies in the predicted band (C115) -/

namespace Verif.Props

open Verif.Spec Verif.Covariance Verif.UtilsCovariance Verif.Lemmas Verif.Gp Verif.Acquisition
  Verif.Constants
open Matrix hiding gram
open MeasureTheory ProbabilityTheory WithLp

section

variable {n m d : ℕ} {name base : String} {X : Inputs n d} {Xs : Inputs m d} {h : HypDict}
  {σ s : ℝ} {l : Fin d → ℝ} {prior : PriorMu d} {μ : Fin n → ℝ} {μs : Fin m → ℝ}
  {Ω : Type} [MeasurableSpace Ω] {P : Measure Ω} [IsProbabilityMeasure P] {y : Fin n → Ω → ℝ}
  {f : Fin m → Ω → ℝ}

private theorem standardise (a v t : ℝ) (ht : 0 < t) (hv : v = t ^ 2) :
    (gaussianReal a v.toNNReal).map (fun z => (z - a) / t) = gaussianReal 0 1 := by
  have e : (fun z : ℝ => (z - a) / t) = (· / t) ∘ (· - a) := rfl
  rw [e, ← Measure.map_map (by fun_prop) (by fun_prop), gaussianReal_map_sub_const,
    gaussianReal_map_div_const, sub_self, zero_div]
  congr 1
  rw [← NNReal.coe_inj, NNReal.coe_div, Real.coe_toNNReal v (hv ▸ sq_nonneg t), hv]
  simp only [NNReal.coe_mk, NNReal.coe_one]
  exact div_self (by positivity)

theorem band_predicted (hX : Suits name base X) (hXs : Suits name base Xs)
    (hd : Describes h σ s l) (hμ : getPriorMu prior X = .ok μ) (hμs : getPriorMu prior Xs = .ok μs)
    {mu : (Fin n → ℝ) → Fin m → ℝ} {sd : Fin m → ℝ} {S : Matrix (Fin m) (Fin m) ℝ}
    (hp : ∀ Y, predictWithHyps X Y Xs h name prior = .ok (mu Y, sd, S)) :
    Measurable mu ∧ (∀ j, S j j = sd j ^ 2 ∧ 0 < sd j) ∧ S.PosSemidef := by
  refine ⟨?_, fun j => ?_, ?_⟩
  · have e : mu = fun Y => postMean base σ s l X Xs (Y - μ) + μs := by
      funext Y
      have := (hp Y).symm.trans (predictWithHyps_ok hX hXs hd Y hμ hμs)
      simp only [Except.ok.injEq, Prod.mk.injEq] at this
      exact this.1
    rw [e, measurable_pi_iff]
    intro j
    simp only [postMean, Matrix.mulVec, dotProduct, Pi.add_apply, Pi.sub_apply]
    fun_prop
  · obtain ⟨_, _, _, h1, -, -, -, h2⟩ := C32_posterior_covariance hX hXs hd 0 hμ hμs
    have := (hp 0).symm.trans h1
    simp only [Except.ok.injEq, Prod.mk.injEq] at this
    obtain ⟨-, rfl, rfl⟩ := this
    exact ⟨(h2 j).2.2.1.symm, (h2 j).2.2.2⟩
  · have := (hp 0).symm.trans (predictWithHyps_ok hX hXs hd 0 hμ hμs)
    simp only [Except.ok.injEq, Prod.mk.injEq] at this
    obtain ⟨-, -, rfl⟩ := this
    exact (postCov_posDef base σ s l X Xs).posSemidef

/-- C115: under the Gaussian process prior, the distance of a test value from the predicted mean, in
units of the predicted deviation, is standard normal: for almost every vector of responses given
these, and without any condition. -/
theorem C115_standard (hX : Suits name base X) (hXs : Suits name base Xs)
    (hd : Describes h σ s l) (hμ : getPriorMu prior X = .ok μ) (hμs : getPriorMu prior Xs = .ok μs)
    (hP : GaussianPrior P base σ s l X Xs μ μs y f)
    {mu : (Fin n → ℝ) → Fin m → ℝ} {sd : Fin m → ℝ} {S : Matrix (Fin m) (Fin m) ℝ}
    (hp : ∀ Y, predictWithHyps X Y Xs h name prior = .ok (mu Y, sd, S)) (j : Fin m) :
    (∀ᵐ Y ∂P.map (fun ω i => y i ω),
      (condDistrib (fun ω => toLp 2 (fun j => f j ω)) (fun ω i => y i ω) P Y).map
        (fun v => (v j - mu Y j) / sd j) = gaussianReal 0 1) ∧
    P.map (fun ω => (f j ω - mu (fun i => y i ω) j) / sd j) = gaussianReal 0 1 := by
  obtain ⟨hm, hsd, hS⟩ := band_predicted hX hXs hd hμ hμs hp
  have hc : ∀ᵐ Y ∂P.map (fun ω i => y i ω),
      (condDistrib (fun ω => toLp 2 (fun j => f j ω)) (fun ω i => y i ω) P Y).map
        (fun v => (v j - mu Y j) / sd j) = gaussianReal 0 1 := by
    obtain ⟨mu', sd', S', h1, -, h2⟩ := C67_exact_posterior hX hXs hd hμ hμs hP
    filter_upwards [h2] with Y hY
    have := (hp Y).symm.trans (h1 Y)
    simp only [Except.ok.injEq, Prod.mk.injEq] at this
    obtain ⟨e1, -, rfl⟩ := this
    rw [hY, ← e1]
    have e : (fun v : EuclideanSpace ℝ (Fin m) => (v j - mu Y j) / sd j) =
        (fun z : ℝ => (z - mu Y j) / sd j) ∘ fun v => v j := rfl
    have hev := measurePreserving_eval_multivariateGaussian (μ := toLp 2 (mu Y)) hS (i := j)
    rw [e, ← Measure.map_map (by fun_prop) (by fun_prop), hev.map_eq]
    exact standardise _ _ _ (hsd j).2 (hsd j).1
  refine ⟨hc, ?_⟩
  have hlaw := hP.law.aemeasurable
  have hy : AEMeasurable (fun ω i => y i ω) P := measurable_fst.comp_aemeasurable hlaw
  have hf : AEMeasurable (fun ω j => f j ω) P := measurable_snd.comp_aemeasurable hlaw
  have hf' : AEMeasurable (fun ω => toLp 2 (fun j => f j ω)) P :=
    (by fun_prop : Measurable fun v : Fin m → ℝ => toLp 2 v).comp_aemeasurable hf
  have hg : Measurable fun p : (Fin n → ℝ) × EuclideanSpace ℝ (Fin m) =>
      (p.2 j - mu p.1 j) / sd j := by
    have h1 : Measurable fun p : (Fin n → ℝ) × EuclideanSpace ℝ (Fin m) => mu p.1 j :=
      (measurable_pi_apply j).comp (hm.comp measurable_fst)
    have h2 : Measurable fun p : (Fin n → ℝ) × EuclideanSpace ℝ (Fin m) => p.2 j := by fun_prop
    exact (h2.sub h1).div_const _
  have e : (fun ω => (f j ω - mu (fun i => y i ω) j) / sd j) =
      (fun p : (Fin n → ℝ) × EuclideanSpace ℝ (Fin m) => (p.2 j - mu p.1 j) / sd j) ∘
        fun ω => (fun i => y i ω, toLp 2 (fun j => f j ω)) := rfl
  have hpair : AEMeasurable (fun ω => ((fun i => y i ω), toLp 2 (fun j => f j ω))) P :=
    hy.prodMk hf'
  rw [e, ← AEMeasurable.map_map_of_aemeasurable hg.aemeasurable hpair,
    ← compProd_map_condDistrib hf']
  ext A hA
  rw [Measure.map_apply hg hA, Measure.compProd_apply (hg hA)]
  have hpr : IsProbabilityMeasure (P.map fun ω i => y i ω) := Measure.isProbabilityMeasure_map hy
  calc ∫⁻ Y, _ ∂P.map (fun ω i => y i ω) = ∫⁻ _, gaussianReal 0 1 A ∂P.map (fun ω i => y i ω) := by
        refine lintegral_congr_ae ?_
        filter_upwards [hc] with Y hY
        rw [← hY, Measure.map_apply (by fun_prop) hA]
        rfl
    _ = _ := by simp

private theorem within_iff {v a t c : ℝ} (ht : 0 < t) :
    |v - a| ≤ c * t ↔ (v - a) / t ∈ Set.Icc (-c) c := by
  rw [Set.mem_Icc, abs_le, le_div_iff₀ ht, div_le_iff₀ ht, neg_mul]

private theorem meas_standard (hX : Suits name base X) (hXs : Suits name base Xs)
    (hd : Describes h σ s l) (hμ : getPriorMu prior X = .ok μ) (hμs : getPriorMu prior Xs = .ok μs)
    (hP : GaussianPrior P base σ s l X Xs μ μs y f)
    {mu : (Fin n → ℝ) → Fin m → ℝ} {sd : Fin m → ℝ} {S : Matrix (Fin m) (Fin m) ℝ}
    (hp : ∀ Y, predictWithHyps X Y Xs h name prior = .ok (mu Y, sd, S)) (j : Fin m) :
    AEMeasurable (fun ω => (f j ω - mu (fun i => y i ω) j) / sd j) P := by
  obtain ⟨hm, -, -⟩ := band_predicted hX hXs hd hμ hμs hp
  have hlaw := hP.law.aemeasurable
  have hy : AEMeasurable (fun ω i => y i ω) P := measurable_fst.comp_aemeasurable hlaw
  have hf : AEMeasurable (fun ω j => f j ω) P := measurable_snd.comp_aemeasurable hlaw
  have h1 : AEMeasurable (fun ω => f j ω) P := (measurable_pi_apply j).comp_aemeasurable hf
  have h2 : AEMeasurable (fun ω => mu (fun i => y i ω) j) P :=
    ((measurable_pi_apply j).comp hm).comp_aemeasurable hy
  exact (h1.sub h2).div_const _

/-- C115: the band of `c` predicted deviations around the predicted mean contains the test value with
probability `2 Phi c - 1`, given almost every vector of responses, and over all. -/
theorem C115_band (hX : Suits name base X) (hXs : Suits name base Xs)
    (hd : Describes h σ s l) (hμ : getPriorMu prior X = .ok μ) (hμs : getPriorMu prior Xs = .ok μs)
    (hP : GaussianPrior P base σ s l X Xs μ μs y f)
    {mu : (Fin n → ℝ) → Fin m → ℝ} {sd : Fin m → ℝ} {S : Matrix (Fin m) (Fin m) ℝ}
    (hp : ∀ Y, predictWithHyps X Y Xs h name prior = .ok (mu Y, sd, S)) (j : Fin m) {c : ℝ}
    (hc : 0 ≤ c) :
    (∀ᵐ Y ∂P.map (fun ω i => y i ω),
      condDistrib (fun ω => toLp 2 (fun j => f j ω)) (fun ω i => y i ω) P Y
        {v | |v j - mu Y j| ≤ c * sd j} = ENNReal.ofReal (2 * Phi c - 1)) ∧
    P {ω | |f j ω - mu (fun i => y i ω) j| ≤ c * sd j} = ENNReal.ofReal (2 * Phi c - 1) := by
  obtain ⟨h1, h2⟩ := C115_standard hX hXs hd hμ hμs hP hp j
  obtain ⟨-, hsd, -⟩ := band_predicted hX hXs hd hμ hμs hp
  simp only [within_iff (hsd j).2]
  refine ⟨?_, ?_⟩
  · filter_upwards [h1] with Y hY
    rw [← normal_icc hc, ← hY, Measure.map_apply (by fun_prop) measurableSet_Icc]
    rfl
  · rw [← normal_icc hc, ← h2, Measure.map_apply_of_aemeasurable
      (meas_standard hX hXs hd hμ hμs hP hp j) measurableSet_Icc]
    rfl

/-- C115: all test values lie in their bands together with probability at least
`1 - m (2 - 2 Phi c)`. -/
theorem C115_all (hX : Suits name base X) (hXs : Suits name base Xs)
    (hd : Describes h σ s l) (hμ : getPriorMu prior X = .ok μ) (hμs : getPriorMu prior Xs = .ok μs)
    (hP : GaussianPrior P base σ s l X Xs μ μs y f)
    {mu : (Fin n → ℝ) → Fin m → ℝ} {sd : Fin m → ℝ} {S : Matrix (Fin m) (Fin m) ℝ}
    (hp : ∀ Y, predictWithHyps X Y Xs h name prior = .ok (mu Y, sd, S)) {c : ℝ} (hc : 0 ≤ c) :
    ENNReal.ofReal (1 - m * (2 - 2 * Phi c)) ≤
      P {ω | ∀ j, |f j ω - mu (fun i => y i ω) j| ≤ c * sd j} := by
  obtain ⟨-, hsd, -⟩ := band_predicted hX hXs hd hμ hμs hp
  have hn : ∀ j, NullMeasurableSet {ω | |f j ω - mu (fun i => y i ω) j| ≤ c * sd j} P := by
    intro j
    simp only [within_iff (hsd j).2]
    exact (meas_standard hX hXs hd hμ hμs hP hp j).nullMeasurableSet_preimage measurableSet_Icc
  have e : {ω | ∀ j, |f j ω - mu (fun i => y i ω) j| ≤ c * sd j} =
      ⋂ j, {ω | |f j ω - mu (fun i => y i ω) j| ≤ c * sd j} := by
    ext ω
    simp
  have hq : 0 ≤ 2 - 2 * Phi c := by linarith [phi_le_one c]
  have hcompl : P {ω | ∀ j, |f j ω - mu (fun i => y i ω) j| ≤ c * sd j}ᶜ ≤
      ENNReal.ofReal (m * (2 - 2 * Phi c)) := by
    rw [e, Set.compl_iInter]
    refine (measure_iUnion_fintype_le _ _).trans ?_
    have : ∀ j : Fin m, P {ω | |f j ω - mu (fun i => y i ω) j| ≤ c * sd j}ᶜ =
        ENNReal.ofReal (2 - 2 * Phi c) := by
      intro j
      rw [prob_compl_eq_one_sub₀ (hn j), (C115_band hX hXs hd hμ hμs hP hp j hc).2,
        ← ENNReal.ofReal_one, ← ENNReal.ofReal_sub _ (phi_band_nonneg hc)]
      congr 1
      ring
    simp only [this, Finset.sum_const, Finset.card_univ, Fintype.card_fin, nsmul_eq_mul]
    rw [ENNReal.ofReal_mul (Nat.cast_nonneg m), ENNReal.ofReal_natCast]
  have hN : NullMeasurableSet {ω | ∀ j, |f j ω - mu (fun i => y i ω) j| ≤ c * sd j} P := by
    rw [e]
    exact NullMeasurableSet.iInter hn
  rw [prob_compl_eq_one_sub₀ hN] at hcompl
  rw [ENNReal.ofReal_sub _ (by positivity), ENNReal.ofReal_one]
  exact tsub_le_iff_tsub_le.1 hcompl

/-- C115: so a choice by the upper confidence bound, among test points that include the point of
comparison, has small regret with high probability: if for all responses the chosen test point `i`
(which may depend on them) scores at least as much as `j`, then its value exceeds that of `j` by at
most twice its weighted deviation, with probability at least `1 - m (2 - 2 Phi k)`, `k` the weight. -/
theorem C115_regret (hX : Suits name base X) (hXs : Suits name base Xs)
    (hd : Describes h σ s l) (hμ : getPriorMu prior X = .ok μ) (hμs : getPriorMu prior Xs = .ok μs)
    (hP : GaussianPrior P base σ s l X Xs μ μs y f)
    {mu : (Fin n → ℝ) → Fin m → ℝ} {sd : Fin m → ℝ} {S : Matrix (Fin m) (Fin m) ℝ}
    (hp : ∀ Y, predictWithHyps X Y Xs h name prior = .ok (mu Y, sd, S)) {kappa : ℝ} (hk : 0 ≤ kappa)
    (grow : Bool) {vals : (Fin n → ℝ) → Fin m → ℝ}
    (hu : ∀ Y, ucb (List.ofFn (mu Y)) (List.ofFn sd) (some (List.ofFn Y)) kappa grow =
      .ok (List.ofFn (vals Y))) (i : (Fin n → ℝ) → Fin m) (hi : ∀ Y j, vals Y j ≤ vals Y (i Y)) :
    ENNReal.ofReal (1 - m * (2 - 2 * Phi (confidenceWeight kappa grow n))) ≤
      P {ω | ∀ j, f (i fun k => y k ω) ω - f j ω ≤
        2 * confidenceWeight kappa grow n * sd (i fun k => y k ω)} := by
  have hw : 0 ≤ confidenceWeight kappa grow n := by
    rw [confidenceWeight]
    split_ifs
    · exact mul_nonneg hk (Real.log_nonneg (by linarith [(Nat.cast_nonneg n : (0 : ℝ) ≤ n)]))
    · exact hk
  refine (C115_all hX hXs hd hμ hμs hP hp hw).trans (measure_mono fun ω hω j => ?_)
  have hat : ∀ k, At (List.ofFn (mu fun i => y i ω)) (List.ofFn sd)
      (List.ofFn (vals fun i => y i ω)) (mu (fun i => y i ω) k) (sd k) (vals (fun i => y i ω) k) :=
    fun k => ⟨k, by simp, by simp, by simp⟩
  have hl : (List.ofFn fun i => y i ω).length = n := by simp
  have := C114_step (hu fun i => y i ω) (hat (i fun k => y k ω)) (hat j) (δ := 0)
    (by linarith [hi (fun i => y i ω) j]) (f := f (i fun k => y k ω) ω) (f' := f j ω)
    (by rw [hl]; exact hω _) (by rw [hl]; exact hω j)
  rw [hl] at this
  linarith

end

/-- C115: the band that `plot_gp_via_distribution` shades by default contains the true value, at each
test input, with probability `2 Phi 1.96 - 1`, which is 95 percent up to one hundredth of a percent. -/
theorem C115_figure {n m : ℕ} {name base : String} {X : Inputs n 1} {Xs : Inputs m 1} {h : HypDict}
    {σ s : ℝ} {l : Fin 1 → ℝ} {prior : PriorMu 1} {μ : Fin n → ℝ} {μs : Fin m → ℝ}
    {Ω : Type} [MeasurableSpace Ω] {P : Measure Ω} [IsProbabilityMeasure P] {y : Fin n → Ω → ℝ}
    {f : Fin m → Ω → ℝ} (hX : Suits name base X) (hXs : Suits name base Xs)
    (hd : Describes h σ s l) (hμ : getPriorMu prior X = .ok μ) (hμs : getPriorMu prior Xs = .ok μs)
    (hP : GaussianPrior P base σ s l X Xs μ μs y f)
    {mu : (Fin n → ℝ) → Fin m → ℝ} {sd : Fin m → ℝ} {S : Matrix (Fin m) (Fin m) ℝ}
    (hp : ∀ Y, predictWithHyps X Y Xs h name prior = .ok (mu Y, sd, S))
    {xs xt : List ℝ} {o : UtilsPlotting.PlotOptions} (ho : o.range_shade = 1.96)
    {colors : List String} {fig : Ω → UtilsPlotting.Figure}
    (hfig : ∀ ω, UtilsPlotting.plotGpViaDistribution true (col xs) (col (List.ofFn fun i => y i ω))
      (col xt) (col (List.ofFn (mu fun i => y i ω))) (col (List.ofFn sd))
      (some (col (List.ofFn fun j => f j ω))) o colors = .ok (some (fig ω))) (j : Fin m) :
    P {ω | ∃ ax x lower upper, (fig ω).axes = [ax] ∧
        (shaded ax)[(j : ℕ)]? = some (x, .fin lower, .fin upper) ∧ xt[(j : ℕ)]? = some x ∧
        lower ≤ f j ω ∧ f j ω ≤ upper} = ENNReal.ofReal (2 * Phi 1.96 - 1) ∧
      0.9499 < 2 * Phi 1.96 - 1 ∧ 2 * Phi 1.96 - 1 < 0.9501 := by
  refine ⟨?_, band_number⟩
  rw [← (C115_band hX hXs hd hμ hμs hP hp j (c := 1.96) (by norm_num)).2]
  congr 1
  ext ω
  obtain ⟨xs', ys', xt', m', s', ax, -, -, e3, e4, e5, -, h7, h8, h9, -, -, h12, -⟩ :=
    C86_distribution (hfig ω)
  have hcol : ∀ {a b : List ℝ}, col a = col b → a = b := by
    intro a b hab
    rw [← flatten_col a, hab, flatten_col]
  obtain rfl := hcol e3
  obtain rfl := hcol e4
  obtain rfl := hcol e5
  have hj : (j : ℕ) < xt.length := by
    rw [h7]
    simp
  have hsh : (shaded ax)[(j : ℕ)]? = some (xt[(j : ℕ)], Flt.fin (mu (fun i => y i ω) j - 1.96 * sd j),
      Flt.fin (mu (fun i => y i ω) j + 1.96 * sd j)) := by
    rw [h12, ho]
    simp [List.getElem?_zipWith, hj]
  simp only [Set.mem_setOf_eq, abs_le]
  constructor
  · rintro ⟨ax', x, lo, up, ha, hs, -, h1, h2⟩
    rw [h9] at ha
    simp only [List.cons.injEq, and_true] at ha
    subst ha
    rw [hsh] at hs
    simp only [Option.some.injEq, Prod.mk.injEq, Flt.fin.injEq] at hs
    obtain ⟨-, rfl, rfl⟩ := hs
    constructor <;> linarith
  · rintro ⟨h1, h2⟩
    exact ⟨ax, _, _, _, h9, hsh, by simp [hj], by linarith, by linarith⟩

/-- Three observed and two test inputs, and the figure of the prediction. -/
example : ∃ (Ω : Type) (_ : MeasurableSpace Ω) (P : Measure Ω) (y : Fin 3 → Ω → ℝ)
    (f : Fin 2 → Ω → ℝ) (h : HypDict) (mu : (Fin 3 → ℝ) → Fin 2 → ℝ) (sd : Fin 2 → ℝ)
    (S : Matrix (Fin 2) (Fin 2) ℝ) (fig : Ω → UtilsPlotting.Figure) (vals : (Fin 3 → ℝ) → Fin 2 → ℝ)
    (i : (Fin 3 → ℝ) → Fin 2), IsProbabilityMeasure P ∧
    Describes h GP_NOISE 2 (fun _ : Fin 1 => 3) ∧
    GaussianPrior P "matern32" GP_NOISE 2 (fun _ : Fin 1 => 3)
      (.vec fun (i : Fin 3) (_ : Fin 1) => ((i : ℕ) : ℝ))
      (.vec fun (i : Fin 2) (_ : Fin 1) => ((i : ℕ) : ℝ) + 1 / 2) 0 0 y f ∧
    (∀ Y, predictWithHyps (.vec fun (i : Fin 3) (_ : Fin 1) => ((i : ℕ) : ℝ)) Y
      (.vec fun (i : Fin 2) (_ : Fin 1) => ((i : ℕ) : ℝ) + 1 / 2) h "matern32" none =
        .ok (mu Y, sd, S)) ∧
    (∀ ω, UtilsPlotting.plotGpViaDistribution true (col [0, 1, 2]) (col (List.ofFn fun i => y i ω))
      (col [1 / 2, 3 / 2]) (col (List.ofFn (mu fun i => y i ω))) (col (List.ofFn sd))
      (some (col (List.ofFn fun j => f j ω))) {} = .ok (some (fig ω))) ∧
    (∀ Y, ucb (List.ofFn (mu Y)) (List.ofFn sd) (some (List.ofFn Y)) 2 true =
      .ok (List.ofFn (vals Y))) ∧ ∀ Y j, vals Y j ≤ vals Y (i Y) := by
  have hb : "matern32" ∈ baseNames := by simp [baseNames]
  have hd : Describes ⟨some (.flt (.fin GP_NOISE)), none, some (.flt (.fin 2)), some (.arr [.fin 3])⟩
      GP_NOISE 2 (fun _ : Fin 1 => 3) := ⟨rfl, rfl, .inl rfl, by intro; norm_num⟩
  have hv : ∀ {n : ℕ} (v : Fin n → Point 1), Suits "matern32" "matern32" (.vec v) :=
    fun v => ⟨hb, .inl ⟨rfl, _, rfl⟩⟩
  obtain ⟨Ω, i1, P, y, f, hpr, hP⟩ := C67_prior_exists (n := 3) (m := 2) "matern32" GP_NOISE 2
    (fun _ : Fin 1 => 3) (.vec fun (i : Fin 3) (_ : Fin 1) => ((i : ℕ) : ℝ))
    (.vec fun (i : Fin 2) (_ : Fin 1) => ((i : ℕ) : ℝ) + 1 / 2) 0 0
  obtain ⟨mu, sd, S, h1, -, -⟩ := C67_exact_posterior (hv _) (hv _) hd (prior := none) rfl rfl hP
  have hfig : ∀ ω, ∃ fig, UtilsPlotting.plotGpViaDistribution true (col [0, 1, 2])
      (col (List.ofFn fun i => y i ω)) (col [1 / 2, 3 / 2]) (col (List.ofFn (mu fun i => y i ω)))
      (col (List.ofFn sd)) (some (col (List.ofFn fun j => f j ω))) {} = .ok (some fig) := by
    intro ω
    obtain ⟨r, hr, hs⟩ := C86_total_distribution true [0, 1, 2] (List.ofFn fun i => y i ω)
      [1 / 2, 3 / 2] (List.ofFn (mu fun i => y i ω)) (List.ofFn sd) (some (List.ofFn fun j => f j ω))
      {} UtilsPlotting.COLORS (by simp) (by simp) (by simp) (by simp) (by simp)
      (by simp [UtilsPlotting.COLORS])
    obtain ⟨fig, rfl⟩ := Option.isSome_iff_exists.1 hs
    exact ⟨fig, hr⟩
  choose fig hfig using hfig
  refine ⟨Ω, i1, P, y, f, _, mu, sd, S, fig,
    fun Y j => -mu Y j + 2 * Real.log ((3 : ℕ) + 1) * sd j,
    fun Y => if -mu Y 0 + 2 * Real.log ((3 : ℕ) + 1) * sd 0 ≤
      -mu Y 1 + 2 * Real.log ((3 : ℕ) + 1) * sd 1 then 1 else 0, hpr, hd, hP, h1, hfig, fun Y => ?_,
    fun Y j => ?_⟩
  · simp [ucb, pyAssert, bind, Except.bind, pure, Except.pure]
  · dsimp only
    split_ifs with hle
    · fin_cases j
      · exact hle
      · exact le_rfl
    · push Not at hle
      fin_cases j
      · exact le_rfl
      · exact hle.le

end Verif.Props
