import Verif.Lemmas.StudentBand
import Verif.Props.Band
import Verif.Props.Tp

/-! # How often the true value lies in the band that a Student-t process predicts (C151) -/

namespace Verif.Props

open Verif.Spec Verif.Covariance Verif.UtilsCovariance Verif.Lemmas Verif.Acquisition
  Verif.Constants
open Matrix hiding gram
open MeasureTheory ProbabilityTheory

section

variable {n m d : ℕ} {name base : String} {X : Inputs n d} {Xs : Inputs m d} {h : HypDict}
  {σ s ν : ℝ} {l : Fin d → ℝ} {prior : Gp.PriorMu d} {μ : Fin n → ℝ} {μs : Fin m → ℝ}
  {Ω : Type} [MeasurableSpace Ω] {P : Measure Ω} [IsProbabilityMeasure P] {y : Fin n → Ω → ℝ}
  {f : Fin m → Ω → ℝ}

theorem student_band_predicted (hX : Suits name base X) (hXs : Suits name base Xs)
    (hd : Describes h σ s l) (hν : 2 < ν) (hdof : h.dof = some (.flt (.fin ν)))
    (hμ : Gp.getPriorMu prior X = .ok μ) (hμs : Gp.getPriorMu prior Xs = .ok μs)
    {nu : (Fin n → ℝ) → ℝ} {mu sd : (Fin n → ℝ) → Fin m → ℝ}
    {S : (Fin n → ℝ) → Matrix (Fin m) (Fin m) ℝ}
    (hp : ∀ Y, Tp.predictWithHyps X Y Xs h name prior = .ok (nu Y, mu Y, sd Y, S Y)) :
    Measurable mu ∧ Measurable sd ∧ (∀ Y, nu Y = ν + n) ∧
      ∀ Y j, S Y j j = sd Y j ^ 2 ∧ 0 < sd Y j := by
  have hpd := noisyGram_posDef base σ s l X
  have hn : (0 : ℝ) ≤ n := Nat.cast_nonneg n
  have hS := postCov_posDef base σ s l X Xs
  have hc : ∀ Y, 0 < (ν + misfit (noisyGram base σ s l X) (Y - μ) - 2) / (ν + n - 2) := fun Y =>
    div_pos (by linarith [misfit_nonneg hpd (Y - μ)]) (by linarith)
  have e : ∀ Y, nu Y = ν + n ∧ mu Y = postMean base σ s l X Xs (Y - μ) + μs ∧
      (sd Y = fun i => √(max ((((ν + misfit (noisyGram base σ s l X) (Y - μ) - 2) / (ν + n - 2)) •
        postCov base σ s l X Xs) i i) 0)) ∧
      S Y = ((ν + misfit (noisyGram base σ s l X) (Y - μ) - 2) / (ν + n - 2)) •
        postCov base σ s l X Xs := by
    intro Y
    have := (hp Y).symm.trans (tpPredictWithHyps_ok hX hXs hd hν hdof Y hμ hμs)
    simp only [Except.ok.injEq, Prod.mk.injEq] at this
    exact this
  refine ⟨?_, ?_, fun Y => (e Y).1, fun Y j => ?_⟩
  · rw [show mu = fun Y => postMean base σ s l X Xs (Y - μ) + μs from funext fun Y => (e Y).2.1,
      measurable_pi_iff]
    intro j
    simp only [postMean, Matrix.mulVec, dotProduct, Pi.add_apply, Pi.sub_apply]
    fun_prop
  · rw [show sd = _ from funext fun Y => (e Y).2.2.1, measurable_pi_iff]
    intro j
    simp only [Matrix.smul_apply, smul_eq_mul]
    have hq : Measurable fun Y : Fin n → ℝ => misfit (noisyGram base σ s l X) (Y - μ) :=
      measurable_quad μ _
    exact Real.continuous_sqrt.measurable.comp
      (((((hq.const_add ν).sub_const 2).div_const _).mul_const _).max measurable_const)
  · have hj : 0 < (S Y) j j := by
      rw [(e Y).2.2.2]
      exact (hS.smul (hc Y)).diag_pos
    have hs : sd Y j = √(S Y j j) := by
      rw [(e Y).2.2.1, ← (e Y).2.2.2]
      exact congrArg Real.sqrt (max_eq_left hj.le)
    rw [hs]
    exact ⟨(Real.sq_sqrt hj.le).symm, Real.sqrt_pos.2 hj⟩

/-- C151: under the Student-t process prior, the distance of a test value from the predicted mean, in
units of the predicted deviation, has the Student-t distribution with mean zero, variance one and as
many degrees of freedom as predicted: for almost every vector of responses given these, and without
any condition. -/
theorem C151_standard (hX : Suits name base X) (hXs : Suits name base Xs)
    (hd : Describes h σ s l) (hν : 2 < ν) (hdof : h.dof = some (.flt (.fin ν)))
    (hμ : Gp.getPriorMu prior X = .ok μ) (hμs : Gp.getPriorMu prior Xs = .ok μs)
    (hP : StudentPrior P ν base σ s l X Xs μ μs y f)
    {nu : (Fin n → ℝ) → ℝ} {mu sd : (Fin n → ℝ) → Fin m → ℝ}
    {S : (Fin n → ℝ) → Matrix (Fin m) (Fin m) ℝ}
    (hp : ∀ Y, Tp.predictWithHyps X Y Xs h name prior = .ok (nu Y, mu Y, sd Y, S Y)) (j : Fin m) :
    (∀ Y, nu Y = ν + n) ∧
    (∀ᵐ Y ∂P.map (fun ω i => y i ω),
      (condDistrib (fun ω j => f j ω) (fun ω i => y i ω) P Y).map
        (fun v => (v j - mu Y j) / sd Y j) = unitStudent (nu Y)) ∧
    P.map (fun ω => (f j ω - mu (fun i => y i ω) j) / sd (fun i => y i ω) j) =
      unitStudent (ν + n) := by
  obtain ⟨hm, hsm, hnu, hsd⟩ := student_band_predicted hX hXs hd hν hdof hμ hμs hp
  have hc : ∀ᵐ Y ∂P.map (fun ω i => y i ω),
      (condDistrib (fun ω j => f j ω) (fun ω i => y i ω) P Y).map
        (fun v => (v j - mu Y j) / sd Y j) = unitStudent (nu Y) := by
    obtain ⟨nu', mu', sd', S', h1, h2⟩ := C68_exact_posterior hX hXs hd hν hdof hμ hμs hP
    filter_upwards [h2] with Y hY
    have := (hp Y).symm.trans (h1 Y).1
    simp only [Except.ok.injEq, Prod.mk.injEq] at this
    obtain ⟨e1, e2, -, e4⟩ := this
    rw [hY, ← e1, ← e2, ← e4]
    exact studentT_standard (e1 ▸ (h1 Y).2.2) _ (e4 ▸ (h1 Y).2.1) j (hsd Y j).2 (hsd Y j).1
  refine ⟨hnu, hc, ?_⟩
  have hy : AEMeasurable (fun ω i => y i ω) P := (studentPrior_cov hP).1
  have hf : AEMeasurable (fun ω j => f j ω) P := (studentPrior_cov hP).2.1
  have hg : Measurable fun p : (Fin n → ℝ) × (Fin m → ℝ) => (p.2 j - mu p.1 j) / sd p.1 j := by
    have h1 : Measurable fun p : (Fin n → ℝ) × (Fin m → ℝ) => mu p.1 j :=
      (measurable_pi_apply j).comp (hm.comp measurable_fst)
    have h3 : Measurable fun p : (Fin n → ℝ) × (Fin m → ℝ) => sd p.1 j :=
      (measurable_pi_apply j).comp (hsm.comp measurable_fst)
    have h2 : Measurable fun p : (Fin n → ℝ) × (Fin m → ℝ) => p.2 j := by fun_prop
    exact (h2.sub h1).div h3
  have e : (fun ω => (f j ω - mu (fun i => y i ω) j) / sd (fun i => y i ω) j) =
      (fun p : (Fin n → ℝ) × (Fin m → ℝ) => (p.2 j - mu p.1 j) / sd p.1 j) ∘
        fun ω => (fun i => y i ω, fun j => f j ω) := rfl
  have hpair : AEMeasurable (fun ω => ((fun i => y i ω), fun j => f j ω)) P := hy.prodMk hf
  rw [e, ← AEMeasurable.map_map_of_aemeasurable hg.aemeasurable hpair,
    ← compProd_map_condDistrib hf]
  ext A hA
  rw [Measure.map_apply hg hA, Measure.compProd_apply (hg hA)]
  have hpr : IsProbabilityMeasure (P.map fun ω i => y i ω) := Measure.isProbabilityMeasure_map hy
  calc ∫⁻ Y, _ ∂P.map (fun ω i => y i ω) =
        ∫⁻ _, unitStudent (ν + n) A ∂P.map (fun ω i => y i ω) := by
        refine lintegral_congr_ae ?_
        filter_upwards [hc] with Y hY
        rw [← hnu Y, ← hY, Measure.map_apply (by fun_prop) hA]
        rfl
    _ = _ := by simp

private theorem within_iff' {v a t c : ℝ} (ht : 0 < t) :
    |v - a| ≤ c * t ↔ (v - a) / t ∈ Set.Icc (-c) c := by
  rw [Set.mem_Icc, abs_le, le_div_iff₀ ht, div_le_iff₀ ht, neg_mul]

private theorem meas_student (hX : Suits name base X) (hXs : Suits name base Xs)
    (hd : Describes h σ s l) (hν : 2 < ν) (hdof : h.dof = some (.flt (.fin ν)))
    (hμ : Gp.getPriorMu prior X = .ok μ) (hμs : Gp.getPriorMu prior Xs = .ok μs)
    (hP : StudentPrior P ν base σ s l X Xs μ μs y f)
    {nu : (Fin n → ℝ) → ℝ} {mu sd : (Fin n → ℝ) → Fin m → ℝ}
    {S : (Fin n → ℝ) → Matrix (Fin m) (Fin m) ℝ}
    (hp : ∀ Y, Tp.predictWithHyps X Y Xs h name prior = .ok (nu Y, mu Y, sd Y, S Y)) (j : Fin m) :
    AEMeasurable (fun ω => (f j ω - mu (fun i => y i ω) j) / sd (fun i => y i ω) j) P := by
  obtain ⟨hm, hsm, -, -⟩ := student_band_predicted hX hXs hd hν hdof hμ hμs hp
  have hy : AEMeasurable (fun ω i => y i ω) P := (studentPrior_cov hP).1
  have hf : AEMeasurable (fun ω j => f j ω) P := (studentPrior_cov hP).2.1
  have h1 : AEMeasurable (fun ω => f j ω) P := (measurable_pi_apply j).comp_aemeasurable hf
  have h2 : AEMeasurable (fun ω => mu (fun i => y i ω) j) P :=
    ((measurable_pi_apply j).comp hm).comp_aemeasurable hy
  have h3 : AEMeasurable (fun ω => sd (fun i => y i ω) j) P :=
    ((measurable_pi_apply j).comp hsm).comp_aemeasurable hy
  exact (h1.sub h2).div h3

/-- C151: the band of `c` predicted deviations around the predicted mean contains the test value with
the probability that a Student-t number with mean zero, variance one and the predicted degrees of
freedom lies between `-c` and `c`, given almost every vector of responses, and over all; this is at
least `1 - 0.37 / c ^ 2`. -/
theorem C151_band (hX : Suits name base X) (hXs : Suits name base Xs)
    (hd : Describes h σ s l) (hν : 2 < ν) (hdof : h.dof = some (.flt (.fin ν)))
    (hμ : Gp.getPriorMu prior X = .ok μ) (hμs : Gp.getPriorMu prior Xs = .ok μs)
    (hP : StudentPrior P ν base σ s l X Xs μ μs y f)
    {nu : (Fin n → ℝ) → ℝ} {mu sd : (Fin n → ℝ) → Fin m → ℝ}
    {S : (Fin n → ℝ) → Matrix (Fin m) (Fin m) ℝ}
    (hp : ∀ Y, Tp.predictWithHyps X Y Xs h name prior = .ok (nu Y, mu Y, sd Y, S Y)) (j : Fin m)
    {c : ℝ} (hc : 0 < c) :
    (∀ᵐ Y ∂P.map (fun ω i => y i ω),
      condDistrib (fun ω j => f j ω) (fun ω i => y i ω) P Y
        {v | |v j - mu Y j| ≤ c * sd Y j} = unitStudent (ν + n) (Set.Icc (-c) c)) ∧
    P {ω | |f j ω - mu (fun i => y i ω) j| ≤ c * sd (fun i => y i ω) j} =
      unitStudent (ν + n) (Set.Icc (-c) c) ∧
    ENNReal.ofReal (1 - 0.37 / c ^ 2) ≤ unitStudent (ν + n) (Set.Icc (-c) c) := by
  obtain ⟨h0, h1, h2⟩ := C151_standard hX hXs hd hν hdof hμ hμs hP hp j
  obtain ⟨-, -, -, hsd⟩ := student_band_predicted hX hXs hd hν hdof hμ hμs hp
  have hn : (0 : ℝ) ≤ n := Nat.cast_nonneg n
  have hν' : 2 < ν + n := by linarith
  simp only [within_iff' (hsd _ j).2]
  refine ⟨?_, ?_, ?_⟩
  · filter_upwards [h1] with Y hY
    rw [← h0 Y, ← hY, Measure.map_apply (by fun_prop) measurableSet_Icc]
    rfl
  · rw [← h2, Measure.map_apply_of_aemeasurable
      (meas_student hX hXs hd hν hdof hμ hμs hP hp j) measurableSet_Icc]
    rfl
  · have := isProbabilityMeasure_unitStudent hν'
    have ht := unitStudent_tail hν' hc
    rw [prob_compl_eq_one_sub measurableSet_Icc] at ht
    rw [ENNReal.ofReal_sub _ (by positivity), ENNReal.ofReal_one]
    exact tsub_le_iff_tsub_le.1 ht

/-- C151: as the degrees of freedom of the prior grow, this probability becomes the one for a
Gaussian process, `2 Phi c - 1`, whatever the number of observations. -/
theorem C151_limit (n : ℕ) {c : ℝ} (hc : 0 ≤ c) :
    Filter.Tendsto (fun ν : ℝ => unitStudent (ν + n) (Set.Icc (-c) c)) Filter.atTop
      (nhds (ENNReal.ofReal (2 * Phi c - 1))) :=
  (tendsto_unitStudent hc).comp (Filter.tendsto_atTop_add_const_right _ _ Filter.tendsto_id)

/-- C151: and so it does as the number of observations grows, whatever the prior degrees of
freedom. -/
theorem C151_many (ν : ℝ) {c : ℝ} (hc : 0 ≤ c) :
    Filter.Tendsto (fun n : ℕ => unitStudent (ν + n) (Set.Icc (-c) c)) Filter.atTop
      (nhds (ENNReal.ofReal (2 * Phi c - 1))) :=
  (tendsto_unitStudent hc).comp
    (Filter.tendsto_atTop_add_const_left _ _ tendsto_natCast_atTop_atTop)

/-- C151: all test values lie in their bands together with probability at least
`1 - m * 0.37 / c ^ 2`. -/
theorem C151_all (hX : Suits name base X) (hXs : Suits name base Xs)
    (hd : Describes h σ s l) (hν : 2 < ν) (hdof : h.dof = some (.flt (.fin ν)))
    (hμ : Gp.getPriorMu prior X = .ok μ) (hμs : Gp.getPriorMu prior Xs = .ok μs)
    (hP : StudentPrior P ν base σ s l X Xs μ μs y f)
    {nu : (Fin n → ℝ) → ℝ} {mu sd : (Fin n → ℝ) → Fin m → ℝ}
    {S : (Fin n → ℝ) → Matrix (Fin m) (Fin m) ℝ}
    (hp : ∀ Y, Tp.predictWithHyps X Y Xs h name prior = .ok (nu Y, mu Y, sd Y, S Y))
    {c : ℝ} (hc : 0 < c) :
    ENNReal.ofReal (1 - m * (0.37 / c ^ 2)) ≤
      P {ω | ∀ j, |f j ω - mu (fun i => y i ω) j| ≤ c * sd (fun i => y i ω) j} := by
  obtain ⟨-, -, -, hsd⟩ := student_band_predicted hX hXs hd hν hdof hμ hμs hp
  have hn : ∀ j, NullMeasurableSet
      {ω | |f j ω - mu (fun i => y i ω) j| ≤ c * sd (fun i => y i ω) j} P := by
    intro j
    simp only [within_iff' (hsd _ j).2]
    exact (meas_student hX hXs hd hν hdof hμ hμs hP hp j).nullMeasurableSet_preimage
      measurableSet_Icc
  have e : {ω | ∀ j, |f j ω - mu (fun i => y i ω) j| ≤ c * sd (fun i => y i ω) j} =
      ⋂ j, {ω | |f j ω - mu (fun i => y i ω) j| ≤ c * sd (fun i => y i ω) j} := by
    ext ω
    simp
  have hcompl : P {ω | ∀ j, |f j ω - mu (fun i => y i ω) j| ≤ c * sd (fun i => y i ω) j}ᶜ ≤
      ENNReal.ofReal (m * (0.37 / c ^ 2)) := by
    rw [e, Set.compl_iInter]
    refine (measure_iUnion_fintype_le _ _).trans ?_
    have : ∀ j : Fin m, P {ω | |f j ω - mu (fun i => y i ω) j| ≤ c * sd (fun i => y i ω) j}ᶜ ≤
        ENNReal.ofReal (0.37 / c ^ 2) := by
      intro j
      obtain ⟨-, h2, h3⟩ := C151_band hX hXs hd hν hdof hμ hμs hP hp j hc
      rw [prob_compl_eq_one_sub₀ (hn j), h2]
      rw [ENNReal.ofReal_sub _ (by positivity), ENNReal.ofReal_one] at h3
      exact tsub_le_iff_tsub_le.1 h3
    refine (Finset.sum_le_sum fun j _ => this j).trans (le_of_eq ?_)
    simp only [Finset.sum_const, Finset.card_univ, Fintype.card_fin, nsmul_eq_mul]
    rw [ENNReal.ofReal_mul (Nat.cast_nonneg m), ENNReal.ofReal_natCast]
  have hN : NullMeasurableSet
      {ω | ∀ j, |f j ω - mu (fun i => y i ω) j| ≤ c * sd (fun i => y i ω) j} P := by
    rw [e]
    exact NullMeasurableSet.iInter hn
  rw [prob_compl_eq_one_sub₀ hN] at hcompl
  rw [ENNReal.ofReal_sub _ (by positivity), ENNReal.ofReal_one]
  exact tsub_le_iff_tsub_le.1 hcompl

/-- C151: so a choice by the upper confidence bound among the test points has small regret with high
probability, as for C115: its value exceeds that of every other test point by at most twice its
weighted deviation, with probability at least `1 - m * 0.37 / k ^ 2`, `k` the weight. -/
theorem C151_regret (hX : Suits name base X) (hXs : Suits name base Xs)
    (hd : Describes h σ s l) (hν : 2 < ν) (hdof : h.dof = some (.flt (.fin ν)))
    (hμ : Gp.getPriorMu prior X = .ok μ) (hμs : Gp.getPriorMu prior Xs = .ok μs)
    (hP : StudentPrior P ν base σ s l X Xs μ μs y f)
    {nu : (Fin n → ℝ) → ℝ} {mu sd : (Fin n → ℝ) → Fin m → ℝ}
    {S : (Fin n → ℝ) → Matrix (Fin m) (Fin m) ℝ}
    (hp : ∀ Y, Tp.predictWithHyps X Y Xs h name prior = .ok (nu Y, mu Y, sd Y, S Y))
    {kappa : ℝ} (grow : Bool) (hw : 0 < confidenceWeight kappa grow n)
    {vals : (Fin n → ℝ) → Fin m → ℝ}
    (hu : ∀ Y, ucb (List.ofFn (mu Y)) (List.ofFn (sd Y)) (some (List.ofFn Y)) kappa grow =
      .ok (List.ofFn (vals Y))) (i : (Fin n → ℝ) → Fin m) (hi : ∀ Y j, vals Y j ≤ vals Y (i Y)) :
    ENNReal.ofReal (1 - m * (0.37 / confidenceWeight kappa grow n ^ 2)) ≤
      P {ω | ∀ j, f (i fun k => y k ω) ω - f j ω ≤
        2 * confidenceWeight kappa grow n * sd (fun k => y k ω) (i fun k => y k ω)} := by
  refine (C151_all hX hXs hd hν hdof hμ hμs hP hp hw).trans (measure_mono fun ω hω j => ?_)
  have hat : ∀ k, At (List.ofFn (mu fun i => y i ω)) (List.ofFn (sd fun i => y i ω))
      (List.ofFn (vals fun i => y i ω)) (mu (fun i => y i ω) k) (sd (fun i => y i ω) k)
      (vals (fun i => y i ω) k) :=
    fun k => ⟨k, by simp, by simp, by simp⟩
  have hl : (List.ofFn fun i => y i ω).length = n := by simp
  have := C114_step (hu fun i => y i ω) (hat (i fun k => y k ω)) (hat j) (δ := 0)
    (by linarith [hi (fun i => y i ω) j]) (f := f (i fun k => y k ω) ω) (f' := f j ω)
    (by rw [hl]; exact hω _) (by rw [hl]; exact hω j)
  rw [hl] at this
  linarith

end

/-- C151: the band that `plot_gp_via_distribution` shades by default for the prediction of a Student-t
process contains the true value, at each test input, with probability more than 90 percent, whatever
the degrees of freedom. -/
theorem C151_figure {n m : ℕ} {name base : String} {X : Inputs n 1} {Xs : Inputs m 1} {h : HypDict}
    {σ s ν : ℝ} {l : Fin 1 → ℝ} {prior : Gp.PriorMu 1} {μ : Fin n → ℝ} {μs : Fin m → ℝ}
    {Ω : Type} [MeasurableSpace Ω] {P : Measure Ω} [IsProbabilityMeasure P] {y : Fin n → Ω → ℝ}
    {f : Fin m → Ω → ℝ} (hX : Suits name base X) (hXs : Suits name base Xs)
    (hd : Describes h σ s l) (hν : 2 < ν) (hdof : h.dof = some (.flt (.fin ν)))
    (hμ : Gp.getPriorMu prior X = .ok μ) (hμs : Gp.getPriorMu prior Xs = .ok μs)
    (hP : StudentPrior P ν base σ s l X Xs μ μs y f)
    {nu : (Fin n → ℝ) → ℝ} {mu sd : (Fin n → ℝ) → Fin m → ℝ}
    {S : (Fin n → ℝ) → Matrix (Fin m) (Fin m) ℝ}
    (hp : ∀ Y, Tp.predictWithHyps X Y Xs h name prior = .ok (nu Y, mu Y, sd Y, S Y))
    {xs xt : List ℝ} {o : UtilsPlotting.PlotOptions} (ho : o.range_shade = 1.96)
    {colors : List String} {fig : Ω → UtilsPlotting.Figure}
    (hfig : ∀ ω, UtilsPlotting.plotGpViaDistribution true (col xs) (col (List.ofFn fun i => y i ω))
      (col xt) (col (List.ofFn (mu fun i => y i ω))) (col (List.ofFn (sd fun i => y i ω)))
      (some (col (List.ofFn fun j => f j ω))) o colors = .ok (some (fig ω))) (j : Fin m) :
    ENNReal.ofReal 0.9 < P {ω | ∃ ax x lower upper, (fig ω).axes = [ax] ∧
        (shaded ax)[(j : ℕ)]? = some (x, .fin lower, .fin upper) ∧ xt[(j : ℕ)]? = some x ∧
        lower ≤ f j ω ∧ f j ω ≤ upper} := by
  obtain ⟨-, h2, h3⟩ := C151_band hX hXs hd hν hdof hμ hμs hP hp j (c := 1.96) (by norm_num)
  rw [← h2] at h3
  refine lt_of_lt_of_le ((ENNReal.ofReal_lt_ofReal_iff (by norm_num)).2 (by norm_num))
    (h3.trans (measure_mono fun ω hω => ?_))
  obtain ⟨xs', ys', xt', m', s', ax, -, -, e3, e4, e5, -, h7, h8, h9, -, -, h12, -⟩ :=
    C86_distribution (hfig ω)
  have hcol : ∀ {a b : List ℝ}, col a = col b → a = b := by
    intro a b hab
    rw [← flatten_col a, hab, flatten_col]
  obtain rfl := hcol e3
  obtain rfl := hcol e4
  obtain rfl := hcol e5
  have hj : (j : ℕ) < xt.length := by
    rw [h7]
    simp
  have hsh : (shaded ax)[(j : ℕ)]? = some (xt[(j : ℕ)],
      Flt.fin (mu (fun i => y i ω) j - 1.96 * sd (fun i => y i ω) j),
      Flt.fin (mu (fun i => y i ω) j + 1.96 * sd (fun i => y i ω) j)) := by
    rw [h12, ho]
    simp [List.getElem?_zipWith, hj]
  simp only [Set.mem_setOf_eq, abs_le] at hω
  exact ⟨ax, _, _, _, h9, hsh, by simp [hj], by linarith [hω.1], by linarith [hω.2]⟩

/-- Three observed and two test inputs, seven degrees of freedom, and the figure of the
prediction. -/
example : ∃ (Ω : Type) (_ : MeasurableSpace Ω) (P : Measure Ω) (y : Fin 3 → Ω → ℝ)
    (f : Fin 2 → Ω → ℝ) (h : HypDict) (nu : (Fin 3 → ℝ) → ℝ) (mu sd : (Fin 3 → ℝ) → Fin 2 → ℝ)
    (S : (Fin 3 → ℝ) → Matrix (Fin 2) (Fin 2) ℝ) (fig : Ω → UtilsPlotting.Figure)
    (vals : (Fin 3 → ℝ) → Fin 2 → ℝ) (i : (Fin 3 → ℝ) → Fin 2), IsProbabilityMeasure P ∧
    Describes h GP_NOISE 2 (fun _ : Fin 1 => 3) ∧ h.dof = some (.flt (.fin 7)) ∧
    StudentPrior P 7 "matern32" GP_NOISE 2 (fun _ : Fin 1 => 3)
      (.vec fun (i : Fin 3) (_ : Fin 1) => ((i : ℕ) : ℝ))
      (.vec fun (i : Fin 2) (_ : Fin 1) => ((i : ℕ) : ℝ) + 1 / 2) 0 0 y f ∧
    (∀ Y, Tp.predictWithHyps (.vec fun (i : Fin 3) (_ : Fin 1) => ((i : ℕ) : ℝ)) Y
      (.vec fun (i : Fin 2) (_ : Fin 1) => ((i : ℕ) : ℝ) + 1 / 2) h "matern32" none =
        .ok (nu Y, mu Y, sd Y, S Y)) ∧
    (∀ ω, UtilsPlotting.plotGpViaDistribution true (col [0, 1, 2]) (col (List.ofFn fun i => y i ω))
      (col [1 / 2, 3 / 2]) (col (List.ofFn (mu fun i => y i ω)))
      (col (List.ofFn (sd fun i => y i ω)))
      (some (col (List.ofFn fun j => f j ω))) {} = .ok (some (fig ω))) ∧
    (∀ Y, ucb (List.ofFn (mu Y)) (List.ofFn (sd Y)) (some (List.ofFn Y)) 2 true =
      .ok (List.ofFn (vals Y))) ∧ (∀ Y j, vals Y j ≤ vals Y (i Y)) ∧
    0 < confidenceWeight 2 true 3 := by
  have hb : "matern32" ∈ baseNames := by simp [baseNames]
  have hd : Describes ⟨some (.flt (.fin GP_NOISE)), some (.flt (.fin 7)), some (.flt (.fin 2)),
      some (.arr [.fin 3])⟩ GP_NOISE 2 (fun _ : Fin 1 => 3) := ⟨rfl, rfl, .inl rfl, by intro; norm_num⟩
  have hv : ∀ {n : ℕ} (v : Fin n → Point 1), Suits "matern32" "matern32" (.vec v) :=
    fun v => ⟨hb, .inl ⟨rfl, _, rfl⟩⟩
  obtain ⟨Ω, i1, P, y, f, hpr, hP⟩ := C68_prior_exists (n := 3) (m := 2) (ν := 7) (by norm_num)
    "matern32" GP_NOISE 2 (fun _ : Fin 1 => 3) (.vec fun (i : Fin 3) (_ : Fin 1) => ((i : ℕ) : ℝ))
    (.vec fun (i : Fin 2) (_ : Fin 1) => ((i : ℕ) : ℝ) + 1 / 2) 0 0
  obtain ⟨nu, mu, sd, S, h1, -⟩ := C68_exact_posterior (hv _) (hv _) hd (by norm_num) rfl
    (prior := none) rfl rfl hP
  have hfig : ∀ ω, ∃ fig, UtilsPlotting.plotGpViaDistribution true (col [0, 1, 2])
      (col (List.ofFn fun i => y i ω)) (col [1 / 2, 3 / 2]) (col (List.ofFn (mu fun i => y i ω)))
      (col (List.ofFn (sd fun i => y i ω))) (some (col (List.ofFn fun j => f j ω))) {} =
        .ok (some fig) := by
    intro ω
    obtain ⟨r, hr, hs⟩ := C86_total_distribution true [0, 1, 2] (List.ofFn fun i => y i ω)
      [1 / 2, 3 / 2] (List.ofFn (mu fun i => y i ω)) (List.ofFn (sd fun i => y i ω))
      (some (List.ofFn fun j => f j ω))
      {} UtilsPlotting.COLORS (by simp) (by simp) (by simp) (by simp) (by simp)
      (by simp [UtilsPlotting.COLORS])
    obtain ⟨fig, rfl⟩ := Option.isSome_iff_exists.1 hs
    exact ⟨fig, hr⟩
  choose fig hfig using hfig
  refine ⟨Ω, i1, P, y, f, _, nu, mu, sd, S, fig,
    fun Y j => -mu Y j + 2 * Real.log ((3 : ℕ) + 1) * sd Y j,
    fun Y => if -mu Y 0 + 2 * Real.log ((3 : ℕ) + 1) * sd Y 0 ≤
      -mu Y 1 + 2 * Real.log ((3 : ℕ) + 1) * sd Y 1 then 1 else 0, hpr, hd, rfl, hP,
    fun Y => (h1 Y).1, hfig, fun Y => ?_, fun Y j => ?_, ?_⟩
  · simp [ucb, pyAssert, bind, Except.bind, pure, Except.pure]
  · dsimp only
    split_ifs with hle
    · fin_cases j
      · exact hle
      · exact le_rfl
    · push Not at hle
      fin_cases j
      · exact le_rfl
      · exact hle.le
  · rw [confidenceWeight, if_pos rfl]
    have : 0 < Real.log (((3 : ℕ) : ℝ) + 1) := Real.log_pos (by norm_num)
    linarith

end Verif.Props
