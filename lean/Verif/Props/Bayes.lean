import Verif.Props.Band
import Verif.Props.AcquisitionJitter

/-! # Acquisition values as posterior probabilities and expectations, and the choices they make (C126)
-/

namespace Verif.Props

open Verif.Spec Verif.Covariance Verif.UtilsCovariance Verif.Lemmas Verif.Gp Verif.Acquisition
  Verif.Constants
open Matrix hiding gram
open MeasureTheory ProbabilityTheory WithLp

section

variable {n m d : ℕ} {name base : String} {X : Inputs n d} {Xs : Inputs m d} {h : HypDict}
  {σ s : ℝ} {l : Fin d → ℝ} {prior : PriorMu d} {μ : Fin n → ℝ} {μs : Fin m → ℝ}
  {Ω : Type} [MeasurableSpace Ω] {P : Measure Ω} [IsProbabilityMeasure P] {y : Fin n → Ω → ℝ}
  {f : Fin m → Ω → ℝ}

private theorem cond_marginal (hX : Suits name base X) (hXs : Suits name base Xs)
    (hd : Describes h σ s l) (hμ : getPriorMu prior X = .ok μ) (hμs : getPriorMu prior Xs = .ok μs)
    (hP : GaussianPrior P base σ s l X Xs μ μs y f)
    {mu : (Fin n → ℝ) → Fin m → ℝ} {sd : Fin m → ℝ} {S : Matrix (Fin m) (Fin m) ℝ}
    (hp : ∀ Y, predictWithHyps X Y Xs h name prior = .ok (mu Y, sd, S)) :
    ∀ᵐ Y ∂P.map (fun ω i => y i ω), ∀ j,
      (condDistrib (fun ω => toLp 2 (fun j => f j ω)) (fun ω i => y i ω) P Y).map (fun v => v j) =
        gaussianReal (mu Y j) (sd j ^ 2).toNNReal := by
  obtain ⟨hm, hsd, hS⟩ := band_predicted hX hXs hd hμ hμs hp
  obtain ⟨mu', sd', S', h1, -, h2⟩ := C67_exact_posterior hX hXs hd hμ hμs hP
  filter_upwards [h2] with Y hY j
  have := (hp Y).symm.trans (h1 Y)
  simp only [Except.ok.injEq, Prod.mk.injEq] at this
  obtain ⟨e1, -, rfl⟩ := this
  rw [hY, ← e1, (measurePreserving_eval_multivariateGaussian (μ := toLp 2 (mu Y)) hS (i := j)).map_eq,
    (hsd j).1]

/-- C126: under the Gaussian process prior and given almost every vector of responses, the values that
the acquisition functions give a test point are: for probability of improvement (without jitter), the
conditional probability that its value lies below the best response; for expected improvement, up to
`1 / sqrt (2 pi)` times the jitter, the conditional expectation of the improvement on the best
response; for pure exploitation, minus the conditional expectation of its value; for pure exploration,
the root of the conditional variance. -/
theorem C126_scores (hX : Suits name base X) (hXs : Suits name base Xs)
    (hd : Describes h σ s l) (hμ : getPriorMu prior X = .ok μ) (hμs : getPriorMu prior Xs = .ok μs)
    (hP : GaussianPrior P base σ s l X Xs μ μs y f)
    {mu : (Fin n → ℝ) → Fin m → ℝ} {sd : Fin m → ℝ} {S : Matrix (Fin m) (Fin m) ℝ}
    (hp : ∀ Y, predictWithHyps X Y Xs h name prior = .ok (mu Y, sd, S)) :
    ∀ᵐ Y ∂P.map (fun ω i => y i ω), ∀ (Q : Measure (EuclideanSpace ℝ (Fin m))),
      Q = condDistrib (fun ω => toLp 2 (fun j => f j ω)) (fun ω i => y i ω) P Y →
      ∀ (j : Fin m) (vals : List ℝ) (v : ℝ), vals[(j : ℕ)]? = some v →
      (∀ b, IsBest (List.ofFn Y) b →
        (pi (List.ofFn (mu Y)) (List.ofFn sd) (List.ofFn Y) 0 = .ok vals → v = Q.real {w | w j < b}) ∧
        ∀ jt, 0 ≤ jt → ei (List.ofFn (mu Y)) (List.ofFn sd) (List.ofFn Y) jt = .ok vals →
          |v - ∫ w, max (b - w j) 0 ∂Q| ≤ jt * (√(2 * Real.pi))⁻¹) ∧
      (pureExploit (List.ofFn (mu Y)) = .ok vals → v = -∫ w, w j ∂Q) ∧
      (pureExplore (List.ofFn sd) = .ok vals → v = √(∫ w, (w j - mu Y j) ^ 2 ∂Q)) := by
  obtain ⟨hm, hsd, hS⟩ := band_predicted hX hXs hd hμ hμs hp
  filter_upwards [cond_marginal hX hXs hd hμ hμs hP hp] with Y hY Q hQ j vals v hv
  rw [← hQ] at hY
  have hev : ∀ {g : ℝ → ℝ}, Measurable g → ∫ w, g (w j) ∂Q =
      ∫ z, g z ∂gaussianReal (mu Y j) (sd j ^ 2).toNNReal := by
    intro g hg
    rw [← hY j, integral_map (by fun_prop) hg.aestronglyMeasurable]
  have hat : At (List.ofFn (mu Y)) (List.ofFn sd) vals (mu Y j) (sd j) v :=
    ⟨j, by simp, by simp, hv⟩
  have hpos : ∀ t ∈ List.ofFn sd, 0 < t := by
    intro t ht
    obtain ⟨k, rfl⟩ := List.mem_ofFn.1 ht
    exact (hsd k).2
  refine ⟨fun b hb => ⟨fun hpi => ?_, fun jt hj hei => ?_⟩, fun hx => ?_, fun hx => ?_⟩
  · have := C80_pi _ _ _ vals 0 b (by simp) hb (fun t ht => by simpa using hpos t ht) hpi _ _ _ hat
    rw [this, add_zero, ← hY j, map_measureReal_apply (by fun_prop) measurableSet_Iio]
    rfl
  · rw [hev (g := fun z => max (b - z) 0) (by fun_prop)]
    exact (C80_ei _ _ _ vals jt b (by simp) hb hj hpos hei _ _ _ hat).2
  · rw [hev (g := fun z => z) measurable_id, integral_id_gaussianReal]
    simp only [pureExploit, pure, Except.pure, Except.ok.injEq] at hx
    rw [← hx] at hv
    simpa using hv.symm
  · rw [hev (g := fun z => (z - mu Y j) ^ 2) (by fun_prop)]
    have hvar := variance_fun_id_gaussianReal (μ := mu Y j) (v := (sd j ^ 2).toNNReal)
    rw [variance_eq_integral (by fun_prop), integral_id_gaussianReal] at hvar
    rw [hvar, Real.coe_toNNReal _ (sq_nonneg _), Real.sqrt_sq (hsd j).2.le]
    simp only [pureExplore, pure, Except.pure, Except.ok.injEq] at hx
    rw [← hx] at hv
    simpa using hv.symm

private theorem choose_measurable {i : (Fin n → ℝ) → Fin m} (hi : Measurable i) :
    Measurable fun p : (Fin n → ℝ) × EuclideanSpace ℝ (Fin m) => p.2 (i p.1) := by
  have e : (fun p : (Fin n → ℝ) × EuclideanSpace ℝ (Fin m) => p.2 (i p.1)) =
      fun p => ∑ k, if i p.1 = k then p.2 k else 0 := by
    funext p
    simp
  rw [e]
  refine Finset.measurable_sum _ fun k _ => Measurable.ite ?_ (by fun_prop) measurable_const
  exact (hi.comp measurable_fst) (measurableSet_singleton k)

private theorem averaged (hP : GaussianPrior P base σ s l X Xs μ μs y f)
    {G : (Fin n → ℝ) → EuclideanSpace ℝ (Fin m) → ℝ} (hG : Measurable (Function.uncurry G))
    (hle : ∀ Y v, |G Y v| ≤ ∑ k, |Y k| + ∑ j, |v j| + 1) :
    Integrable (fun ω => G (fun i => y i ω) (toLp 2 fun j => f j ω)) P ∧
    ∫ ω, G (fun i => y i ω) (toLp 2 fun j => f j ω) ∂P = ∫ Y, ∫ v, G Y v
      ∂condDistrib (fun ω => toLp 2 (fun j => f j ω)) (fun ω i => y i ω) P Y
      ∂P.map (fun ω i => y i ω) ∧
    Integrable (fun Y => ∫ v, G Y v
      ∂condDistrib (fun ω => toLp 2 (fun j => f j ω)) (fun ω i => y i ω) P Y)
      (P.map (fun ω i => y i ω)) := by
  have hlaw := hP.law.aemeasurable
  have hy : AEMeasurable (fun ω i => y i ω) P := measurable_fst.comp_aemeasurable hlaw
  have hf : AEMeasurable (fun ω j => f j ω) P := measurable_snd.comp_aemeasurable hlaw
  have hf' : AEMeasurable (fun ω => toLp 2 (fun j => f j ω)) P :=
    (by fun_prop : Measurable fun v : Fin m → ℝ => toLp 2 v).comp_aemeasurable hf
  have hpair : AEMeasurable (fun ω => ((fun i => y i ω), toLp 2 (fun j => f j ω))) P :=
    hy.prodMk hf'
  have hyi : ∀ i, Integrable (y i) P := fun i => (hP.law.fst.eval i).integrable
  have hfi : ∀ j, Integrable (f j) P := fun j => (hP.law.snd.eval j).integrable
  have hint : Integrable (fun ω => G (fun i => y i ω) (toLp 2 fun j => f j ω)) P := by
    refine Integrable.mono' (g := fun ω => ∑ k, |y k ω| + ∑ j, |f j ω| + 1) ?_
      (hG.comp_aemeasurable hpair).aestronglyMeasurable (Filter.Eventually.of_forall fun ω => ?_)
    · exact ((integrable_finsetSum _ fun k _ => (hyi k).abs).add
        (integrable_finsetSum _ fun k _ => (hfi k).abs)).add (integrable_const _)
    · exact hle _ _
  have hint' : Integrable (Function.uncurry G)
      (P.map (fun ω => ((fun i => y i ω), toLp 2 (fun j => f j ω)))) :=
    (integrable_map_measure hG.aestronglyMeasurable hpair).2 hint
  refine ⟨hint, ?_, ?_⟩
  · have h1 := integral_map hpair (f := Function.uncurry G) hG.aestronglyMeasurable
    rw [← compProd_map_condDistrib hf'] at h1 hint'
    rw [Measure.integral_compProd hint'] at h1
    exact h1.symm
  · exact hint'.integral_condDistrib_map hf'

private theorem best_measurable {b : (Fin n → ℝ) → ℝ} (hb : ∀ Y, IsBest (List.ofFn Y) (b Y)) :
    Measurable b := by
  have hn : (Finset.univ : Finset (Fin n)).Nonempty := by
    obtain ⟨k, -⟩ := List.mem_ofFn.1 (hb 0).1
    exact ⟨k, Finset.mem_univ k⟩
  have e : b = fun Y => -(Finset.univ.sup' hn (fun k (Y : Fin n → ℝ) => -Y k)) Y := by
    funext Y
    rw [Finset.sup'_apply]
    obtain ⟨k, hk⟩ := List.mem_ofFn.1 (hb Y).1
    refine le_antisymm (le_neg.2 (Finset.sup'_le _ _ fun k _ =>
      neg_le_neg ((hb Y).2 _ (List.mem_ofFn.2 ⟨k, rfl⟩)))) (neg_le.2 ?_)
    rw [← hk]
    exact Finset.le_sup' (fun k => -Y k) (Finset.mem_univ k)
  rw [e]
  exact (Finset.measurable_sup' hn fun k _ => (measurable_pi_apply k).neg).neg

/-- C126: expected improvement makes the best choice for one more evaluation. Of all ways to choose a
test point from the responses, choosing one whose value by `ei` is within `δ` of the largest gives the
smallest expectation of the best value after the evaluation, up to `δ` and twice `1 / sqrt (2 pi)`
times the jitter. -/
theorem C126_ei_choice (hX : Suits name base X) (hXs : Suits name base Xs)
    (hd : Describes h σ s l) (hμ : getPriorMu prior X = .ok μ) (hμs : getPriorMu prior Xs = .ok μs)
    (hP : GaussianPrior P base σ s l X Xs μ μs y f)
    {mu : (Fin n → ℝ) → Fin m → ℝ} {sd : Fin m → ℝ} {S : Matrix (Fin m) (Fin m) ℝ}
    (hp : ∀ Y, predictWithHyps X Y Xs h name prior = .ok (mu Y, sd, S)) {jt : ℝ} (hj : 0 ≤ jt)
    {vals : (Fin n → ℝ) → Fin m → ℝ}
    (hu : ∀ Y, ei (List.ofFn (mu Y)) (List.ofFn sd) (List.ofFn Y) jt = .ok (List.ofFn (vals Y)))
    {δ : ℝ} {i : (Fin n → ℝ) → Fin m} (hi : ∀ Y j, vals Y j ≤ vals Y (i Y) + δ) (him : Measurable i)
    {i' : (Fin n → ℝ) → Fin m} (him' : Measurable i') {b : (Fin n → ℝ) → ℝ}
    (hb : ∀ Y, IsBest (List.ofFn Y) (b Y)) :
    ∫ ω, min (b fun k => y k ω) (f (i fun k => y k ω) ω) ∂P ≤
      ∫ ω, min (b fun k => y k ω) (f (i' fun k => y k ω) ω) ∂P +
        (δ + 2 * (jt * (√(2 * Real.pi))⁻¹)) := by
  have hbm := best_measurable hb
  have hav : ∀ {i : (Fin n → ℝ) → Fin m}, Measurable i → _ := fun {i} him =>
    averaged (G := fun Y v => min (b Y) (v (i Y))) hP
      ((hbm.comp measurable_fst).min (choose_measurable him)) (by
        intro Y v
        have h1 : |b Y| ≤ ∑ k, |Y k| := by
          obtain ⟨k, hk⟩ := List.mem_ofFn.1 (hb Y).1
          rw [← hk]
          exact Finset.single_le_sum (f := fun k => |Y k|) (fun k _ => abs_nonneg _)
            (Finset.mem_univ k)
        have h2 : |v (i Y)| ≤ ∑ j, |v j| :=
          Finset.single_le_sum (f := fun j => |v j|) (fun k _ => abs_nonneg _) (Finset.mem_univ _)
        have h3 : 0 ≤ ∑ k, |Y k| := Finset.sum_nonneg fun k _ => abs_nonneg _
        have h4 : 0 ≤ ∑ j, |v j| := Finset.sum_nonneg fun k _ => abs_nonneg _
        rcases min_choice (b Y) (v (i Y)) with e | e <;> rw [e] <;> linarith)
  obtain ⟨-, e1, e2⟩ := hav him
  obtain ⟨-, e3, e4⟩ := hav him'
  have hlaw := hP.law.aemeasurable
  have hy : AEMeasurable (fun ω i => y i ω) P := measurable_fst.comp_aemeasurable hlaw
  have hpr : IsProbabilityMeasure (P.map fun ω i => y i ω) := Measure.isProbabilityMeasure_map hy
  have hc : (δ + 2 * (jt * (√(2 * Real.pi))⁻¹)) =
      ∫ _, (δ + 2 * (jt * (√(2 * Real.pi))⁻¹)) ∂P.map (fun ω i => y i ω) := by simp
  refine e1.trans_le (le_trans ?_ (congrArg₂ (· + ·) e3 hc).ge)
  rw [← integral_add e4 (integrable_const _)]
  refine integral_mono_ae e2 (e4.add (integrable_const _)) ?_
  filter_upwards [C126_scores hX hXs hd hμ hμs hP hp, cond_marginal hX hXs hd hμ hμs hP hp]
    with Y hY hmarg
  set Q := condDistrib (fun ω => toLp 2 (fun j => f j ω)) (fun ω i => y i ω) P Y with hQ
  have hs := fun j => (((hY Q hQ j (List.ofFn (vals Y)) (vals Y j) (by simp)).1 (b Y) (hb Y)).2 jt hj
    (hu Y))
  have hid : ∀ j, Integrable (fun w : EuclideanSpace ℝ (Fin m) => w j) Q := by
    intro j
    have h1 : Integrable (fun z : ℝ => z) (gaussianReal (mu Y j) (sd j ^ 2).toNNReal) :=
      (memLp_id_gaussianReal 1).integrable (by simp)
    rw [← hmarg j] at h1
    exact (integrable_map_measure (by fun_prop) (by fun_prop)).1 h1
  have hmin : ∀ j, ∫ w, min (b Y) (w j) ∂Q = b Y - ∫ w, max (b Y - w j) 0 ∂Q := by
    intro j
    have e : ∀ w : EuclideanSpace ℝ (Fin m), min (b Y) (w j) = b Y - max (b Y - w j) 0 := by
      intro w
      rcases le_total (b Y) (w j) with h | h
      · rw [min_eq_left h, max_eq_right (by linarith)]; ring
      · rw [min_eq_right h, max_eq_left (by linarith)]; ring
    simp only [e]
    have hi : Integrable (fun w : EuclideanSpace ℝ (Fin m) => max (b Y - w j) 0) Q :=
      (Integrable.sub (integrable_const (b Y)) (hid j)).pos_part
    rw [integral_sub (integrable_const _) hi, integral_const]
    simp
  simp only [Pi.add_apply, hmin]
  have h1 := abs_le.1 (hs (i Y))
  have h2 := abs_le.1 (hs (i' Y))
  linarith [hi Y (i' Y)]

/-- The probability of improvement changes by at most the jitter over the deviation when the jitter is
added to the deviation. -/
private theorem pi_jitter (a : ℝ) {s j : ℝ} (hs : 0 < s) (hj : 0 ≤ j) :
    |normCdf (a / (s + j)) - normCdf (a / s)| ≤ j / s * (√(2 * Real.pi))⁻¹ := by
  have hsj : 0 < s + j := by linarith
  -- it is enough to look at one sign
  have key : ∀ a, 0 ≤ a → 0 ≤ normCdf (a / s) - normCdf (a / (s + j)) ∧
      normCdf (a / s) - normCdf (a / (s + j)) ≤ j / s * (√(2 * Real.pi))⁻¹ := by
    intro a ha
    set z := a / (s + j) with hz
    have hz0 : 0 ≤ z := by positivity
    have ez : a / s = z + j / s * z := by
      rw [hz]
      field_simp
    have hle : z ≤ a / s := by
      rw [ez]
      have : 0 ≤ j / s * z := by positivity
      linarith
    refine ⟨sub_nonneg.2 (normCdf_strictMono.monotone hle), ?_⟩
    have hmv : normCdf (a / s) - normCdf z ≤ normPdf z * (a / s - z) := by
      refine Convex.image_sub_le_mul_sub_of_deriv_le (convex_Icc z (a / s))
        (fun x _ => (hasDerivAt_normCdf x).continuousAt.continuousWithinAt)
        (fun x _ => (hasDerivAt_normCdf x).differentiableAt.differentiableWithinAt) ?_ z
        (Set.left_mem_Icc.2 hle) (a / s) (Set.right_mem_Icc.2 hle) hle
      intro x hx
      rw [interior_Icc] at hx
      rw [(hasDerivAt_normCdf x).deriv, normPdf_eq, normPdf_eq]
      have : z ^ 2 ≤ x ^ 2 := pow_le_pow_left₀ hz0 hx.1.le 2
      gcongr
    have hpdf : z * normPdf z ≤ (√(2 * Real.pi))⁻¹ := by
      rw [normPdf_eq, neg_div, Real.exp_neg, mul_left_comm]
      refine mul_le_of_le_one_right (by positivity) ?_
      rw [← div_eq_mul_inv, div_le_one (Real.exp_pos _)]
      have := Real.add_one_le_exp (z ^ 2 / 2)
      nlinarith [sq_nonneg (z - 1)]
    calc _ ≤ normPdf z * (a / s - z) := hmv
      _ = j / s * (z * normPdf z) := by rw [ez]; ring
      _ ≤ _ := mul_le_mul_of_nonneg_left hpdf (by positivity)
  rcases le_total 0 a with ha | ha
  · obtain ⟨h1, h2⟩ := key a ha
    rw [abs_sub_comm, abs_of_nonneg h1]
    exact h2
  · obtain ⟨h1, h2⟩ := key (-a) (by linarith)
    rw [neg_div, neg_div, normCdf_neg, normCdf_neg] at h1 h2
    rw [abs_of_nonneg (by linarith)]
    linarith

/-- C126: probability of improvement makes the choice most likely to improve. Of all ways to choose a
test point from the responses, choosing one whose value by `pi` is within `δ` of the largest gives the
largest probability that the value there lies below the best response, up to `δ` and twice the jitter
over the root of the jitter of prediction times `sqrt (2 pi)`. -/
theorem C126_pi_choice (hX : Suits name base X) (hXs : Suits name base Xs)
    (hd : Describes h σ s l) (hμ : getPriorMu prior X = .ok μ) (hμs : getPriorMu prior Xs = .ok μs)
    (hP : GaussianPrior P base σ s l X Xs μ μs y f)
    {mu : (Fin n → ℝ) → Fin m → ℝ} {sd : Fin m → ℝ} {S : Matrix (Fin m) (Fin m) ℝ}
    (hp : ∀ Y, predictWithHyps X Y Xs h name prior = .ok (mu Y, sd, S)) {jt : ℝ} (hj : 0 ≤ jt)
    {vals : (Fin n → ℝ) → Fin m → ℝ}
    (hu : ∀ Y, pi (List.ofFn (mu Y)) (List.ofFn sd) (List.ofFn Y) jt = .ok (List.ofFn (vals Y)))
    {δ : ℝ} {i : (Fin n → ℝ) → Fin m} (hi : ∀ Y j, vals Y j ≤ vals Y (i Y) + δ) (him : Measurable i)
    {i' : (Fin n → ℝ) → Fin m} (him' : Measurable i') {b : (Fin n → ℝ) → ℝ}
    (hb : ∀ Y, IsBest (List.ofFn Y) (b Y)) :
    P.real {ω | f (i' fun k => y k ω) ω < b fun k => y k ω} ≤
      P.real {ω | f (i fun k => y k ω) ω < b fun k => y k ω} +
        (δ + 2 * (jt / √(1 / 100000) * (√(2 * Real.pi))⁻¹)) := by
  obtain ⟨-, hsd, -⟩ := band_predicted hX hXs hd hμ hμs hp
  have hbm := best_measurable hb
  have hms : ∀ {i : (Fin n → ℝ) → Fin m}, Measurable i → MeasurableSet
      {p : (Fin n → ℝ) × EuclideanSpace ℝ (Fin m) | p.2 (i p.1) < b p.1} := fun him =>
    measurableSet_lt (choose_measurable him) (hbm.comp measurable_fst)
  have hlaw := hP.law.aemeasurable
  have hy : AEMeasurable (fun ω i => y i ω) P := measurable_fst.comp_aemeasurable hlaw
  have hf : AEMeasurable (fun ω j => f j ω) P := measurable_snd.comp_aemeasurable hlaw
  have hf' : AEMeasurable (fun ω => toLp 2 (fun j => f j ω)) P :=
    (by fun_prop : Measurable fun v : Fin m → ℝ => toLp 2 v).comp_aemeasurable hf
  have hpair : AEMeasurable (fun ω => ((fun i => y i ω), toLp 2 (fun j => f j ω))) P :=
    hy.prodMk hf'
  have hav : ∀ {i : (Fin n → ℝ) → Fin m}, Measurable i → _ := fun {i} him =>
    averaged (G := fun Y v => {p : (Fin n → ℝ) × EuclideanSpace ℝ (Fin m) |
        p.2 (i p.1) < b p.1}.indicator 1 (Y, v)) hP
      (measurable_one.indicator (hms him)) (by
        intro Y v
        have h3 : 0 ≤ ∑ k, |Y k| := Finset.sum_nonneg fun k _ => abs_nonneg _
        have h4 : 0 ≤ ∑ j, |v j| := Finset.sum_nonneg fun k _ => abs_nonneg _
        by_cases hc : v (i Y) < b Y
        · rw [Set.indicator_of_mem (by exact hc), Pi.one_apply, abs_one]
          linarith
        · rw [Set.indicator_of_notMem (by exact hc), abs_zero]
          linarith)
  have hreal : ∀ {i : (Fin n → ℝ) → Fin m}, Measurable i →
      P.real {ω | f (i fun k => y k ω) ω < b fun k => y k ω} =
        ∫ ω, {p : (Fin n → ℝ) × EuclideanSpace ℝ (Fin m) | p.2 (i p.1) < b p.1}.indicator 1
          ((fun i => y i ω), toLp 2 fun j => f j ω) ∂P := by
    intro i him
    rw [← integral_map hpair (f := {p : (Fin n → ℝ) × EuclideanSpace ℝ (Fin m) |
        p.2 (i p.1) < b p.1}.indicator 1) (measurable_one.indicator (hms him)).aestronglyMeasurable,
      integral_indicator_one (hms him), map_measureReal_apply_of_aemeasurable hpair (hms him)]
    rfl
  rw [hreal him, hreal him']
  obtain ⟨-, e1, e2⟩ := hav him
  obtain ⟨-, e3, e4⟩ := hav him'
  have hpr : IsProbabilityMeasure (P.map fun ω i => y i ω) := Measure.isProbabilityMeasure_map hy
  have hc : (δ + 2 * (jt / √(1 / 100000) * (√(2 * Real.pi))⁻¹)) =
      ∫ _, (δ + 2 * (jt / √(1 / 100000) * (√(2 * Real.pi))⁻¹)) ∂P.map (fun ω i => y i ω) := by simp
  refine e3.trans_le (le_trans ?_ (congrArg₂ (· + ·) e1 hc).ge)
  rw [← integral_add e2 (integrable_const _)]
  refine integral_mono_ae e4 (e2.add (integrable_const _)) ?_
  filter_upwards [cond_marginal hX hXs hd hμ hμs hP hp] with Y hmarg
  set Q := condDistrib (fun ω => toLp 2 (fun j => f j ω)) (fun ω i => y i ω) P Y with hQ
  have hval : ∀ i : (Fin n → ℝ) → Fin m, ∫ v, {p : (Fin n → ℝ) × EuclideanSpace ℝ (Fin m) |
      p.2 (i p.1) < b p.1}.indicator 1 (Y, v) ∂Q = normCdf ((b Y - mu Y (i Y)) / sd (i Y)) := by
    intro i
    have hm0 : MeasurableSet {v : EuclideanSpace ℝ (Fin m) | v (i Y) < b Y} :=
      measurableSet_lt (by fun_prop) measurable_const
    have e : (fun v => {p : (Fin n → ℝ) × EuclideanSpace ℝ (Fin m) |
        p.2 (i p.1) < b p.1}.indicator
          (1 : (Fin n → ℝ) × EuclideanSpace ℝ (Fin m) → ℝ) (Y, v)) =
        {v : EuclideanSpace ℝ (Fin m) | v (i Y) < b Y}.indicator 1 := rfl
    rw [e, integral_indicator_one hm0]
    have h2 : (gaussianReal (mu Y (i Y)) (sd (i Y) ^ 2).toNNReal).real (Set.Iio (b Y)) =
        Q.real {v : EuclideanSpace ℝ (Fin m) | v (i Y) < b Y} := by
      rw [← hmarg (i Y), map_measureReal_apply (by fun_prop) measurableSet_Iio]
      rfl
    rw [← h2, ← prob_le_eq _ _ _ (hsd (i Y)).2]
    have hv : (sd (i Y) ^ 2).toNNReal ≠ 0 := by
      rw [Ne, Real.toNNReal_eq_zero]
      have := pow_pos (hsd (i Y)).2 2
      linarith
    have := nullSingletonClass_gaussianReal (μ := mu Y (i Y)) hv
    exact measureReal_congr Iio_ae_eq_Iic
  rw [hval]
  simp only [hval]
  have hs : ∀ j, vals Y j = normCdf ((b Y - mu Y j) / (sd j + jt)) := by
    intro j
    have h1 := pi_eq (List.ofFn (mu Y)) (List.ofFn sd) (List.ofFn Y) jt (b Y) (by simp) (hb Y) (by
      intro t ht
      obtain ⟨k, rfl⟩ := List.mem_ofFn.1 ht
      have := (hsd k).2
      linarith)
    have h2 := (hu Y).symm.trans h1
    rw [Except.ok.injEq] at h2
    exact at_zipWith (ms := List.ofFn (mu Y)) (ss := List.ofFn sd)
      (f := fun m s => normCdf ((b Y - m) / (s + jt))) (by
        rw [← h2]
        exact ⟨j, by simp, by simp, by simp⟩)
  have hjit : ∀ j, |vals Y j - normCdf ((b Y - mu Y j) / sd j)| ≤
      jt / √(1 / 100000) * (√(2 * Real.pi))⁻¹ := by
    intro j
    rw [hs]
    refine (pi_jitter _ (hsd j).2 hj).trans (mul_le_mul_of_nonneg_right ?_ (by positivity))
    refine div_le_div_of_nonneg_left hj (by positivity) ?_
    rw [Real.sqrt_le_left (hsd j).2.le, ← (hsd j).1]
    have := (hp 0).symm.trans (predictWithHyps_ok hX hXs hd 0 hμ hμs)
    simp only [Except.ok.injEq, Prod.mk.injEq] at this
    obtain ⟨-, -, rfl⟩ := this
    exact postCov_diag_ge base σ s l X Xs j
  have h1 := abs_le.1 (hjit (i Y))
  have h2 := abs_le.1 (hjit (i' Y))
  linarith [hi Y (i' Y)]

/-- C126: pure exploitation makes the best choice for the value at the chosen point itself: of all ways
to choose a test point from the responses it gives the smallest expectation of the value there. -/
theorem C126_exploit_choice (hX : Suits name base X) (hXs : Suits name base Xs)
    (hd : Describes h σ s l) (hμ : getPriorMu prior X = .ok μ) (hμs : getPriorMu prior Xs = .ok μs)
    (hP : GaussianPrior P base σ s l X Xs μ μs y f)
    {mu : (Fin n → ℝ) → Fin m → ℝ} {sd : Fin m → ℝ} {S : Matrix (Fin m) (Fin m) ℝ}
    (hp : ∀ Y, predictWithHyps X Y Xs h name prior = .ok (mu Y, sd, S))
    {vals : (Fin n → ℝ) → Fin m → ℝ}
    (hu : ∀ Y, pureExploit (List.ofFn (mu Y)) = .ok (List.ofFn (vals Y)))
    {δ : ℝ} {i : (Fin n → ℝ) → Fin m} (hi : ∀ Y j, vals Y j ≤ vals Y (i Y) + δ) (him : Measurable i)
    {i' : (Fin n → ℝ) → Fin m} (him' : Measurable i') :
    ∫ ω, f (i fun k => y k ω) ω ∂P ≤ ∫ ω, f (i' fun k => y k ω) ω ∂P + δ := by
  have hav : ∀ {i : (Fin n → ℝ) → Fin m}, Measurable i → _ := fun {i} him =>
    averaged (G := fun Y v => v (i Y)) hP (choose_measurable him) (by
        intro Y v
        have h2 : |v (i Y)| ≤ ∑ j, |v j| :=
          Finset.single_le_sum (f := fun j => |v j|) (fun k _ => abs_nonneg _) (Finset.mem_univ _)
        have h3 : 0 ≤ ∑ k, |Y k| := Finset.sum_nonneg fun k _ => abs_nonneg _
        linarith)
  obtain ⟨-, e1, e2⟩ := hav him
  obtain ⟨-, e3, e4⟩ := hav him'
  have hlaw := hP.law.aemeasurable
  have hy : AEMeasurable (fun ω i => y i ω) P := measurable_fst.comp_aemeasurable hlaw
  have hpr : IsProbabilityMeasure (P.map fun ω i => y i ω) := Measure.isProbabilityMeasure_map hy
  have hc : δ = ∫ _, δ ∂P.map (fun ω i => y i ω) := by simp
  refine e1.trans_le (le_trans ?_ (congrArg₂ (· + ·) e3 hc).ge)
  rw [← integral_add e4 (integrable_const _)]
  refine integral_mono_ae e2 (e4.add (integrable_const _)) ?_
  filter_upwards [C126_scores hX hXs hd hμ hμs hP hp] with Y hY
  have hs := fun j => (hY _ rfl j (List.ofFn (vals Y)) (vals Y j) (by simp)).2.1 (hu Y)
  have h1 := hs (i Y)
  have h2 := hs (i' Y)
  linarith [hi Y (i' Y)]

end

private theorem argmax_measurable {vals : (Fin 3 → ℝ) → Fin 2 → ℝ} (h : Measurable vals) :
    Measurable (fun Y => if vals Y 0 ≤ vals Y 1 then (1 : Fin 2) else 0) ∧
    ∀ Y j, vals Y j ≤ vals Y (if vals Y 0 ≤ vals Y 1 then (1 : Fin 2) else 0) + 0 := by
  refine ⟨Measurable.ite (measurableSet_le ((measurable_pi_apply 0).comp h)
    ((measurable_pi_apply 1).comp h)) measurable_const measurable_const, fun Y j => ?_⟩
  split_ifs with hle
  · fin_cases j <;> simp [hle]
  · push Not at hle
    fin_cases j <;> simp [hle.le]

/-- Three observed and two test inputs, with the values of the three acquisition functions for all
responses and the choices of their largest: the hypotheses of C126 hold. -/
example : ∃ (Ω : Type) (_ : MeasurableSpace Ω) (P : Measure Ω) (y : Fin 3 → Ω → ℝ)
    (f : Fin 2 → Ω → ℝ) (h : HypDict) (mu : (Fin 3 → ℝ) → Fin 2 → ℝ) (sd : Fin 2 → ℝ)
    (S : Matrix (Fin 2) (Fin 2) ℝ) (b : (Fin 3 → ℝ) → ℝ), IsProbabilityMeasure P ∧
    Describes h GP_NOISE 2 (fun _ : Fin 1 => 3) ∧
    GaussianPrior P "matern32" GP_NOISE 2 (fun _ : Fin 1 => 3)
      (.vec fun (i : Fin 3) (_ : Fin 1) => ((i : ℕ) : ℝ))
      (.vec fun (i : Fin 2) (_ : Fin 1) => ((i : ℕ) : ℝ) + 1 / 2) 0 0 y f ∧
    (∀ Y, predictWithHyps (.vec fun (i : Fin 3) (_ : Fin 1) => ((i : ℕ) : ℝ)) Y
      (.vec fun (i : Fin 2) (_ : Fin 1) => ((i : ℕ) : ℝ) + 1 / 2) h "matern32" none =
        .ok (mu Y, sd, S)) ∧ (∀ Y, IsBest (List.ofFn Y) (b Y)) ∧
    (∃ (vals : (Fin 3 → ℝ) → Fin 2 → ℝ) (i : (Fin 3 → ℝ) → Fin 2),
      (∀ Y, ei (List.ofFn (mu Y)) (List.ofFn sd) (List.ofFn Y) = .ok (List.ofFn (vals Y))) ∧
      Measurable i ∧ ∀ Y j, vals Y j ≤ vals Y (i Y) + 0) ∧
    (∃ (vals : (Fin 3 → ℝ) → Fin 2 → ℝ) (i : (Fin 3 → ℝ) → Fin 2),
      (∀ Y, pi (List.ofFn (mu Y)) (List.ofFn sd) (List.ofFn Y) = .ok (List.ofFn (vals Y))) ∧
      Measurable i ∧ ∀ Y j, vals Y j ≤ vals Y (i Y) + 0) ∧
    ∃ (vals : (Fin 3 → ℝ) → Fin 2 → ℝ) (i : (Fin 3 → ℝ) → Fin 2),
      (∀ Y, pureExploit (List.ofFn (mu Y)) = .ok (List.ofFn (vals Y))) ∧
      Measurable i ∧ ∀ Y j, vals Y j ≤ vals Y (i Y) + 0 := by
  have hb : "matern32" ∈ baseNames := by simp [baseNames]
  have hd : Describes ⟨some (.flt (.fin GP_NOISE)), none, some (.flt (.fin 2)), some (.arr [.fin 3])⟩
      GP_NOISE 2 (fun _ : Fin 1 => 3) := ⟨rfl, rfl, .inl rfl, by intro; norm_num⟩
  have hv : ∀ {n : ℕ} (v : Fin n → Point 1), Suits "matern32" "matern32" (.vec v) :=
    fun v => ⟨hb, .inl ⟨rfl, _, rfl⟩⟩
  obtain ⟨Ω, i1, P, y, f, hpr, hP⟩ := C67_prior_exists (n := 3) (m := 2) "matern32" GP_NOISE 2
    (fun _ : Fin 1 => 3) (.vec fun (i : Fin 3) (_ : Fin 1) => ((i : ℕ) : ℝ))
    (.vec fun (i : Fin 2) (_ : Fin 1) => ((i : ℕ) : ℝ) + 1 / 2) 0 0
  obtain ⟨mu, sd, S, h1, -, -⟩ := C67_exact_posterior (hv _) (hv _) hd (prior := none) rfl rfl hP
  obtain ⟨hm, hsd, -⟩ := band_predicted (hv _) (hv _) hd (prior := none) rfl rfl h1
  have hbest : ∀ Y : Fin 3 → ℝ, ∃ b, IsBest (List.ofFn Y) b := by
    intro Y
    obtain ⟨b, hb⟩ := npMin_exists (l := List.ofFn Y) (by simp)
    exact ⟨b, npMin_ok.1 hb⟩
  choose b hbest using hbest
  have hj : (0 : ℝ) < JITTER_ACQ := by norm_num [JITTER_ACQ]
  have hpos : ∀ t ∈ List.ofFn sd, 0 < t + JITTER_ACQ := by
    intro t ht
    obtain ⟨k, rfl⟩ := List.mem_ofFn.1 ht
    exact add_pos (hsd k).2 hj
  have hbm := best_measurable hbest
  have hz : ∀ k, Measurable fun Y => (b Y - mu Y k) / (sd k + JITTER_ACQ) := fun k =>
    (hbm.sub ((measurable_pi_apply k).comp hm)).div_const _
  have hcdf : Measurable normCdf := normCdf_strictMono.monotone.measurable
  have hpdf : Measurable normPdf := continuous_normPdf.measurable
  have hmk : ∀ k, Measurable fun Y => mu Y k := fun k => (measurable_pi_apply k).comp hm
  refine ⟨Ω, i1, P, y, f, _, mu, sd, S, b, hpr, hd, hP, h1, hbest,
    ⟨fun Y k => (b Y - mu Y k) * normCdf ((b Y - mu Y k) / (sd k + JITTER_ACQ)) +
      sd k * normPdf ((b Y - mu Y k) / (sd k + JITTER_ACQ)), _, fun Y => ?_,
      argmax_measurable (measurable_pi_iff.2 fun k => ?_)⟩,
    ⟨fun Y k => normCdf ((b Y - mu Y k) / (sd k + JITTER_ACQ)), _, fun Y => ?_,
      argmax_measurable (measurable_pi_iff.2 fun k => ?_)⟩,
    ⟨fun Y k => -mu Y k, _, fun Y => ?_, argmax_measurable (measurable_pi_iff.2 fun k => ?_)⟩⟩
  · rw [ei_eq _ _ _ _ (b Y) (by simp) (hbest Y) hpos]
    simp
  · exact ((hbm.sub (hmk k)).mul (hcdf.comp (hz k))).add ((hpdf.comp (hz k)).const_mul _)
  · rw [pi_eq _ _ _ _ (b Y) (by simp) (hbest Y) hpos]
    simp
  · exact hcdf.comp (hz k)
  · simp [pureExploit, pure, Except.pure]
  · exact (hmk k).neg

end Verif.Props
