import Verif.Model.RoundedTp
import Verif.Lemmas.Tp
import Verif.Props.RoundedPredict
import Verif.Lemmas.RoundedValues

/-! # The Student-t process with rounding (lemmas for C159) -/

namespace Verif.Lemmas

open Verif.Spec Verif.Covariance Verif.UtilsCovariance Verif.Rounded Verif.RoundedPredict Verif.Constants
  Verif.BoCommon Verif.UtilsBo Matrix

variable {fl ex : ℝ → ℝ} {n m d : ℕ} {o : SumOrder} {mm : MatMul} {name : String} {h : HypDict}
  {σ s : ℝ} {l : Fin d → ℝ}

/-- The computed misfit of residuals `r`. -/
noncomputable def roundedMisfit (mm : MatMul) (V : Matrix (Fin n) (Fin n) ℝ) (r : Fin n → ℝ) : ℝ :=
  mm (mm (fun i (_ : Fin 1) => r i : Matrix (Fin n) (Fin 1) ℝ)ᵀ V) (fun i (_ : Fin 1) => r i) 0 0

/-- The computed factor by which the covariance of the Gaussian process is multiplied. -/
noncomputable def roundedFactor (fl : ℝ → ℝ) (ν β N : ℝ) : ℝ :=
  fl (fl (fl (ν + β) - 2) / fl (fl (ν + N) - 2))

/-- Predictions of the Student-t process from those of the Gaussian process. -/
theorem roundedTp_ok {X : Fin n → Point d} {Xs : Fin m → Point d} {Y : Fin n → ℝ}
    {K V : Matrix (Fin n) (Fin n) ℝ} {prior : Gp.PriorMu d} {μ : Fin n → ℝ} {mu sd : Fin m → ℝ}
    {S : Matrix (Fin m) (Fin m) ℝ} {ν : ℝ} (hdof : h.dof = some (.flt (.fin ν)))
    (hμ : Gp.getPriorMu prior (.vec X) = .ok μ) (h0 : fl (fl (ν + n) - 2) ≠ 0)
    (hp : RoundedPredict.predictWithCov fl ex o mm X Y Xs K V h name prior = .ok (mu, sd, S)) :
    RoundedTp.predictWithCov fl ex o mm X Y Xs K V h name prior =
      let c := roundedFactor fl ν (roundedMisfit mm V fun i => fl (Y i - μ i)) n
      .ok (fl (ν + n), mu, fun i => fl √(max (fl (c * S i i)) 0), fun i j => fl (c * S i j)) := by
  simp only [RoundedPredict.predictWithCov, hμ, bind, Except.bind, pure, Except.pure] at hp
  split at hp
  · cases hp
  rename_i e1
  split at hp
  · cases hp
  rename_i e2
  split at hp
  · cases hp
  rename_i e3
  split at hp
  · cases hp
  rename_i e4
  split at hp
  · cases hp
  rename_i e5
  simp only [Except.ok.injEq, Prod.mk.injEq] at hp
  obtain ⟨rfl, -, rfl⟩ := hp
  have hnu : numKey h.dof = .ok ν := by rw [hdof]; exact numKey_fin ν
  simp only [RoundedTp.predictWithCov, e1, e2, hμ, e3, e4, e5, hnu, h0, if_false, bind, Except.bind, pure,
    Except.pure]
  rfl

/-- The form `r ⬝ V r` against the one with the inverse of the exact kernel matrix. -/
theorem near_misfit {base : String} {X : Inputs n d} {K V : Matrix (Fin n) (Fin n) ℝ} {η θ : ℝ}
    (hs : ∀ i j, K i j = K j i) (hη : ∀ i j, |K i j - noisyGram base σ s l X i j| ≤ η)
    (hn : n * η < σ ^ 2 + 1 / 100000) (hθ : ∀ i j, |V i j - K⁻¹ i j| ≤ θ) (y : Fin n → ℝ) :
    |y ⬝ᵥ (V *ᵥ y) - misfit (noisyGram base σ s l X) y| ≤
      (n * η / ((σ ^ 2 + 1 / 100000) * (σ ^ 2 + 1 / 100000 - n * η)) + n * θ) * (y ⬝ᵥ y) := by
  have h1 := near_solve hs hη hn y
  have h2 := small_square (E := V - K⁻¹) hθ y
  have h3 := cauchy y ((V - K⁻¹) *ᵥ y)
  have h4 := cauchy y (K⁻¹ *ᵥ y - (noisyGram base σ s l X)⁻¹ *ᵥ y)
  have hq : √(y ⬝ᵥ y) * √(y ⬝ᵥ y) = y ⬝ᵥ y := Real.mul_self_sqrt (dot_self_nonneg y)
  have e : y ⬝ᵥ (V *ᵥ y) - misfit (noisyGram base σ s l X) y =
      y ⬝ᵥ ((V - K⁻¹) *ᵥ y) + y ⬝ᵥ (K⁻¹ *ᵥ y - (noisyGram base σ s l X)⁻¹ *ᵥ y) := by
    rw [misfit, Matrix.sub_mulVec, dotProduct_sub, dotProduct_sub]
    ring
  rw [e]
  refine (abs_add_le _ _).trans ?_
  have h5 := h3.trans (mul_le_mul_of_nonneg_left h2 (Real.sqrt_nonneg _))
  have h6 := h4.trans (mul_le_mul_of_nonneg_left h1 (Real.sqrt_nonneg _))
  generalize n * η / ((σ ^ 2 + 1 / 100000) * (σ ^ 2 + 1 / 100000 - n * η)) = ρ at *
  generalize √(y ⬝ᵥ y) = q at *
  refine (add_le_add h5 h6).trans_eq ?_
  rw [← hq]
  ring

/-- The error of the computed misfit. -/
theorem roundedMisfit_error (hf : Nearest fl) {γ t : ℝ} (hγ : 0 ≤ γ) (hγ1 : γ ≤ 1) (ht : 0 ≤ t)
    (hmm : MultipliesWithin n γ t mm) {V : Matrix (Fin n) (Fin n) ℝ} (hVd : ∀ i j, V i j ∈ Double)
    {B : ℝ} (hB0 : 0 ≤ B) (hB : ∀ i j, |V i j| ≤ B) {Y μ : Fin n → ℝ} (hY : ∀ i, Y i ∈ Double)
    (hμ : ∀ i, μ i ∈ Double) {u N Q : ℝ} (hu : u = 1 / 2 ^ 53) (hN : N = √(∑ i, (Y i - μ i) ^ 2))
    (hQ : Q = √n * N) :
    roundedMisfit mm V (fun i => fl (Y i - μ i)) ∈ Double ∧
    |roundedMisfit mm V (fun i => fl (Y i - μ i)) - (Y - μ) ⬝ᵥ (V *ᵥ (Y - μ))| ≤
      n * B * N * Q * (12 * γ + 3 * u) + 4 * t * Q + t := by
  have hu0 : 0 ≤ u := by rw [hu]; positivity
  have hu1 : u ≤ 1 := by rw [hu]; norm_num
  have hN0 : 0 ≤ N := by rw [hN]; positivity
  have hW := fun j i => hmm 1 n (fun (_ : Fin 1) i => fl (Y i - μ i)) V (fun a b => hf.mem _) hVd j i
  have hp := hmm 1 1 (mm (fun (_ : Fin 1) i => fl (Y i - μ i)) V) (fun i (_ : Fin 1) => fl (Y i - μ i))
    (fun a b => (hW a b).1) (fun i _ => hf.mem _) 0 0
  have hrel : ∀ i, |fl (Y i - μ i) - (Y i - μ i)| ≤ u * |Y i - μ i| := fun i => by
    rw [hu]
    exact fl_sub_rel hf (hY i) (hμ i)
  have htwo : ∀ i, |fl (Y i - μ i)| ≤ 2 * |Y i - μ i| := fun i => by
    have h1 := abs_sub_abs_le_abs_sub (fl (Y i - μ i)) (Y i - μ i)
    have h2 : u * |Y i - μ i| ≤ 1 * |Y i - μ i| := mul_le_mul_of_nonneg_right hu1 (abs_nonneg _)
    linarith [hrel i]
  have hle : ∀ i, |Y i - μ i| ≤ N := fun i => by
    rw [hN]
    exact Real.abs_le_sqrt (Finset.single_le_sum (f := fun i => (Y i - μ i) ^ 2)
      (fun k _ => sq_nonneg _) (Finset.mem_univ i))
  have hQ1 : ∑ i, |Y i - μ i| ≤ Q := by
    have h1 := (le_abs_self _).trans (cauchy (fun _ => (1 : ℝ)) fun i => |Y i - μ i|)
    have e1 : (fun _ : Fin n => (1 : ℝ)) ⬝ᵥ (fun _ => 1) = n := by simp [dotProduct]
    have e2 : (fun i => |Y i - μ i|) ⬝ᵥ (fun i => |Y i - μ i|) = ∑ i, (Y i - μ i) ^ 2 := by
      simp [dotProduct, pow_two]
    have e3 : (fun _ : Fin n => (1 : ℝ)) ⬝ᵥ (fun i => |Y i - μ i|) = ∑ i, |Y i - μ i| := by
      simp [dotProduct]
    rwa [e1, e2, e3, ← hN, ← hQ] at h1
  refine ⟨hp.1, ?_⟩
  have hch := chain_error (k := fun i => Y i - μ i) (k' := fun i => fl (Y i - μ i))
    (r := fun i => Y i - μ i) (r' := fun i => fl (Y i - μ i))
    (W := fun i => mm (fun (_ : Fin 1) i => fl (Y i - μ i)) V 0 i) (κ := 2 * N) (e := u * N) (P := 2 * Q)
    (Δ := u * Q) (Q := Q) hγ hγ1 ht hB0 (by positivity)
    (fun i => (htwo i).trans (mul_le_mul_of_nonneg_left (hle i) (by norm_num)))
    (fun i => (hrel i).trans (mul_le_mul_of_nonneg_left (hle i) hu0)) hB (fun i => (hW 0 i).2) hp.2
    (by
      refine (Finset.sum_le_sum fun i _ => htwo i).trans ?_
      rw [← Finset.mul_sum]
      linarith)
    (by
      refine (Finset.sum_le_sum fun i _ => hrel i).trans ?_
      rw [← Finset.mul_sum]
      exact mul_le_mul_of_nonneg_left hQ1 hu0) hQ1
  have e1 : (Y - μ) ⬝ᵥ (V *ᵥ (Y - μ)) = ∑ j, (∑ i, (Y i - μ i) * V i j) * (Y j - μ j) := by
    rw [Matrix.dotProduct_mulVec]
    rfl
  rw [e1]
  refine le_trans hch (le_of_eq ?_)
  ring

/-- The error of the computed factor; `β'` is within `D` of `β`. -/
theorem roundedFactor_error (hf : Nearest fl) {ν β β' D u : ℝ} (hu : u = 1 / 2 ^ 53) (hν : 2 < ν)
    (hνd : ν ∈ Double) (hβ : 0 ≤ β) (hβd : β' ∈ Double) (hD : |β' - β| ≤ D) (hn : 1 ≤ n)
    (hn53 : n < 2 ^ 53) {q c : ℝ} (hq : q = ν + n - 2) (hc : c = (ν + β - 2) / q) :
    fl (fl (ν + n) - 2) ≠ 0 ∧
    |roundedFactor fl ν β' n - c| ≤
      2 * (2 * D + 3 * u * (ν + β)) / q + 7 * u * c + (2 : ℝ) ^ (-1075 : ℤ) := by
  have hu0 : 0 < u := by rw [hu]; positivity
  have hu1 : u ≤ 1 / 1000 := by rw [hu]; norm_num
  have hn1 : (1 : ℝ) ≤ n := by exact_mod_cast hn
  have hD0 : 0 ≤ D := (abs_nonneg _).trans hD
  have two : (2 : ℝ) ∈ Double := by simpa using double_nat (show 2 < 2 ^ 53 by norm_num)
  have hq1 : 1 ≤ q := by rw [hq]; linarith
  have hp0 : 0 < ν + β - 2 := by linarith
  -- denominator
  have hq' : |fl (fl (ν + n) - 2) - q| ≤ 5 * u * q := by
    have a1 := fl_add_rel hf hνd (double_nat hn53)
    rw [← hu, abs_of_pos (show 0 < ν + n by linarith)] at a1
    have a2 := fl_sub_rel hf (hf.mem (ν + n)) two
    rw [← hu] at a2
    generalize fl (ν + (n : ℝ)) = a at *
    generalize fl (a - 2) = z at *
    have a3 : ν + n ≤ 3 * q := by rw [hq]; linarith
    have a4 : |a - 2 - q| ≤ u * (3 * q) := by
      have : a - 2 - q = a - (ν + n) := by rw [hq]; ring
      rw [this]
      exact a1.trans (mul_le_mul_of_nonneg_left a3 hu0.le)
    have a5 := abs_sub_abs_le_abs_sub (a - 2) q
    rw [abs_of_pos (show 0 < q by linarith)] at a5
    have a6 : u * |a - 2| ≤ u * (2 * q) := by
      refine mul_le_mul_of_nonneg_left ?_ hu0.le
      have : u * (3 * q) ≤ 1 / 1000 * (3 * q) := mul_le_mul_of_nonneg_right hu1 (by linarith)
      linarith
    have a7 := abs_sub_le z (a - 2) q
    linarith
  -- numerator
  have hp' : |fl (fl (ν + β') - 2) - (ν + β - 2)| ≤ 2 * D + 3 * u * (ν + β) := by
    have a1 := fl_add_rel hf hνd hβd
    rw [← hu] at a1
    have a2 := fl_sub_rel hf (hf.mem (ν + β')) two
    rw [← hu] at a2
    generalize fl (ν + β') = a at *
    generalize fl (a - 2) = z at *
    have a3 : |ν + β'| ≤ ν + β + D := by
      have := abs_add_le (ν + β) (β' - β)
      rw [abs_of_pos (show 0 < ν + β by linarith)] at this
      have e : ν + β + (β' - β) = ν + β' := by ring
      rw [e] at this
      linarith
    have a4 : |a - (ν + β)| ≤ D + u * (ν + β + D) := by
      have b1 := abs_sub_le a (ν + β') (ν + β)
      have b2 : ν + β' - (ν + β) = β' - β := by ring
      rw [b2] at b1
      have b3 := mul_le_mul_of_nonneg_left a3 hu0.le
      linarith
    have a5 : |a - 2| ≤ ν + β + (D + u * (ν + β + D)) := by
      have b1 := abs_add_le (ν + β - 2) (a - (ν + β))
      rw [abs_of_pos hp0] at b1
      have e : ν + β - 2 + (a - (ν + β)) = a - 2 := by ring
      rw [e] at b1
      linarith
    have a6 := mul_le_mul_of_nonneg_left a5 hu0.le
    have a7 := abs_sub_le z (a - 2) (ν + β - 2)
    have e : a - 2 - (ν + β - 2) = a - (ν + β) := by ring
    rw [e] at a7
    have a8 : u * (u * (ν + β + D)) ≤ 1 / 1000 * (u * (ν + β + D)) :=
      mul_le_mul_of_nonneg_right hu1 (mul_nonneg hu0.le (by linarith))
    have a9 : u * D ≤ 1 / 1000 * D := mul_le_mul_of_nonneg_right hu1 hD0
    have a10 : 0 ≤ u * (ν + β) := mul_nonneg hu0.le (by linarith)
    linarith
  have hqz : 0 < fl (fl (ν + n) - 2) := by
    have : 5 * u * q ≤ 5 * (1 / 1000) * q := mul_le_mul_of_nonneg_right (by linarith) (by linarith)
    linarith [(abs_le.1 hq').1]
  refine ⟨hqz.ne', ?_⟩
  rw [roundedFactor]
  have hfl := fl_error hf (fl (fl (ν + β') - 2) / fl (fl (ν + n) - 2))
  rw [← hu] at hfl
  generalize fl (fl (ν + β') - 2) = p' at *
  generalize fl (fl (ν + (n : ℝ)) - 2) = q' at *
  generalize hA : 2 * D + 3 * u * (ν + β) = A at *
  have hA0 : 0 ≤ A := (abs_nonneg _).trans hp'
  have hc0 : 0 < c := by rw [hc]; exact div_pos hp0 (by linarith)
  have hcq : c * q = ν + β - 2 := by rw [hc]; field_simp
  have hz : |p' / q' - c| ≤ 11 / 10 * (A / q) + 11 / 2 * u * c := by
    have e : p' / q' - c = (p' - (ν + β - 2) + c * (q - q')) / q' := by
      rw [← hcq]
      field_simp
      ring
    have b1 : |p' - (ν + β - 2) + c * (q - q')| ≤ A + c * (5 * u * q) := by
      refine (abs_add_le _ _).trans (add_le_add hp' ?_)
      rw [abs_mul, abs_of_pos hc0, abs_sub_comm]
      exact mul_le_mul_of_nonneg_left hq' hc0.le
    have b2 : 10 / 11 * q ≤ q' := by
      have : 5 * u * q ≤ 5 * (1 / 1000) * q := mul_le_mul_of_nonneg_right (by linarith) (by linarith)
      linarith [(abs_le.1 hq').1]
    rw [e, abs_div, abs_of_pos hqz]
    have b3 : 0 ≤ A + c * (5 * u * q) := (abs_nonneg _).trans b1
    refine (div_le_div₀ b3 b1 (by linarith) b2).trans (le_of_eq ?_)
    field_simp
    ring
  have hz0 : |p' / q'| ≤ c + (11 / 10 * (A / q) + 11 / 2 * u * c) := by
    have := abs_sub_abs_le_abs_sub (p' / q') c
    rw [abs_of_pos hc0] at this
    linarith
  have h1 := abs_sub_le (fl (p' / q')) (p' / q') c
  have h2 := mul_le_mul_of_nonneg_left hz0 hu0.le
  have hAq : 0 ≤ A / q := div_nonneg hA0 (by linarith)
  have h3 : u * (11 / 10 * (A / q)) ≤ 1 / 1000 * (11 / 10 * (A / q)) :=
    mul_le_mul_of_nonneg_right hu1 (by positivity)
  have h4 : u * (11 / 2 * u * c) ≤ 1 / 1000 * (11 / 2 * u * c) :=
    mul_le_mul_of_nonneg_right hu1 (by positivity)
  have h5 : 0 ≤ u * c := by positivity
  rw [mul_div_assoc]
  linarith

/-- Computed means and deviations are doubles, and deviations are not negative. -/
theorem roundedTp_doubles (hf : Nearest fl) {X : Fin n → Point d} {Y : Fin n → ℝ} {Xs : Fin m → Point d}
    {K V : Matrix (Fin n) (Fin n) ℝ} {prior : Gp.PriorMu d} {ν : ℝ} {mu sd : Fin m → ℝ}
    {S : Matrix (Fin m) (Fin m) ℝ}
    (hp : RoundedTp.predictWithCov fl ex o mm X Y Xs K V h name prior = .ok (ν, mu, sd, S)) (j : Fin m) :
    mu j ∈ Double ∧ sd j ∈ Double ∧ 0 ≤ sd j := by
  simp only [RoundedTp.predictWithCov, bind, Except.bind, pure, Except.pure] at hp
  split at hp <;> try cases hp
  split at hp <;> try cases hp
  split at hp <;> try cases hp
  split at hp <;> try cases hp
  split at hp <;> try cases hp
  split at hp <;> try cases hp
  split at hp <;> try cases hp
  split at hp <;> try cases hp
  exact ⟨hf.mem _, hf.mem _, fl_nonneg hf (Real.sqrt_nonneg _)⟩

/-- The objective at one candidate, from what predictions and the acquisition function give there. -/
theorem tpObjective_at {cdf pdf lg : ℝ → ℝ} {bo : BoWTp.BOwTP d} {X : Fin n → Point d} {Y : Fin n → ℝ}
    {K V : Matrix (Fin n) (Fin n) ℝ} (hh : Describes h σ s l) {x : Point d} {ν : ℝ} {mu sd : Fin 1 → ℝ}
    {S : Matrix (Fin 1) (Fin 1) ℝ} {f : AcqFun} {v : ℝ}
    (hp : RoundedTp.predictWithCov fl ex o mm X Y (fun _ : Fin 1 => x) K V h bo.str_cov bo.prior_mu =
      .ok (ν, mu, sd, S))
    (hc : RoundedChoice.chooseFunAcquisition fl cdf pdf lg bo.str_acq (some σ) = .ok f)
    (hv : f [mu 0] [sd 0] (List.ofFn Y) = .ok [v]) :
    onePoint (RoundedTp.negAcquisition fl ex cdf pdf lg o mm bo X Y (K, V, h)) x =
      .ok (.fin (-1 * fl (v * 10))) := by
  have hg : ([x] : List (Point d)).get = fun _ : Fin 1 => x := by
    funext i
    fin_cases i
    rfl
  have e1 : ∀ g : Fin 1 → ℝ, List.ofFn g = [g 0] := fun g => by simp
  have hp' : RoundedTp.predictWithCov fl ex o mm X Y ([x] : List (Point d)).get K V h bo.str_cov
      bo.prior_mu = .ok (ν, mu, sd, S) := by
    rw [hg]
    exact hp
  have ha : RoundedTp.computeAcquisitions fl ex cdf pdf lg o mm bo ([x] : List (Point d)).get X Y
      (K, V, h) = .ok [fl (v * MULTIPLIER_ACQ)] := by
    simp only [RoundedTp.computeAcquisitions, RoundedTp.computePosteriors, Gp.validateCommonArgs,
      noiseArg_describes hh, hc, hp', bind, Except.bind, pure, Except.pure]
    have e2 : List.ofFn (n := ([x] : List (Point d)).length) mu = [mu 0] := e1 mu
    have e3 : List.ofFn (n := ([x] : List (Point d)).length) sd = [sd 0] := e1 sd
    rw [e2, e3, hv]
    rfl
  simp [onePoint, RoundedTp.negAcquisition, ha, bind, Except.bind, pure, Except.pure, pyIndex,
    MULTIPLIER_ACQ]

/-- Without rounding the model is the one of `Tp.lean`. -/
theorem roundedTp_id (ho : o.Covers d) (hn : name ∈ baseNames) (X : Fin n → Point d) (Xs : Fin m → Point d)
    (Y : Fin n → ℝ) (K V : Matrix (Fin n) (Fin n) ℝ) (prior : Gp.PriorMu d) :
    RoundedTp.predictWithCov id Real.exp o (fun A B => A * B) X Y Xs K V h name prior =
      Tp.predictWithCov (.vec X) Y (.vec Xs) K V h name prior := by
  simp only [RoundedTp.predictWithCov, Tp.predictWithCov, roundedCovMain_id ho (base_allowed hn), id]
  rfl

theorem roundedTpNegAcquisition_id (ho : o.Covers d) {bo : BoWTp.BOwTP d} (hn : bo.str_cov ∈ baseNames)
    (X : Fin n → Point d) (Y : Fin n → ℝ) (fit : Fit n) (xs : List (Point d)) :
    RoundedTp.negAcquisition id Real.exp Acquisition.normCdf Acquisition.normPdf Real.log o
      (fun A B => A * B) bo X Y fit xs = BoWTp.negAcquisition bo (.vec X) Y fit xs := by
  simp only [RoundedTp.negAcquisition, RoundedTp.computeAcquisitions, RoundedTp.computePosteriors,
    BoWTp.negAcquisition, BoWTp.computeAcquisitions, BoWTp.computePosteriors, roundedTp_id ho hn,
    roundedChoose_id, id]

/-- Sizes in a case with numbers: the error of the misfit. -/
theorem typical_misfit {n d σ N Q : ℝ} (hn : n ≤ 20) (hn0 : 1 ≤ n) (hd : d ≤ 10) (hd0 : 0 ≤ d)
    (hσ : 1 / 100 ≤ σ ^ 2) (hσ1 : σ ^ 2 ≤ 1) (hN0 : 0 ≤ N) (hN : N ^ 2 ≤ 180) (hQ0 : 0 ≤ Q) (hQ : Q ≤ 60)
    {E e B κ ρ G γ t D u : ℝ} (hu : u = 1 / 2 ^ 53) (k1 : n * E < σ ^ 2 + 1 / 100000)
    (hE : E = 1 ^ 2 * (2 * (1 / 2 ^ 50) + (1 + (d + 1) * 10) / 2 ^ 44) + (σ ^ 2 + 1) / 2 ^ 49)
    (he : e = 1 ^ 2 * (2 * (1 / 2 ^ 50) + (1 + (d + 1) * 10) / 2 ^ 45) + (2 : ℝ) ^ (-1070 : ℤ))
    (hB : B = 1 / (σ ^ 2 + 1 / 100000 - n * E) + 1 / 10 ^ 9) (hκ : κ = 1 ^ 2 + e)
    (hρ : ρ = n * E / ((σ ^ 2 + 1 / 100000) * (σ ^ 2 + 1 / 100000 - n * E)) + n * (1 / 10 ^ 9))
    (hγ : γ = (4 * n + 1) / 2 ^ 53) (ht : t = 2 * n * (2 : ℝ) ^ (-1075 : ℤ))
    (hG : G = 1 ^ 4 * n * ρ + n * κ * (n * B * (2 * e + 3 * γ * κ) + 2 * t) + t +
      (1 ^ 2 * (2 * (1 / 2 ^ 50) + (1 + (d + 1) * 10) / 2 ^ 44) + 1 / 2 ^ 49))
    (hD : D = ρ * N ^ 2 + (n * B * N * Q * (12 * γ + 3 * u) + 4 * t * Q + t)) :
    0 ≤ G ∧ 0 ≤ D ∧ D ≤ 38 / 10 ^ 5 := by
  have hn00 : 0 ≤ n := by linarith
  have ht2 : (2 : ℝ) ^ (-1075 : ℤ) ≤ 1 / 10 ^ 20 := by
    have h1 : (2 : ℝ) ^ (-1075 : ℤ) ≤ (2 : ℝ) ^ (-70 : ℤ) := zpow_le_zpow_right₀ (by norm_num) (by norm_num)
    exact h1.trans (by norm_num)
  have ht2' : (0 : ℝ) < (2 : ℝ) ^ (-1075 : ℤ) := by positivity
  have hE0 : 0 ≤ E := by rw [hE]; positivity
  have he0 : 0 ≤ e := by rw [he]; positivity
  have hE1 : E ≤ 1 / 10 ^ 11 := by
    rw [hE]
    norm_num
    linarith
  have hnE : n * E ≤ 2 / 10 ^ 10 := by
    have := mul_le_mul hn hE1 hE0 (by norm_num)
    linarith
  have hnE0 : 0 ≤ n * E := by positivity
  have hgap : 1 / 100 ≤ σ ^ 2 + 1 / 100000 - n * E := by
    norm_num at hnE hσ ⊢
    linarith
  have hgap0 : 0 < σ ^ 2 + 1 / 100000 - n * E := sub_pos.2 k1
  have hτ : 1 / 100 ≤ σ ^ 2 + 1 / 100000 := by linarith
  have hB1 : B ≤ 101 := by
    have : 1 / (σ ^ 2 + 1 / 100000 - n * E) ≤ 1 / (1 / 100) :=
      one_div_le_one_div_of_le (by norm_num) hgap
    rw [hB]
    norm_num at this ⊢
    linarith
  have hB0 : 0 ≤ B := by rw [hB]; positivity
  have hρ1 : ρ ≤ 1 / 490000 := by
    have h1 : (1 / 100) * (1 / 100) ≤ (σ ^ 2 + 1 / 100000) * (σ ^ 2 + 1 / 100000 - n * E) :=
      mul_le_mul hτ hgap (by norm_num) (by positivity)
    have h2 : n * E / ((σ ^ 2 + 1 / 100000) * (σ ^ 2 + 1 / 100000 - n * E)) ≤
        (2 / 10 ^ 10) / ((1 / 100) * (1 / 100)) :=
      div_le_div₀ (by norm_num) hnE (by norm_num) h1
    rw [hρ]
    norm_num at h2 ⊢
    linarith
  have hρ0 : 0 ≤ ρ := by rw [hρ]; positivity
  have hγ0 : 0 ≤ γ := by rw [hγ]; positivity
  have hγ1 : γ ≤ 1 / 10 ^ 13 := by
    rw [hγ]
    norm_num
    linarith
  have hu0 : 0 ≤ u := by rw [hu]; positivity
  have hu1 : u ≤ 1 / 10 ^ 15 := by rw [hu]; norm_num
  have ht0 : 0 ≤ t := by rw [ht]; positivity
  have ht3 : t ≤ 1 / 10 ^ 15 := by
    rw [ht]
    have := mul_le_mul (mul_le_mul_of_nonneg_left hn (by norm_num : (0 : ℝ) ≤ 2)) ht2 ht2'.le
      (by norm_num)
    refine this.trans (by norm_num)
  have hκ0 : 0 ≤ κ := by rw [hκ]; positivity
  have hG0 : 0 ≤ G := by rw [hG]; positivity
  have hN1 : N ≤ 14 := by nlinarith
  have hD1 : D ≤ 38 / 10 ^ 5 := by
    have h1 : ρ * N ^ 2 ≤ 1 / 490000 * 180 := mul_le_mul hρ1 hN (by positivity) (by norm_num)
    have h2 : n * B * N * Q ≤ 20 * 101 * 14 * 60 :=
      mul_le_mul (mul_le_mul (mul_le_mul hn hB1 hB0 (by norm_num)) hN1 hN0 (by norm_num)) hQ hQ0
        (by norm_num)
    have h3 : n * B * N * Q * (12 * γ + 3 * u) ≤ 20 * 101 * 14 * 60 * (12 / 10 ^ 13 + 3 / 10 ^ 15) :=
      mul_le_mul h2 (by linarith) (by positivity) (by norm_num)
    have h4 : 4 * t * Q ≤ 4 * (1 / 10 ^ 15) * 60 := mul_le_mul (by linarith) hQ hQ0 (by norm_num)
    rw [hD]
    generalize n * B * N * Q * (12 * γ + 3 * u) = z1 at *
    generalize 4 * t * Q = z2 at *
    generalize ρ * N ^ 2 = z3 at *
    clear hD hG hκ hρ hB
    norm_num at h1 h3 h4 ht3 ⊢
    linarith only [h1, h3, h4, ht3]
  have hD0 : 0 ≤ D := by rw [hD]; positivity
  exact ⟨hG0, hD0, hD1⟩

/-- Sizes in a case with numbers, with the misfit `β` of the observations and `ν` degrees of freedom. -/
theorem typical_tp {n d σ N Q β ν : ℝ} (hn : n ≤ 20) (hn0 : 1 ≤ n) (hd : d ≤ 10) (hd0 : 0 ≤ d)
    (hσ : 1 / 100 ≤ σ ^ 2) (hσ1 : σ ^ 2 ≤ 1) (hN0 : 0 ≤ N) (hN : N ^ 2 ≤ 180) (hQ0 : 0 ≤ Q) (hQ : Q ≤ 60)
    (hβ : 0 ≤ β) (hν : 3 ≤ ν) (hν1 : ν ≤ 10 ^ 6) {E e B κ ρ F G γ t D c ε u : ℝ} (hu : u = 1 / 2 ^ 53)
    (hE : E = 1 ^ 2 * (2 * (1 / 2 ^ 50) + (1 + (d + 1) * 10) / 2 ^ 44) + (σ ^ 2 + 1) / 2 ^ 49)
    (he : e = 1 ^ 2 * (2 * (1 / 2 ^ 50) + (1 + (d + 1) * 10) / 2 ^ 45) + (2 : ℝ) ^ (-1070 : ℤ))
    (hB : B = 1 / (σ ^ 2 + 1 / 100000 - n * E) + 1 / 10 ^ 9) (hκ : κ = 1 ^ 2 + e)
    (hρ : ρ = n * E / ((σ ^ 2 + 1 / 100000) * (σ ^ 2 + 1 / 100000 - n * E)) + n * (1 / 10 ^ 9))
    (hγ : γ = (4 * n + 1) / 2 ^ 53) (ht : t = 2 * n * (2 : ℝ) ^ (-1075 : ℤ))
    (hF : F = Q * (1 ^ 2 * ρ + n * B * (e + (6 * γ + u) * κ) + 4 * t) + t)
    (hG : G = 1 ^ 4 * n * ρ + n * κ * (n * B * (2 * e + 3 * γ * κ) + 2 * t) + t +
      (1 ^ 2 * (2 * (1 / 2 ^ 50) + (1 + (d + 1) * 10) / 2 ^ 44) + 1 / 2 ^ 49))
    (hD : D = ρ * N ^ 2 + (n * B * N * Q * (12 * γ + 3 * u) + 4 * t * Q + t))
    (hc : c = (ν + β - 2) / (ν + n - 2))
    (hε : ε = 2 * (2 * D + 3 * u * (ν + β)) / (ν + n - 2) + 7 * u * c + (2 : ℝ) ^ (-1075 : ℤ)) :
    n * E < σ ^ 2 + 1 / 100000 ∧ 0 ≤ F ∧ F ≤ 5 / 10 ^ 4 ∧ G ≤ 42 / 10 ^ 6 ∧ 0 ≤ G ∧
      (2 : ℝ) ^ (-1075 : ℤ) ≤ c / 10 ^ 10 ∧ (2 : ℝ) ^ (-1075 : ℤ) ≤ √c / 10 ^ 10 ∧ 0 < c ∧ 0 ≤ ε ∧
      ε ≤ 16 / 10 ^ 4 * c := by
  obtain ⟨k1, k2, k3, k4⟩ := typical_choice (n := n) hn (by linarith) hd hd0 hσ hσ1 (hQ.trans (by norm_num))
    hQ0 hE he hB hκ hρ hγ ht (hu ▸ hF) hG
  have ht2 : (2 : ℝ) ^ (-1075 : ℤ) ≤ 1 / 10 ^ 20 := by
    have h1 : (2 : ℝ) ^ (-1075 : ℤ) ≤ (2 : ℝ) ^ (-70 : ℤ) := zpow_le_zpow_right₀ (by norm_num) (by norm_num)
    exact h1.trans (by norm_num)
  have ht2' : (0 : ℝ) < (2 : ℝ) ^ (-1075 : ℤ) := by positivity
  have hu0 : 0 ≤ u := by rw [hu]; positivity
  have hu1 : u ≤ 1 / 10 ^ 15 := by rw [hu]; norm_num
  obtain ⟨hG0, hD0, hD1⟩ := typical_misfit hn hn0 hd hd0 hσ hσ1 hN0 hN hQ0 hQ hu k1 hE he hB hκ hρ hγ ht hG hD
  clear hE he hB hκ hρ hγ ht hG hD hF
  have hq0 : 0 < ν + n - 2 := by linarith
  have hq1 : ν + n - 2 ≤ 2 * 10 ^ 6 := by
    norm_num at hν1 ⊢
    linarith
  have hp1 : 1 ≤ ν + β - 2 := by linarith
  have hc0 : 0 < c := by
    rw [hc]
    exact div_pos (by linarith) hq0
  have hc1 : 1 / (2 * 10 ^ 6) ≤ c := by
    rw [hc]
    exact div_le_div₀ (by linarith) hp1 hq0 hq1
  have hT : (2 : ℝ) ^ (-1075 : ℤ) ≤ c / 10 ^ 10 := by
    refine ht2.trans ?_
    rw [le_div_iff₀ (by norm_num)]
    refine le_trans ?_ hc1
    norm_num
  refine ⟨k1, k2, k3, k4, hG0, hT, ?_, hc0, ?_, ?_⟩
  · refine ht2.trans ?_
    rw [le_div_iff₀ (by norm_num)]
    refine Real.le_sqrt_of_sq_le (le_trans ?_ hc1)
    norm_num
  · rw [hε]
    positivity
  · have h1 : 2 * (2 * D + 3 * u * (ν + β)) / (ν + n - 2) ≤ (4 * (38 / 10 ^ 5) + 18 / 10 ^ 15) * c := by
      rw [hc, ← mul_div_assoc]
      refine div_le_div_of_nonneg_right ?_ hq0.le
      have h2 : u * (ν + β) ≤ 1 / 10 ^ 15 * (3 * (ν + β - 2)) :=
        mul_le_mul hu1 (by linarith) (by linarith) (by norm_num)
      have h3 : D ≤ 38 / 10 ^ 5 * (ν + β - 2) := by nlinarith
      linarith
    have h2 : 7 * u * c ≤ 7 * (1 / 10 ^ 15) * c := by nlinarith
    rw [hε]
    norm_num at h1 h2 hT ⊢
    linarith

/-- Errors of variance and deviation in a case with numbers. -/
theorem typical_tp_point {S G c ε u w : ℝ} (hu : u = 1 / 2 ^ 53) (hS0 : 0 ≤ S) (hS : S ≤ 1 ^ 2 + 1 / 100000)
    (hG0 : 0 ≤ G) (hG : G ≤ 42 / 10 ^ 6) (hc : 0 < c) (hε0 : 0 ≤ ε) (hε : ε ≤ 16 / 10 ^ 4 * c)
    (hT : (2 : ℝ) ^ (-1075 : ℤ) ≤ c / 10 ^ 10) (hT' : (2 : ℝ) ^ (-1075 : ℤ) ≤ √c / 10 ^ 10)
    (hw : w = √(c * S)) :
    (1 + u) * (ε * (|S| + ((1 + u) * G + u * |S|)) + c * ((1 + u) * G + u * |S|)) + u * (c * |S|) +
      (2 : ℝ) ^ (-1075 : ℤ) ≤ 2 / 1000 * c ∧
    w ≤ 101 / 100 * √c ∧
    (1 + u) * √(2 / 1000 * c) + u * w + (2 : ℝ) ^ (-1075 : ℤ) ≤ 45 / 1000 * √c := by
  have hu0 : 0 ≤ u := by rw [hu]; positivity
  have hu1 : u ≤ 1 / 10 ^ 15 := by rw [hu]; norm_num
  generalize (2 : ℝ) ^ (-1075 : ℤ) = T at *
  have hs := Real.sqrt_nonneg c
  have h1 : w ≤ 101 / 100 * √c := by
    rw [hw, mul_comm, Real.sqrt_mul hS0]
    refine mul_le_mul_of_nonneg_right (Real.sqrt_le_iff.2 ⟨by norm_num, ?_⟩) hs
    norm_num at hS ⊢
    linarith
  refine ⟨?_, h1, ?_⟩
  · rw [abs_of_nonneg hS0]
    have hS1 : S ≤ 101 / 100 := by
      norm_num at hS ⊢
      linarith
    have a1 : u * S ≤ 1 / 10 ^ 15 * (101 / 100) := mul_le_mul hu1 hS1 hS0 (by norm_num)
    have a2 : u * G ≤ 1 / 10 ^ 15 * (42 / 10 ^ 6) := mul_le_mul hu1 hG hG0 (by norm_num)
    have a3 : (1 + u) * G + u * S ≤ 43 / 10 ^ 6 := by
      norm_num at a1 a2 hG ⊢
      linarith
    have a4 : 0 ≤ (1 + u) * G + u * S := by positivity
    generalize (1 + u) * G + u * S = g at *
    have a5 : ε * (S + g) ≤ 16 / 10 ^ 4 * c * (102 / 100) :=
      mul_le_mul hε (by norm_num at a3 ⊢; linarith) (by positivity) (by positivity)
    have a6 : c * g ≤ c * (43 / 10 ^ 6) := mul_le_mul_of_nonneg_left a3 hc.le
    have a7 : u * (c * S) ≤ 1 / 10 ^ 15 * (c * (101 / 100)) :=
      mul_le_mul hu1 (mul_le_mul_of_nonneg_left hS1 hc.le) (by positivity) (by norm_num)
    have a8 : 0 ≤ ε * (S + g) + c * g := by positivity
    have a9 : (1 + u) * (ε * (S + g) + c * g) ≤ (1 + 1 / 10 ^ 15) * (ε * (S + g) + c * g) :=
      mul_le_mul_of_nonneg_right (by linarith) a8
    norm_num at a5 a6 a7 a9 hT ⊢
    linarith
  · have b1 : √(2 / 1000 * c) ≤ 4473 / 100000 * √c := by
      rw [Real.sqrt_mul (by norm_num)]
      exact mul_le_mul_of_nonneg_right (Real.sqrt_le_iff.2 ⟨by norm_num, by norm_num⟩) hs
    have b2 : (1 + u) * √(2 / 1000 * c) ≤ (1 + 1 / 10 ^ 15) * (4473 / 100000 * √c) :=
      mul_le_mul (by linarith) b1 (Real.sqrt_nonneg _) (by norm_num)
    have hw0 : 0 ≤ w := by rw [hw]; positivity
    have b3 : u * w ≤ 1 / 10 ^ 15 * (101 / 100 * √c) := mul_le_mul hu1 h1 hw0 (by norm_num)
    norm_num at b2 b3 hT' ⊢
    linarith

/-- The deviation of an exact prediction of the Student-t process is the root of its variance. -/
theorem tp_deviation {X : Fin n → Point d} {Y : Fin n → ℝ} {Xs : Fin m → Point d} {prior : Gp.PriorMu d}
    {ν : ℝ} {mu sd : Fin m → ℝ} {T : Matrix (Fin m) (Fin m) ℝ}
    (hp : Tp.predictWithHyps (.vec X) Y (.vec Xs) h name prior = .ok (ν, mu, sd, T)) (j : Fin m) :
    sd j = √(max (T j j) 0) := by
  simp only [Tp.predictWithHyps, Tp.predictWithCov, bind, Except.bind, pure, Except.pure] at hp
  split at hp <;> try cases hp
  split at hp <;> try cases hp
  split at hp <;> try cases hp
  split at hp <;> try cases hp
  split at hp <;> try cases hp
  split at hp <;> try cases hp
  split at hp <;> try cases hp
  split at hp <;> try cases hp
  split at hp <;> try cases hp
  split at hp <;> try cases hp
  split at hp <;> try cases hp
  rfl

end Verif.Lemmas
