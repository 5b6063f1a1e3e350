import Verif.Props.RoundedTpLikelihood
import Verif.Props.RoundedTpStepReturns

/-! # C162: the fit of a step with the Student-t process in double precision -/

namespace Verif.Props

open Verif.Spec Verif.Covariance Verif.UtilsCovariance Verif.Lemmas Verif.Rounded Verif.RoundedPredict
  Verif.Constants Verif.BoCommon Verif.UtilsBo Verif.RoundedStep
open Verif.BoWTp (BOwTP TpState)
open scoped Matrix

section

variable {n d : ℕ} {lib : Library n} {nll : List Flt → Py ℝ} {bo : BOwTP d} {orc : Oracles d}
  {X : Fin n → Point d} {gm : ℝ → ℝ} {sld : Matrix (Fin n) (Fin n) ℝ → ℝ × ℝ}

/-- Logarithms of determinants of kernel matrices under hyperparameters of ordinary size are right up to
`1e-9`. -/
def Determines (lib : Library n) (X : Fin n → Point d) (name : String)
    (sld : Matrix (Fin n) (Fin n) ℝ → ℝ × ℝ) : Prop :=
  ∀ h s l K, OrdinaryHyps (fun x => ∃ i, x = X i) h s l →
    RoundedKernels.kernelMatrix lib.fl lib.ex lib.o X h name = .ok K → LogDetWithin (1 / 10 ^ 9) K (sld K)

/-- C162: the computed likelihood of a step, for the sum over all responses, with the default noise and
normalised responses. The bound is 0.39 for the 5 degrees of freedom a fit starts from, and less than 1.9 for
200, the largest number a fit may end with. -/
theorem C162_default {name : String} (hlib : Accurate lib X name) (hn10 : n ≤ 10) (hd : d ≤ 2)
    (hn : name ∈ baseNames) (hgm : GammaRelative (1 / 10 ^ 12) gm) (hsld : Determines lib X name sld)
    {hyps : HypDict} {s : ℝ} {l : Fin d → ℝ} (hm : OrdinaryHyps (fun x => ∃ i, x = X i) hyps s l) {ν : ℝ}
    (hν : 3 ≤ ν) (hν1 : ν ≤ 200) (hνd : ν ∈ Double) (hdof : hyps.dof = some (.flt (.fin ν))) {v : List Flt}
    {ard fix : Bool} (hr : restoreHyps name v false ard fix = .ok hyps) {Yt : Fin n → ℝ}
    (hYd : ∀ i, Yt i ∈ Double) (hY : ∀ i, 0 ≤ Yt i ∧ Yt i ≤ 10) (hY10 : ∃ i, Yt i = 10) :
    ∃ value, RoundedTpLikelihood.negLogMl lib.fl lib.ex lib.lg gm lib.o lib.mm lib.inv sld X Yt v name
        (fun _ => 0) ard fix = .ok value ∧
      |n * value + Real.log (mvtDensity ν (fun _ => 0) (noisyGram name (1 / 100) s l (.vec X)) Yt)| ≤
        27 / 10 * ((ν + 10) / (ν + 100)) := by
  obtain ⟨i0, hi0⟩ := hY10
  have h0 : n ≠ 0 := fun h0 => by subst h0; exact i0.elim0
  have hn1 : 1 ≤ n := Nat.one_le_iff_ne_zero.2 h0
  have hn' : (n : ℝ) ≤ 10 := by exact_mod_cast hn10
  have hn1' : (1 : ℝ) ≤ n := by exact_mod_cast hn1
  have hn0 : (0 : ℝ) < n := by linarith
  have hd' : (d : ℝ) ≤ 2 := by exact_mod_cast hd
  have hd0 : (0 : ℝ) ≤ d := Nat.cast_nonneg d
  have hX : ∀ i, scaledLength l (X i) ≤ 2 := fun i => hm.points _ ⟨i, rfl⟩
  have zero : (0 : ℝ) ∈ Double := by simpa using double_nat (show 0 < 2 ^ 53 by norm_num)
  have hYa : ∀ i, |Yt i| ≤ 10 := fun i => abs_le.2 ⟨by linarith [hY i], (hY i).2⟩
  obtain ⟨K, hK, -, -⟩ := kernelMatrix_error hlib.nearest hlib.exp (by norm_num) (by norm_num) hlib.order
    (by norm_num; linarith) hn hm.describes hX (by norm_num; linarith)
  obtain ⟨V, hV, hVe⟩ := hlib.inverse _ _ _ _ hm hK
  have hQ := default_residual hn' hYa
  have hN0 : 0 ≤ ∑ i, (Yt i - (fun _ => 0 : Fin n → ℝ) i) ^ 2 := Finset.sum_nonneg fun i _ => sq_nonneg _
  obtain ⟨N, hN⟩ : ∃ N, N = √(∑ i, (Yt i - (fun _ => 0 : Fin n → ℝ) i) ^ 2) := ⟨_, rfl⟩
  have hN0' : 0 ≤ N := by rw [hN]; positivity
  have hNs : N ^ 2 = Yt ⬝ᵥ Yt := by
    rw [hN, Real.sq_sqrt hN0]
    simp [dotProduct, pow_two]
  have hNl : 99 ≤ N ^ 2 := by
    rw [hN, Real.sq_sqrt hN0]
    have := Finset.single_le_sum (f := fun i => (Yt i - (fun _ => 0 : Fin n → ℝ) i) ^ 2)
      (fun k _ => sq_nonneg _) (Finset.mem_univ i0)
    simp only [hi0] at this
    norm_num at this ⊢
    linarith
  have hNu : N ≤ 32 := by
    rw [hN]
    refine Real.sqrt_le_iff.2 ⟨by norm_num, ?_⟩
    have h1 : ∑ i, (Yt i - (fun _ => 0 : Fin n → ℝ) i) ^ 2 ≤ (n : ℝ) * 100 := by
      refine (Finset.sum_le_sum fun i _ => (?_ : _ ≤ (100 : ℝ))).trans_eq (by simp)
      have := hY i
      simp only [sub_zero]
      nlinarith
    linarith
  have hNu2 : N ^ 2 ≤ 1024 := by
    have := pow_le_pow_left₀ hN0' hNu 2
    norm_num at this
    exact this
  have hQ' : √n * N ≤ 100 := by rw [hN]; exact hQ
  have hY0 : Yt - (fun _ => 0 : Fin n → ℝ) = Yt := by
    funext i
    simp
  obtain ⟨β, hβ⟩ : ∃ β, β = Yt ⬝ᵥ ((noisyGram name (1 / 100) s l (.vec X))⁻¹ *ᵥ Yt) := ⟨_, rfl⟩
  have hβ0 : 0 ≤ β := by
    rw [hβ]
    exact misfit_nonneg (noisyGram_posDef name (1 / 100) s l (.vec X)) _
  have hβN : N ^ 2 ≤ 10002 / 1000 * β := by
    have h1 := misfit_ge name (1 / 100) s l (.vec X) Yt
    rw [← hβ, ← hNs] at h1
    refine h1.trans (mul_le_mul_of_nonneg_right ?_ hβ0)
    have := mul_le_mul hn' hm.signal (sq_nonneg s) (by norm_num)
    norm_num at this ⊢
    linarith
  have hβ1 : β ≤ 10 ^ 7 := by
    have k2 := misfit_le_noise name (1 / 100) s l (.vec X) Yt
    rw [misfit, ← hβ, ← hNs] at k2
    refine k2.trans ?_
    rw [div_le_iff₀ (by norm_num)]
    norm_num
    linarith
  obtain ⟨E, hE⟩ : ∃ E : ℝ, E = s ^ 2 * (2 * (1 / 2 ^ 50) + (1 + (d + 1) * 2) / 2 ^ 44) +
    ((1 / 100) ^ 2 + 1) / 2 ^ 49 := ⟨_, rfl⟩
  have hE0 : 0 ≤ E := by rw [hE]; positivity
  have hE1 : E ≤ 5 / 10 ^ 13 := by
    have hP : s ^ 2 * (2 * (1 / 2 ^ 50) + (1 + (d + 1) * 2) / 2 ^ 44) ≤ 41 / 10 ^ 14 := by
      refine (mul_le_mul_of_nonneg_right hm.signal (by positivity)).trans ?_
      norm_num
      linarith
    rw [hE]
    norm_num at hP ⊢
    linarith
  have hnE : n * E ≤ 5 / 10 ^ 12 := by
    have := mul_le_mul hn' hE1 hE0 (by norm_num)
    norm_num at this ⊢
    linarith
  have hgap : 10999 / 10 ^ 8 ≤ (1 / 100 : ℝ) ^ 2 + 1 / 100000 - n * E := by
    norm_num at hnE ⊢
    linarith
  have hgap0 : 0 < (1 / 100 : ℝ) ^ 2 + 1 / 100000 - n * E := lt_of_lt_of_le (by norm_num) hgap
  obtain ⟨D, hD⟩ : ∃ D : ℝ, D = (n * E / (((1 / 100) ^ 2 + 1 / 100000) * ((1 / 100) ^ 2 + 1 / 100000 - n * E)) +
      n * (1 / 10 ^ 6)) * N ^ 2 + (n * (1 / ((1 / 100) ^ 2 + 1 / 100000 - n * E) + 1 / 10 ^ 6) * N * (√n * N) *
      (12 * ((4 * n + 1) / 2 ^ 53) + 3 * (1 / 2 ^ 53)) + 4 * (2 * n * (2 : ℝ) ^ (-1075 : ℤ)) * (√n * N) +
      2 * n * (2 : ℝ) ^ (-1075 : ℤ)) := ⟨_, rfl⟩
  obtain ⟨m1, m2⟩ := default_misfit (n := n) (β := 1000 / 10002 * N ^ 2) hn' hn1' hd' hd0 hm.signal hN0' hNu hNl
    hQ' (by positivity) (by linarith) rfl hE rfl rfl rfl rfl hD
  have hDN : D ≤ 425 / 10 ^ 6 * N ^ 2 := by
    norm_num at m2 ⊢
    linarith
  have hT₁ : |Real.log ((ν - 2) * Real.pi)| ≤ 700 := by
    have hπ := Real.pi_gt_three
    have hπ4 := Real.pi_lt_d2
    have h1 : 1 ≤ (ν - 2) * Real.pi := by nlinarith
    have h2 : (ν - 2) * Real.pi ≤ 198 * 3.15 := mul_le_mul (by linarith) hπ4.le (by linarith) (by norm_num)
    have h4 := Real.log_le_sub_one_of_pos (show 0 < (ν - 2) * Real.pi by linarith)
    rw [abs_of_nonneg (Real.log_nonneg h1)]
    norm_num at h2
    linarith
  have hT₄ : 0 ≤ Real.log (1 + β / (ν - 2)) ∧ Real.log (1 + β / (ν - 2)) ≤ 10 ^ 7 := by
    have h1 : 0 ≤ β / (ν - 2) := div_nonneg hβ0 (by linarith)
    have h2 : β / (ν - 2) ≤ β := div_le_self hβ0 (by linarith)
    have h4 := Real.log_le_sub_one_of_pos (show 0 < 1 + β / (ν - 2) by linarith)
    exact ⟨Real.log_nonneg (by linarith), by linarith⟩
  obtain ⟨g1, g2, g3⟩ := log_gamma_size hν hν1 (hn'.trans (by norm_num))
  have hε₂ : 1 / 10 ^ 9 + n * √n * E / ((1 / 100) ^ 2 + 1 / 100000 - n * E) ≤ 1 / 10 ^ 6 := by
    have hq : √(n : ℝ) ≤ 4 := Real.sqrt_le_iff.2 ⟨by norm_num, by linarith⟩
    have k2 : (n : ℝ) * √n ≤ 40 := by
      have := mul_le_mul hn' hq (Real.sqrt_nonneg _) (by norm_num)
      linarith
    have k3 : (n : ℝ) * √n * E ≤ 40 * (5 / 10 ^ 13) := mul_le_mul k2 hE1 hE0 (by norm_num)
    have k4 := div_le_div₀ (by norm_num) k3 (by norm_num) hgap
    norm_num at k4 ⊢
    linarith
  have hT₂ := log_det_size name (1 / 100) s l (.vec X) (τ := 1 / 10 ^ 4) (by norm_num) (by norm_num)
    (by norm_num) (by norm_num) hm.signal (hn'.trans (by norm_num))
  rw [show (200 : ℝ) / (1 / 10 ^ 4) = 2 * 10 ^ 6 by norm_num] at hT₂
  have hbound := default_tp_likelihood hn' hn1' hν hν1 (sq_nonneg N) hNu2 hβN m1 hDN rfl rfl hT₁ hT₂ g1 hT₄.1
    hT₄.2 g2 g3 rfl (by positivity) hε₂ rfl rfl rfl rfl
  obtain ⟨value, e1, e2⟩ := C162_likelihood (mm := lib.mm) (sld := sld) (inv := lib.inv) (β := β) hlib.nearest
    hlib.exp (by positivity) (by norm_num) hlib.order (hd.trans (by norm_num)) hn hr hm.describes
    (by norm_num; linarith) hνd hdof (by linarith) hX (by norm_num; linarith) h0 (by positivity) (by norm_num)
    hlib.log (by positivity) (by norm_num) hgm (by positivity) (by norm_num; linarith) (by positivity) hlib.mul
    hYd (fun _ => zero) hK hV (fun i j => (hVe i j).1) (by positivity) (fun i j => (hVe i j).2)
    (hsld _ _ _ _ hm hK) rfl hE (by linarith) rfl rfl hN rfl (by rw [hY0]; exact hβ) hD
    (by norm_num at hDN ⊢; linarith) rfl rfl rfl rfl rfl rfl rfl rfl rfl rfl
  refine ⟨value, e1, ?_⟩
  have e : n * value + Real.log (mvtDensity ν (fun _ => 0) (noisyGram name (1 / 100) s l (.vec X)) Yt) =
      n * (value - -Real.log (mvtDensity ν (fun _ => 0) (noisyGram name (1 / 100) s l (.vec X)) Yt) / n) := by
    field_simp
    ring
  rw [e, abs_mul, abs_of_pos hn0]
  refine (mul_le_mul_of_nonneg_left e2 hn0.le).trans ?_
  rw [mul_add, mul_div_cancel₀ _ hn0.ne']
  have hw := small_zpow (k := -1075) (by norm_num)
  have k5 : n * (5 * (2 : ℝ) ^ (-1075 : ℤ)) ≤ 1 / 10 ^ 3 := by
    have := mul_le_mul hn' hw (by positivity) (by norm_num)
    have e' : n * (5 * (2 : ℝ) ^ (-1075 : ℤ)) = 5 * (n * (2 : ℝ) ^ (-1075 : ℤ)) := by ring
    rw [e']
    refine (mul_le_mul_of_nonneg_left this (by norm_num)).trans ?_
    norm_num
  have hq0 : 1 / 10 ≤ (ν + 10) / (ν + 100) := by
    rw [le_div_iff₀ (by linarith)]
    linarith
  refine (add_le_add hbound k5).trans ?_
  generalize (ν + 10) / (ν + 100) = q at *
  clear * - hq0
  norm_num at hq0 ⊢
  linarith

/-- Validation leaves a dictionary alone if it ends with more than 2.00001 degrees of freedom. -/
theorem validate_same_result {h h' : HypDict} {name : String} {σ ν : ℝ}
    (hv : (validateHypsDict h name d false).2 = .ok h') (hσ : h'.noise = some (.flt (.fin σ)))
    (hd : h'.dof = some (.flt (.fin ν))) (hν : 3 ≤ ν) : h = h' := by
  have hcov : name ∈ ALLOWED_COV := by
    by_contra hn
    rw [validateHypsDict, if_pos hn] at hv
    cases hv
  refine validate_same hv hσ ?_ (show 2 < ν by linarith)
  obtain ⟨h1, e1, e2, -, -⟩ := (validate_ok_iff h h' name d false hcov).1 hv
  obtain ⟨x, ex, rfl⟩ := (validateNoise_some h h1).1 e1
  rcases (validateDof_some _ _ _).1 e2 with ⟨h, -⟩ | ⟨-, y, hy, rfl⟩
  · cases h
  · simp only [Option.some.injEq, HVal.flt.injEq] at hd
    split at hd
    · exfalso
      have := Flt.fin.inj hd
      norm_num at this
      linarith
    · simp only at hy
      rw [hy, hd]

/-- C162: the hyperparameters of a step with the Student-t process. With an optimiser that never ends with a
larger value than it started with, the exact log likelihood of the normalised responses under the fitted
hyperparameters, among them `ν` degrees of freedom, is at most `0.39 + 2.7 (ν + 10) / (ν + 100)`, and so at most
2.3, below the one under the values the fit starts from (5 degrees of freedom, noise 0.01, signal and
lengthscales 1), although every value the optimiser saw was rounded. -/
theorem C162_fit {clock : ℕ → ℝ} {Y : List ℝ} {sm : String} {ns : ℤ} {st : TpState} {t : ℕ}
    {r : TpState × ℕ} {p : Point d} {info : DictInfo n d}
    (h : RoundedTpStep.optimize lib nll bo orc clock X Y sm ns (st, t) = (r, .ok (p, info)))
    (hnll : ∀ Yt : Fin n → ℝ, List.ofFn Yt = info.Y_normalized → ∀ v, nll v =
      RoundedTpLikelihood.negLogMl lib.fl lib.ex lib.lg gm lib.o lib.mm lib.inv sld X Yt v bo.str_cov
        (fun _ => 0) bo.use_ard true)
    (hlib : Accurate lib X bo.str_cov) (hgm : GammaRelative (1 / 10 ^ 12) gm)
    (hsld : Determines lib X bo.str_cov sld) (hn10 : n ≤ 10) (hd : d ≤ 2) (hmin : Descends orc.fitHyps)
    (hX : ∀ i, scaledLength (fun _ => 1) (X i) ≤ 2)
    (hY : ∀ v ∈ info.Y_normalized, v ∈ Double ∧ 0 ≤ v ∧ v ≤ 10) (hY10 : 10 ∈ info.Y_normalized)
    {K V : Matrix (Fin n) (Fin n) ℝ} {hyps : HypDict} (hfit : info.fit = some (K, V, hyps)) {s ν : ℝ}
    {l : Fin d → ℝ} (hm : OrdinaryHyps (fun x => ∃ i, x = X i) hyps s l)
    (hdof : hyps.dof = some (.flt (.fin ν))) (hν : 3 ≤ ν) (hν1 : ν ≤ 200) (hνd : ν ∈ Double) :
    ∃ Yt : Fin n → ℝ, List.ofFn Yt = info.Y_normalized ∧
      Real.log (mvtDensity 5 (fun _ => 0) (noisyGram bo.str_cov (1 / 100) 1 (fun _ => 1) (.vec X)) Yt) ≤
        Real.log (mvtDensity ν (fun _ => 0) (noisyGram bo.str_cov (1 / 100) s l (.vec X)) Yt) +
          (39 / 100 + 27 / 10 * ((ν + 10) / (ν + 100))) := by
  obtain ⟨-, -, -, -, -, Yt, fit, e1, e2, k4, -⟩ := roundedTpStep_ok h
  rw [hfit] at e2
  obtain rfl := Option.some.inj e2
  obtain ⟨μ, hs0, v0, mt, bounds, jac, v, hr, -, f2, f3, f4, f5, f6, f7, -⟩ := roundedTpFit_trace k4
  obtain ⟨hn, -⟩ := roundedKernel_describes f7
  have hall : bo.str_cov ∈ ALLOWED_COV := List.mem_append_left _ hn
  obtain ⟨hdes, hdof0, -⟩ := start_describes hall f2
  rw [show GP_NOISE = 1 / 100 by norm_num [GP_NOISE]] at hdes
  have hstart : OrdinaryHyps (fun x => ∃ i, x = X i) hs0 1 (fun _ : Fin d => 1) :=
    ⟨hdes, by norm_num, by rintro _ ⟨i, rfl⟩; exact hX i⟩
  obtain rfl := validate_same_result f6 hm.describes.noise hdof hν
  have hYt : ∀ i, Yt i ∈ Double ∧ 0 ≤ Yt i ∧ Yt i ≤ 10 := fun i =>
    hY _ (by rw [← e1]; exact List.mem_ofFn.2 ⟨i, rfl⟩)
  have hYm : ∃ i, Yt i = 10 := by
    rw [← e1] at hY10
    exact List.mem_ofFn.1 hY10
  have five : (5 : ℝ) ∈ Double := by simpa using double_nat (show 5 < 2 ^ 53 by norm_num)
  obtain ⟨a, a1, a2⟩ := C162_default hlib hn10 hd hn hgm hsld hstart (ν := 5) (by norm_num) (by norm_num) five
    (hdof0 rfl) (start_restore hall f2 f3) (fun i => (hYt i).1) (fun i => (hYt i).2) hYm
  obtain ⟨b, b1, b2⟩ := C162_default hlib hn10 hd hn hgm hsld hm hν hν1 hνd hdof f5 (fun i => (hYt i).1)
    (fun i => (hYt i).2) hYm
  rw [← hnll Yt e1] at a1 b1
  obtain ⟨z, g, c1, c2⟩ := hmin _ _ _ _ _ _ f4 a none (by simp only [a1]; rfl)
  obtain rfl : b = z := by
    simp only [b1] at c1
    exact congrArg Prod.fst (Except.ok.inj c1)
  have c3 : (n : ℝ) * b ≤ n * a := mul_le_mul_of_nonneg_left c2 (Nat.cast_nonneg n)
  obtain ⟨a4, a5⟩ := abs_le.1 a2
  obtain ⟨b4, b5⟩ := abs_le.1 b2
  refine ⟨Yt, e1, ?_⟩
  norm_num at a4 a5
  linarith

/-- C162: with this likelihood a step with the Student-t process returns; nothing is asked of the likelihood. The
other hypotheses are those of `C161_returns`. -/
theorem C162_returns {y Yt : Fin n → ℝ} (clock : ℕ → ℝ) (st : TpState) (t : ℕ)
    (hlib : Accurate lib X bo.str_cov) (hsld : Determines lib X bo.str_cov sld) (hn10 : n ≤ 10) (hd : d ≤ 2)
    (hacq : bo.str_acq = "ei") (hprior : bo.prior_mu = none) (hnorm : bo.normalize_Y = true)
    (hn : bo.str_cov ∈ baseNames) (htp : bo.str_optimizer_method_tp ∈ ALLOWED_OPTIMIZER_METHOD_TP)
    (hbo : bo.str_optimizer_method_bo = "L-BFGS-B")
    {sm : String} (hsm : sm ∈ ALLOWED_SAMPLING_METHOD) (hg : sm ≠ "grid") {ns : ℤ} (hns : 0 < ns)
    (hy : ∀ i, y i ∈ Double) {lo hi : ℝ} (hlo : (∃ i, y i = lo) ∧ ∀ i, lo ≤ y i)
    (hhi : (∃ i, y i = hi) ∧ ∀ i, y i ≤ hi) (hlt : lo < hi)
    (hYt : Rounded.normalizeMinMax lib.fl (List.ofFn y) = .ok (List.ofFn Yt))
    (hX : ∀ x, StepPoint X bo.range_X x → scaledLength (fun _ => 1) x ≤ 2)
    (hfit : Minimizes orc.fitHyps fun v => ∃ h s l ν,
      restoreHyps bo.str_cov v false bo.use_ard true = .ok h ∧
      OrdinaryTpHyps (StepPoint X bo.range_X) h s l ν)
    (hacqs : ∀ f x0, (∀ q, InBox bo.range_X q → ∃ v, f q = .ok (.fin v)) →
      ∃ q, InBox bo.range_X q ∧ orc.lbfgsb f x0 bo.range_X = .ok q) :
    ∃ r p info K V hyps s l ν, RoundedTpStep.optimize lib (fun v => RoundedTpLikelihood.negLogMl lib.fl lib.ex
        lib.lg gm lib.o lib.mm lib.inv sld X Yt v bo.str_cov (fun _ => 0) bo.use_ard true) bo orc clock X
        (List.ofFn y) sm ns (st, t) = (r, .ok (p, info)) ∧ info.Y_normalized = List.ofFn Yt ∧
      info.fit = some (K, V, hyps) ∧ OrdinaryTpHyps (StepPoint X bo.range_X) hyps s l ν := by
  have h0 : n ≠ 0 := fun h0 => by subst h0; exact hlo.1.choose.elim0
  have hd' : (d : ℝ) ≤ 2 := by exact_mod_cast hd
  obtain ⟨r, p, info, K, V, hyps, s, l, ν, h1, h2, h3⟩ := C161_returns (bo := bo) (orc := orc)
    (nll := fun v => RoundedTpLikelihood.negLogMl lib.fl lib.ex lib.lg gm lib.o lib.mm lib.inv sld X Yt v
      bo.str_cov (fun _ => 0) bo.use_ard true) clock st t hlib hn10 hd hacq hprior hnorm hn htp hbo hsm hg hns
    hy hlo hhi hlt hX (fun v h s l ν hr hm => by
      have hmX : OrdinaryHyps (fun x => ∃ i, x = X i) h s l :=
        ⟨hm.1.describes, hm.1.signal, by rintro _ ⟨i, rfl⟩; exact hm.1.points _ (.inl ⟨i, rfl⟩)⟩
      obtain ⟨K, hK, -, -⟩ := kernelMatrix_error hlib.nearest hlib.exp (by norm_num) (by norm_num) hlib.order
        (by norm_num; linarith) hn hm.1.describes (fun i => hmX.points _ ⟨i, rfl⟩) (by norm_num; linarith)
      obtain ⟨V, hV, -⟩ := hlib.inverse _ _ _ _ hmX hK
      exact ⟨_, roundedTpNegLogMl_ok hn hr (by linarith [hm.2.2.1]) hm.2.1 hK hV (hsld _ _ _ _ hmX hK).sign
        h0 _ _⟩) hfit hacqs
  obtain ⟨-, -, -, -, eY, -⟩ := roundedTpStep_ok h1
  rw [if_pos hnorm, hYt] at eY
  exact ⟨r, p, info, K, V, hyps, s, l, ν, h1, (Except.ok.inj eY).symm, h2, h3⟩

/-- The exact logarithm of the determinant, rounded. -/
theorem determines_round {name : String} (hlib : Accurate lib X name) (hn : name ∈ baseNames) (hn10 : n ≤ 10)
    (hd : d ≤ 2) : Determines lib X name fun A => (1, lib.fl (Real.log A.det)) := by
  intro h s l K hm hK
  have hn' : (n : ℝ) ≤ 10 := by exact_mod_cast hn10
  have hd' : (d : ℝ) ≤ 2 := by exact_mod_cast hd
  have hd0 : (0 : ℝ) ≤ d := Nat.cast_nonneg d
  obtain ⟨K', hK', hs, hKe⟩ := kernelMatrix_error hlib.nearest hlib.exp (by norm_num) (by norm_num) hlib.order
    (by norm_num; linarith) hn hm.describes (fun i => hm.points _ ⟨i, rfl⟩) (by norm_num; linarith)
  obtain rfl := Except.ok.inj (hK.symm.trans hK')
  obtain ⟨E, hE⟩ : ∃ E : ℝ, E = s ^ 2 * (2 * (1 / 2 ^ 50) + (1 + (d + 1) * 2) / 2 ^ 44) +
    ((1 / 100) ^ 2 + 1) / 2 ^ 49 := ⟨_, rfl⟩
  rw [← hE] at hKe
  have hE0 : 0 ≤ E := by rw [hE]; positivity
  have hE1 : E ≤ 5 / 10 ^ 13 := by
    have hP : s ^ 2 * (2 * (1 / 2 ^ 50) + (1 + (d + 1) * 2) / 2 ^ 44) ≤ 41 / 10 ^ 14 := by
      refine (mul_le_mul_of_nonneg_right hm.signal (by positivity)).trans ?_
      norm_num
      linarith
    rw [hE]
    norm_num at hP ⊢
    linarith
  have hnE : n * E ≤ 5 / 10 ^ 12 := by
    have := mul_le_mul hn' hE1 hE0 (by norm_num)
    norm_num at this ⊢
    linarith
  have hgap : 10999 / 10 ^ 8 ≤ (1 / 100 : ℝ) ^ 2 + 1 / 100000 - n * E := by
    norm_num at hnE ⊢
    linarith
  have hgap0 : 0 < (1 / 100 : ℝ) ^ 2 + 1 / 100000 - n * E := lt_of_lt_of_le (by norm_num) hgap
  have h1 := log_det_near hE0 hs hKe (by linarith)
  have h2 := log_det_size name (1 / 100) s l (.vec X) (τ := 1 / 10 ^ 4) (by norm_num) (by norm_num)
    (by norm_num) (by norm_num) hm.signal (hn'.trans (by norm_num))
  rw [show (200 : ℝ) / (1 / 10 ^ 4) = 2 * 10 ^ 6 by norm_num] at h2
  have h3 : n * √n * E / ((1 / 100) ^ 2 + 1 / 100000 - n * E) ≤ 1 := by
    have hq : √(n : ℝ) ≤ 4 := Real.sqrt_le_iff.2 ⟨by norm_num, by linarith⟩
    have k2 : (n : ℝ) * √n ≤ 40 := by
      have := mul_le_mul hn' hq (Real.sqrt_nonneg _) (by norm_num)
      linarith
    have k3 : (n : ℝ) * √n * E ≤ 40 * (5 / 10 ^ 13) := mul_le_mul k2 hE1 hE0 (by norm_num)
    have k4 := div_le_div₀ (by norm_num) k3 (by norm_num) hgap
    norm_num at k4 ⊢
    linarith
  have h4 : |Real.log K.det| ≤ 2 * 10 ^ 6 + 1 := by
    have := abs_add_le (Real.log K.det - Real.log (noisyGram name (1 / 100) s l (.vec X)).det)
      (Real.log (noisyGram name (1 / 100) s l (.vec X)).det)
    rw [sub_add_cancel] at this
    linarith
  refine ⟨one_pos, (fl_error hlib.nearest _).trans ?_⟩
  have hw := small_zpow (k := -1075) (by norm_num)
  refine (add_le_add (mul_le_mul_of_nonneg_left h4 (by positivity)) hw).trans ?_
  norm_num

end

private noncomputable def rtfBo : BOwTP 2 where
  range_X := fun _ => (-1, 1)
  str_surrogate := "tp"
  str_acq := "ei"
  normalize_Y := true
  str_optimizer_method_bo := "L-BFGS-B"
  str_cov := "matern52"
  use_ard := true
  prior_mu := none
  str_optimizer_method_tp := "SLSQP"

/-- Hypotheses of `C162_returns` and `C162_fit` are met by two responses, a library that rounds what it should compute, and an
optimiser that ends where it starts. -/
example : ∃ (lib : Library 2) (gm : ℝ → ℝ) (sld : Matrix (Fin 2) (Fin 2) ℝ → ℝ × ℝ) (r : TpState × ℕ)
      (p : Point 2) (info : DictInfo 2 2) (K V : Matrix (Fin 2) (Fin 2) ℝ) (hyps : HypDict) (s : ℝ)
      (l : Fin 2 → ℝ),
    Accurate lib rsPoints "matern52" ∧ GammaRelative (1 / 10 ^ 12) gm ∧
    Determines lib rsPoints "matern52" sld ∧ Descends rsOracles.fitHyps ∧
    RoundedTpStep.optimize lib (fun v => RoundedTpLikelihood.negLogMl lib.fl lib.ex lib.lg gm lib.o lib.mm
      lib.inv sld rsPoints ![0, 10] v "matern52" (fun _ => 0) true true) rtfBo rsOracles (fun k => k) rsPoints
      [3, 7] "uniform" 5 ({ historical_hyps := [] }, 0) = (r, .ok (p, info)) ∧
    info.Y_normalized = [0, 10] ∧ info.fit = some (K, V, hyps) ∧
    OrdinaryHyps (fun x => ∃ i, x = rsPoints i) hyps s l ∧ hyps.dof = some (.flt (.fin 5)) := by
  have ho : (SumOrder.add (.entry 0) (.entry 1)).Covers 2 := by
    simp [SumOrder.Covers, SumOrder.entries, List.range_succ]
  have hn : "matern52" ∈ baseNames := by simp [baseNames]
  obtain ⟨lib, hlib⟩ : ∃ lib : Library 2, Accurate lib rsPoints "matern52" :=
    ⟨_, roundLibrary_accurate ho ho le_rfl rsPoints hn⟩
  have hsld := determines_round hlib hn (by norm_num) le_rfl
  have hgm := gammaRelative_round hlib.nearest
  have hy : ∀ i, (![3, 7] : Fin 2 → ℝ) i ∈ Double := by
    intro i
    fin_cases i
    · exact ⟨3, 0, by norm_num, by norm_num, by norm_num⟩
    · exact ⟨7, 0, by norm_num, by norm_num, by norm_num⟩
  have hlo : (∃ i, (![3, 7] : Fin 2 → ℝ) i = 3) ∧ ∀ i, 3 ≤ (![3, 7] : Fin 2 → ℝ) i :=
    ⟨⟨0, rfl⟩, fun i => by fin_cases i <;> norm_num⟩
  have hhi : (∃ i, (![3, 7] : Fin 2 → ℝ) i = 7) ∧ ∀ i, (![3, 7] : Fin 2 → ℝ) i ≤ 7 :=
    ⟨⟨1, rfl⟩, fun i => by fin_cases i <;> norm_num⟩
  have hY' : Rounded.normalizeMinMax lib.fl (List.ofFn (![3, 7] : Fin 2 → ℝ)) =
      .ok (List.ofFn (![0, 10] : Fin 2 → ℝ)) := by
    obtain ⟨out, o1, o2, o3, -⟩ := C104_normalize hlib.nearest (List.ofFn (![3, 7] : Fin 2 → ℝ))
      (fun z hz => by obtain ⟨i, rfl⟩ := List.mem_ofFn.1 hz; exact hy i) 3 7
      ⟨List.mem_ofFn.2 hlo.1, fun z hz => by obtain ⟨i, rfl⟩ := List.mem_ofFn.1 hz; exact hlo.2 i⟩
      ⟨List.mem_ofFn.2 hhi.1, fun z hz => by obtain ⟨i, rfl⟩ := List.mem_ofFn.1 hz; exact hhi.2 i⟩ (by norm_num)
    rw [o1]
    obtain ⟨a, b, rfl⟩ := List.length_eq_two.1 (o2.trans (by simp))
    have h1 := (o3 0 3 a rfl rfl).2.2.2.1 rfl
    have h2 := (o3 1 7 b rfl rfl).2.2.2.2.1 rfl
    rw [h1, h2]
    rfl
  obtain ⟨r, p, info, K, V, hyps, s, l, ν, h1, eY, h2, h3⟩ := C162_returns (bo := rtfBo) (orc := rsOracles)
    (gm := fun x => lib.fl (Real.Gamma x)) (y := ![3, 7]) (Yt := ![0, 10]) (sm := "uniform") (ns := 5) (lo := 3)
    (hi := 7) (fun k => k) { historical_hyps := [] } 0 hlib hsld (by norm_num) le_rfl rfl rfl rfl hn
    (by simp [rtfBo, ALLOWED_OPTIMIZER_METHOD_TP]) rfl
    (by simp [ALLOWED_SAMPLING_METHOD, ALLOWED_INITIALIZING_METHOD_BO]) (by simp) (by norm_num) hy hlo hhi
    (by norm_num) hY' rsPoints_box (fun _ _ x0 _ _ h0 _ => ⟨x0, h0, rfl⟩)
    (fun _ x0 _ => ⟨_, fun i => ⟨le_max_left _ _, max_le (by norm_num [rtfBo]) (min_le_left _ _)⟩, rfl⟩)
  obtain ⟨-, -, -, -, -, _, fit, -, e2, k4, -⟩ := roundedTpStep_ok h1
  rw [h2] at e2
  obtain rfl := Option.some.inj e2
  obtain ⟨μ, hs0, v0, mt, bounds, jac, v, hr, -, f2, f3, f4, f5, f6, -⟩ := roundedTpFit_trace k4
  have hall : "matern52" ∈ ALLOWED_COV := List.mem_append_left _ hn
  obtain rfl : v0 = v := Except.ok.inj f4
  obtain rfl := validate_same_result f6 h3.1.describes.noise h3.2.1 h3.2.2.1
  obtain rfl := Except.ok.inj (f5.symm.trans (start_restore hall f2 f3))
  have hdof := (start_describes hall f2).2.1 rfl
  refine ⟨lib, _, _, r, p, info, K, V, _, s, l, hlib, hgm, hsld, ?_, by simpa [rtfBo] using h1, ?_, h2,
    ⟨h3.1.describes, h3.1.signal, by rintro _ ⟨i, rfl⟩; exact h3.1.points _ (.inl ⟨i, rfl⟩)⟩, hdof⟩
  · intro method f x0 bounds jac v hv y0 g0 h0
    obtain rfl : x0 = v := Except.ok.inj hv
    exact ⟨y0, g0, h0, le_rfl⟩
  · simpa using eY

end Verif.Props
