import Verif.Lemmas.WorstCase
import Verif.Props.Tp
import Verif.Spec.StudentChoices

/-! # Deviations of the Student-t process (lemmas for C141) -/

namespace Verif.Lemmas

open Verif.Spec Verif.Covariance Verif.UtilsCovariance
open Matrix hiding gram

variable {n m d : ℕ} {base : String} {σ s : ℝ} {l : Fin d → ℝ}

/-- The misfit is at most the budget of norm and errors. -/
theorem misfit_le_budget {x : Fin n → Point d} {g : Point d → ℝ} {B : ℝ}
    (hg : NormAtMost base s l B g) (e : Fin n → ℝ) :
    misfit (noisyGram base σ s l (.vec x)) (fun i => g (x i) + e i) ≤
      B ^ 2 + (∑ i, e i ^ 2) / (σ ^ 2 + 1 / 100000) := by
  have hτ : (0 : ℝ) < σ ^ 2 + 1 / 100000 := by positivity
  set τ := σ ^ 2 + 1 / 100000 with hτd
  set K := noisyGram base σ s l (.vec x) with hK
  have hp : K.PosDef := noisyGram_posDef base σ s l (.vec x)
  set y : Fin n → ℝ := fun i => g (x i) + e i with hy
  set c := K⁻¹ *ᵥ y with hc
  have hKc : K *ᵥ c = y := by
    rw [hc, mulVec_mulVec, mul_nonsing_inv _ hp.det_pos.ne'.isUnit, one_mulVec]
  set Q := ∑ i, ∑ j, c i * kernel base s l (x i) (x j) * c j with hQ
  have hβ : misfit K y = Q + τ * ∑ i, c i ^ 2 := by
    have h1 : misfit K y = c ⬝ᵥ (K *ᵥ c) := by
      rw [hKc, misfit, dotProduct_comm]
    rw [h1, hK, noisyGram, add_mulVec, dotProduct_add, smul_mulVec, one_mulVec, dotProduct_smul]
    congr 1
    · simp only [hQ, dotProduct, mulVec, gram, item, itemKernel_one, Matrix.of_apply,
        Finset.mul_sum, mul_assoc]
    · simp only [dotProduct, smul_eq_mul, ← sq]
      rw [hτd]
  have hβ' : misfit K y = ∑ i, c i * g (x i) + ∑ i, c i * e i := by
    rw [misfit, ← hc, dotProduct_comm, dotProduct, ← Finset.sum_add_distrib]
    exact Finset.sum_congr rfl fun i _ => by rw [hy]; ring
  have hQ0 : 0 ≤ Q := by
    have := (gram_posSemidef base s l (.vec x)).dotProduct_mulVec_nonneg c
    rw [hQ]
    simpa only [star_trivial, dotProduct, mulVec, gram, item, itemKernel_one, Matrix.of_apply,
      Finset.mul_sum, mul_assoc] using this
  have h1 := hg.2 n x c
  rw [← hQ] at h1
  have hW : 0 ≤ τ * ∑ i, c i ^ 2 := by positivity
  have hE : 0 ≤ (∑ i, e i ^ 2) / τ := by positivity
  have h2 : |∑ i, c i * e i| ≤ √(τ * ∑ i, c i ^ 2) * √((∑ i, e i ^ 2) / τ) := by
    rw [← Real.sqrt_mul (by positivity)]
    refine Real.abs_le_sqrt ?_
    have := Finset.sum_mul_sq_le_sq_mul_sq Finset.univ c e
    have e2 : (τ * ∑ i, c i ^ 2) * ((∑ i, e i ^ 2) / τ) = (∑ i, c i ^ 2) * ∑ i, e i ^ 2 := by
      field_simp
    rw [e2]
    exact this
  have h3 := (le_abs_self _).trans h1
  have h4 := (le_abs_self _).trans h2
  have s1 := Real.sq_sqrt hQ0
  have s2 := Real.sq_sqrt hW
  have s3 := Real.sq_sqrt hE
  set p := √Q
  set q := √(τ * ∑ i, c i ^ 2)
  set r := √((∑ i, e i ^ 2) / τ)
  have h5 : misfit K y ≤ B * p + q * r := by rw [hβ']; linarith
  rw [← s1, ← s2] at hβ
  rw [← s3]
  have a1 := sq_nonneg (B - p)
  have a2 := sq_nonneg (r - q)
  nlinarith only [h5, hβ, a1, a2]

/-- What a prediction of the Student-t process is, from that of the Gaussian process. -/
theorem student_predicted (hb : base ∈ baseNames) {h : HypDict} (hd : Describes h σ s l) {ν : ℝ}
    (hν : 2 < ν) (hdof : h.dof = some (.flt (.fin ν))) {prior : Gp.PriorMu d}
    (hpr : PriorTotal prior) (x : Fin n → Point d) (Y : Fin n → ℝ) (p : Fin m → Point d) :
    ∃ mu sd S μ c, Gp.predictWithHyps (.vec x) Y (.vec p) h base prior = .ok (mu, sd, S) ∧
      Gp.getPriorMu prior (.vec x) = .ok μ ∧
      c = (ν - 2 + misfit (noisyGram base σ s l (.vec x)) (Y - μ)) / (ν - 2 + n) ∧ 0 < c ∧
      Tp.predictWithHyps (.vec x) Y (.vec p) h base prior =
        .ok (ν + n, mu, fun i => √c * sd i, c • S) := by
  obtain ⟨μ, hμ⟩ := hpr n x
  obtain ⟨μs, hμs⟩ := hpr m p
  have hv : ∀ {n : ℕ} (v : Fin n → Point d), Suits base base (.vec v) :=
    fun v => ⟨hb, .inl ⟨rfl, _, rfl⟩⟩
  obtain ⟨K, P, mu, sd, S, c, hK, -, hc, hc0, h1, h2, -⟩ :=
    Props.C39_predict_with_hyps (hv x) (hv p) hd hν hdof Y hμ hμs
  rw [getKernelInverse_ok (hv x) hd Constants.FIX_GP_NOISE] at hK
  simp only [Except.ok.injEq, Prod.mk.injEq] at hK
  obtain ⟨-, rfl, -⟩ := hK
  exact ⟨mu, sd, S, μ, c, h1, hμ, hc, hc0, h2⟩

/-- Responses that are all the same, at the same input. -/
theorem noisyGram_inv_same (a : Point d) :
    (noisyGram base σ s l (.vec fun _ : Fin n => a))⁻¹ *ᵥ (fun _ => 1) =
      fun _ => 1 / (n * s ^ 2 + (σ ^ 2 + 1 / 100000)) := by
  have hτ : (0 : ℝ) < σ ^ 2 + 1 / 100000 := by positivity
  have hp := noisyGram_posDef base σ s l (.vec fun _ : Fin n => a)
  have hn : (0 : ℝ) ≤ n := Nat.cast_nonneg n
  have h0 : 0 < n * s ^ 2 + (σ ^ 2 + 1 / 100000) := by positivity
  have hk : kernel base s l a a = s ^ 2 := by
    have h0 : profile base 0 = 1 := by
      unfold profile
      split_ifs <;> simp [m32Profile, m52Profile, seProfile]
    simp [kernel, scaledDistance, h0]
  have h1 : noisyGram base σ s l (.vec fun _ : Fin n => a) *ᵥ
      (fun _ => 1 / (n * s ^ 2 + (σ ^ 2 + 1 / 100000))) = fun _ => 1 := by
    rw [noisyGram, add_mulVec, smul_mulVec, one_mulVec]
    funext i
    simp only [Pi.add_apply, Pi.smul_apply, smul_eq_mul, mulVec, dotProduct, gram, item,
      itemKernel_one, Matrix.of_apply, hk, Finset.sum_const, Finset.card_univ, Fintype.card_fin,
      nsmul_eq_mul]
    field_simp
  rw [← h1, mulVec_mulVec, nonsing_inv_mul _ hp.det_pos.ne'.isUnit, one_mulVec]

end Verif.Lemmas
