import Verif.Lemmas.StudentChoices
import Verif.Lemmas.Normal

/-! # Data at a single input (lemmas for C148) -/

namespace Verif.Lemmas

open Verif.Spec Verif.Covariance Verif.UtilsCovariance
open Matrix hiding gram

variable {d n m : ℕ} {base : String} {σ s : ℝ} {l : Fin d → ℝ}

theorem kernel_lt_of_ne {a z : Point d} (hs : s ≠ 0) (hl : ∀ k, l k ≠ 0) (hz : z ≠ a) :
    kernel base s l a z < s ^ 2 := by
  have hpos : 0 < scaledDistance l a z := by
    refine Real.sqrt_pos.2 ?_
    obtain ⟨k, hk⟩ := Function.ne_iff.1 hz
    refine Finset.sum_pos' (fun i _ => by positivity) ⟨k, Finset.mem_univ k, ?_⟩
    have : a k - z k ≠ 0 := sub_ne_zero.2 (Ne.symm hk)
    have := hl k
    positivity
  have h1 := profile_strictAnti base Set.self_mem_Ici hpos.le hpos
  rw [profile_zero] at h1
  rw [kernel]
  have : 0 < s ^ 2 := by positivity
  nlinarith

/-- What is predicted from `n` equal responses at one input, with a constant prior mean. -/
theorem same_predicted (hb : base ∈ baseNames) {h : HypDict} (hd : Describes h σ s l)
    {prior : Gp.PriorMu d} {c : ℝ} (hm : PriorFunction prior fun _ => c) (a : Point d) (y : ℝ)
    {p : Fin m → Point d} {mu sd S}
    (hp : Gp.predictWithHyps (.vec fun _ : Fin n => a) (fun _ => y) (.vec p) h base prior =
      .ok (mu, sd, S)) (i : Fin m) :
    mu i = c + n * kernel base s l a (p i) * (y - c) / (n * s ^ 2 + (σ ^ 2 + 1 / 100000)) ∧
    0 < sd i ∧ sd i ^ 2 = s ^ 2 + 1 / 100000 -
      n * kernel base s l a (p i) ^ 2 / (n * s ^ 2 + (σ ^ 2 + 1 / 100000)) := by
  have hv : ∀ {n : ℕ} (v : Fin n → Point d), Suits base base (.vec v) :=
    fun v => ⟨hb, .inl ⟨rfl, _, rfl⟩⟩
  have hK : ∀ t : ℝ, (noisyGram base σ s l (.vec fun _ : Fin n => a))⁻¹ *ᵥ (fun _ => t) =
      fun _ => t / (n * s ^ 2 + (σ ^ 2 + 1 / 100000)) := by
    intro t
    have : (fun _ : Fin n => t) = t • fun _ => 1 := by
      funext
      simp
    rw [this, mulVec_smul, noisyGram_inv_same]
    funext i
    rw [Pi.smul_apply, smul_eq_mul, mul_one_div]
  obtain ⟨h1, h2⟩ := predicted_sq hb hd (PriorFunction.total hm) hp i
  refine ⟨?_, h1, ?_⟩
  · rw [predictWithHyps_ok (hv _) (hv _) hd _ (hm _ _) (hm _ _)] at hp
    simp only [Except.ok.injEq, Prod.mk.injEq] at hp
    obtain ⟨rfl, -, -⟩ := hp
    rw [Pi.add_apply, postMean, ← mulVec_mulVec,
      show ((fun _ => y) - fun _ => c : Fin n → ℝ) = fun _ => y - c by funext; simp, hK]
    simp only [mulVec, dotProduct, transpose_apply, gram, item, itemKernel_one, Matrix.of_apply,
      Finset.sum_const, Finset.card_univ, Fintype.card_fin, nsmul_eq_mul]
    ring
  · have hg : (gram base s l (.vec fun _ : Fin n => a) (.vec fun _ : Fin 1 => p i)) =
        Matrix.of fun _ _ => kernel base s l a (p i) := by
      ext j k
      simp [gram, item, itemKernel_one]
    have hcol : ((noisyGram base σ s l (.vec fun _ : Fin n => a))⁻¹ *
        gram base s l (.vec fun _ : Fin n => a) (.vec fun _ : Fin 1 => p i)) =
        Matrix.of fun _ _ => kernel base s l a (p i) / (n * s ^ 2 + (σ ^ 2 + 1 / 100000)) := by
      rw [hg]
      ext j k
      exact congrFun (hK (kernel base s l a (p i))) j
    rw [h2, postCov, Matrix.mul_assoc, hcol, hg]
    simp only [Matrix.sub_apply, Matrix.add_apply, Matrix.smul_apply, Matrix.one_apply_eq, smul_eq_mul,
      Matrix.mul_apply, transpose_apply, Matrix.of_apply, gram, item, itemKernel_one, kernel_self,
      Finset.sum_const, Finset.card_univ, Fintype.card_fin, nsmul_eq_mul]
    ring

/-- Seen from the prior mean, the point of the data has the least shortfall per deviation. -/
theorem shortfall_lt {τ j k u v J w : ℝ} (hτ : 0 < τ) (hj : 0 ≤ j) {N : ℝ} (hN : 0 < N)
    (hk : 0 ≤ k) (hks : k < s ^ 2) (hu : 0 < u) (hv : 0 < v) (hw : 0 < w) (hJ : 0 ≤ J)
    (hu2 : u ^ 2 = s ^ 2 + j - N * (s ^ 2) ^ 2 / (N * s ^ 2 + τ))
    (hv2 : v ^ 2 = s ^ 2 + j - N * k ^ 2 / (N * s ^ 2 + τ)) :
    (1 - N * s ^ 2 / (N * s ^ 2 + τ)) / (w * u + J) < (1 - N * k / (N * s ^ 2 + τ)) / (w * v + J) := by
  set D := N * s ^ 2 + τ with hD
  have hs : 0 < s ^ 2 := hk.trans_lt hks
  have hD0 : 0 < D := by positivity
  obtain ⟨e, he⟩ : ∃ e, e = s ^ 2 - k := ⟨_, rfl⟩
  have he0 : 0 < e := by linarith
  have a1 : 1 - N * s ^ 2 / D = τ / D := by field_simp; linarith
  have a2 : 1 - N * k / D = (τ + N * e) / D := by field_simp; rw [he]; linarith
  have hlt : τ * v < (τ + N * e) * u := by
    refine lt_of_pow_lt_pow_left₀ 2 (by positivity) ?_
    rw [mul_pow, mul_pow, hu2, hv2]
    have b1 : s ^ 2 + j - N * (s ^ 2) ^ 2 / D = (τ * s ^ 2 + j * D) / D := by
      field_simp
      rw [hD]
      ring
    have b2 : s ^ 2 + j - N * k ^ 2 / D = (τ * s ^ 2 + j * D + 2 * N * s ^ 2 * e - N * e ^ 2) / D := by
      field_simp
      rw [show k = s ^ 2 - e by linarith, hD]
      ring
    rw [b1, b2, ← mul_div_assoc, ← mul_div_assoc]
    refine div_lt_div_of_pos_right ?_ hD0
    have c1 : 0 ≤ j * D := by positivity
    have c2 : 0 < N * τ ^ 2 * e ^ 2 := by positivity
    have c3 : 0 ≤ N ^ 2 * e ^ 2 * (τ * s ^ 2 + j * D) := by positivity
    have c4 : 0 ≤ 2 * τ * N * e * (j * D) := by positivity
    nlinarith only [c2, c3, c4]
  rw [a1, a2, div_div, div_div, div_lt_div_iff₀ (by positivity) (by positivity)]
  have c5 : 0 ≤ N * e * J := by positivity
  have c6 : w * (τ * v) < w * ((τ + N * e) * u) := mul_lt_mul_of_pos_left hlt hw
  have c7 : τ * (w * v + J) < (τ + N * e) * (w * u + J) := by linarith
  calc τ * (D * (w * v + J)) = D * (τ * (w * v + J)) := by ring
    _ < D * ((τ + N * e) * (w * u + J)) := mul_lt_mul_of_pos_left c7 hD0
    _ = (τ + N * e) * (D * (w * u + J)) := by ring

end Verif.Lemmas
