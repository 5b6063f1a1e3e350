import Verif.Lemmas.RoundedTpLikelihoodNumbers

/-! # C162: the likelihood of the Student-t process in double precision -/

namespace Verif.Props

open Verif.Spec Verif.Covariance Verif.UtilsCovariance Verif.Lemmas Verif.Rounded Verif.RoundedPredict
  Verif.Constants
open scoped Matrix

section

variable {fl ex lg gm : ℝ → ℝ} {n d : ℕ} {o : SumOrder} {mm : MatMul} {name : String} {h : HypDict}
  {σ s η R : ℝ} {l : Fin d → ℝ}
  {inv : Matrix (Fin n) (Fin n) ℝ → Py (Matrix (Fin n) (Fin n) ℝ)}
  {sld : Matrix (Fin n) (Fin n) ℝ → ℝ × ℝ}

/-- C162: without rounding and with exact routines the model is the value of `neg_log_ml` of `Tp.lean`,
and fails with the same error if the name is none of the covariance functions for vectors. -/
theorem C162_exact (ho : o.Covers d) (name : String) (X : Fin n → Point d) (Y μ : Fin n → ℝ)
    (v : List Flt) (ard fix : Bool) :
    RoundedTpLikelihood.negLogMl id Real.exp Real.log Real.Gamma o (fun A B => A * B) npInv Gp.slogdet X Y v
        name μ ard fix =
      (Tp.negLogMl (.vec X) Y v name μ ard fix false).map Prod.fst := by
  by_cases hn : name ∈ baseNames
  swap
  · have hno : name ∉ ALLOWED_COV_BASE := fun h => hn (by simpa [ALLOWED_COV_BASE, baseNames] using h)
    obtain ⟨e, he⟩ : ∃ e, checkStrCov name 2 = .error e := by
      by_cases hs : name ∈ ALLOWED_COV_SET
      · exact ⟨.assertion, by simp [checkStrCov, hno, hs, pyAssert, bind, Except.bind]⟩
      · exact ⟨.value, by simp [checkStrCov, hno, hs]⟩
    have he' : checkStrCov name (Inputs.vec X).rank = .error e := he
    simp only [RoundedTpLikelihood.negLogMl, Tp.negLogMl, he, he', bind, Except.bind, Except.map]
  have hch : checkStrCov name 2 = .ok () := by
    simp [checkStrCov, base_allowed hn, pyAssert, bind, Except.bind, pure, Except.pure]
  have hch' : checkStrCov name (Inputs.vec X).rank = .ok () := hch
  simp only [RoundedTpLikelihood.negLogMl, Tp.negLogMl, Covariance.getKernelInverse,
    roundedKernelMatrix_id ho hn, hch, hch', id, bind, Except.bind, pure, Except.pure, Bool.false_eq_true,
    if_false]
  rcases restoreHyps name v false ard fix with e | h
  · rfl
  simp only
  rcases numKey h.dof with e | ν
  · rfl
  simp only
  rcases noisyCov (.vec X) h name with e | K
  · rfl
  simp only
  rcases npInv K with e | V
  · rfl
  simp only
  by_cases hν : ν ≤ 2
  · simp only [hν, if_true]
    rfl
  by_cases h0 : n = 0
  · simp only [hν, h0, if_true, if_false]
    rfl
  simp only [hν, h0, if_false, Except.map, Except.ok.injEq]
  have e : (-0.5 : ℝ) = -(1 / 2) := by norm_num
  rw [e]
  rfl

/-- C162: the likelihood of the Student-t process computed in double precision, with kernel matrix, inverse,
products of matrices and constants as in C159; `D` bounds the error of the misfit `β`. Logarithms have relative
error `ζ`, the Gamma function `g`, and the logarithm of the determinant is off by at most `δ` for the computed
matrix. The bound on `ν + n` keeps the Gamma function from overflowing (C154). Then the negative log marginal
likelihood per response differs from the one of the exact Student-t density by at most the bound below: `ε₁` to
`ε₄` come from the four logarithms `T₁` to `T₄`, `P` is the size of the terms; `u` is the unit roundoff. -/
theorem C162_likelihood (hf : Nearest fl) (hex : ExpWithin η ex) (hη : 0 ≤ η) (hη1 : η ≤ 1 / 2)
    (ho : o.Covers d) (hd : d ≤ 2 ^ 20) (hn : name ∈ baseNames) {v : List Flt} {ard fix : Bool}
    (hr : restoreHyps name v false ard fix = .ok h) (hh : Describes h σ s l) {ν : ℝ}
    (hν : 2 + 1 / 2 ^ 20 ≤ ν) (hνd : ν ∈ Double) (hdof : h.dof = some (.flt (.fin ν)))
    (hνn : ν + n ≤ 340) {X : Fin n → Point d} (hX : ∀ i, scaledLength l (X i) ≤ R)
    (hR : (d + 1) * R ≤ 2 ^ 39) (h0 : n ≠ 0) {ζ g δ γ t : ℝ} (hζ : 0 ≤ ζ) (hζ1 : ζ ≤ 1 / 4)
    (hlg : LogRelative ζ lg) (hg : 0 ≤ g) (hg1 : g ≤ 1 / 8) (hgm : GammaRelative g gm) (hγ : 0 ≤ γ)
    (hγ1 : γ ≤ 1) (ht : 0 ≤ t) (hmm : MultipliesWithin n γ t mm) {Y μ : Fin n → ℝ}
    (hY : ∀ i, Y i ∈ Double) (hμ : ∀ i, μ i ∈ Double) {K V : Matrix (Fin n) (Fin n) ℝ}
    (hK : RoundedKernels.kernelMatrix fl ex o X h name = .ok K) (hV : inv K = .ok V)
    (hVd : ∀ i j, V i j ∈ Double) {θ : ℝ} (hθ0 : 0 ≤ θ) (hθ : ∀ i j, |V i j - K⁻¹ i j| ≤ θ)
    (hdet : LogDetWithin δ K (sld K)) {u E B ρ N Q β D T₁ T₂ T₃ T₄ ε₁ ε₂ ε₃ ε₄ S P : ℝ}
    (hu : u = 1 / 2 ^ 53)
    (hE : E = s ^ 2 * (2 * η + (1 + (d + 1) * R) / 2 ^ 44) + (σ ^ 2 + 1) / 2 ^ 49)
    (hlt : n * E < σ ^ 2 + 1 / 100000) (hB : B = 1 / (σ ^ 2 + 1 / 100000 - n * E) + θ)
    (hρ : ρ = n * E / ((σ ^ 2 + 1 / 100000) * (σ ^ 2 + 1 / 100000 - n * E)) + n * θ)
    (hN : N = √(∑ i, (Y i - μ i) ^ 2)) (hQ : Q = √n * N)
    (hβ : β = (Y - μ) ⬝ᵥ ((noisyGram name σ s l (.vec X))⁻¹ *ᵥ (Y - μ)))
    (hD : D = ρ * N ^ 2 + (n * B * N * Q * (12 * γ + 3 * u) + 4 * t * Q + t)) (hDν : D ≤ (ν - 2 + β) / 4)
    (hT₁ : T₁ = Real.log ((ν - 2) * Real.pi)) (hT₂ : T₂ = Real.log (noisyGram name σ s l (.vec X)).det)
    (hT₃ : T₃ = Real.log (Real.Gamma ((ν + n) / 2) / Real.Gamma (ν / 2)))
    (hT₄ : T₄ = Real.log (1 + β / (ν - 2))) (hε₁ : ε₁ = ζ * |T₁| + 12 * u)
    (hε₂ : ε₂ = δ + n * √n * E / (σ ^ 2 + 1 / 100000 - n * E))
    (hε₃ : ε₃ = ζ * |T₃| + 8 * g + 4 * u * (1 + (ν + n) * (2 + Real.log (ν + n))))
    (hε₄ : ε₄ = ζ * T₄ + (4 * D / (ν - 2 + β) + 28 * u))
    (hS : S = (3 * n * ε₁ + ε₂) / 2 + ε₃ + 3 * ((ν + n) / 2) * ε₄)
    (hP : P = (n * |T₁| + |T₂|) / 2 + |T₃| + (ν + n) / 2 * T₄) :
    ∃ value, RoundedTpLikelihood.negLogMl fl ex lg gm o mm inv sld X Y v name μ ard fix = .ok value ∧
      |value - -Real.log (mvtDensity ν μ (noisyGram name σ s l (.vec X)) Y) / n| ≤
        (S + 12 * u * (P + S)) / n + 5 * (2 : ℝ) ^ (-1075 : ℤ) := by
  have hd' : (d : ℝ) ≤ 2 ^ 20 := by exact_mod_cast hd
  have hn1 : 1 ≤ n := Nat.one_le_iff_ne_zero.2 h0
  have hn1' : (1 : ℝ) ≤ n := by exact_mod_cast hn1
  have hnp : (0 : ℝ) < n := by linarith
  have hν2 : 2 < ν := lt_of_lt_of_le (by norm_num) hν
  have hu0 : 0 ≤ u := by rw [hu]; positivity
  have hu1 : u ≤ 1 / 10 ^ 10 := by rw [hu]; norm_num
  obtain ⟨K', hK', hs, hKe⟩ := kernelMatrix_error hf hex hη hη1 ho hd' hn hh hX hR
  obtain rfl := Except.ok.inj (hK.symm.trans hK')
  have hKe' := fun i j => (hKe i j).trans_eq hE.symm
  have hE0 : 0 ≤ E := (abs_nonneg _).trans (hKe' ⟨0, hn1⟩ ⟨0, hn1⟩)
  have hB0 : 0 ≤ B := by
    have := sub_pos.2 hlt
    rw [hB]
    positivity
  have hVB : ∀ i j, |V i j| ≤ B := fun i j => by
    rw [hB]
    exact near_inverse_entry hs hKe' hlt hθ i j
  have hβ0 : 0 ≤ β := by
    rw [hβ]
    exact misfit_nonneg (noisyGram_posDef name σ s l (.vec X)) _
  obtain ⟨hmd, hme⟩ := roundedMisfit_error hf hγ hγ1 ht hmm hVd hB0 hVB hY hμ hu hN hQ
  have hmf : |roundedMisfit mm V (fun i => fl (Y i - μ i)) - β| ≤ D := by
    have h1 := near_misfit hs hKe' hlt hθ (Y - μ)
    have e1 : (Y - μ) ⬝ᵥ (Y - μ) = N ^ 2 := by
      rw [hN, Real.sq_sqrt (Finset.sum_nonneg fun i _ => sq_nonneg _)]
      simp [dotProduct, pow_two]
    rw [e1, ← hρ, misfit, ← hβ] at h1
    have h2 := abs_sub_le (roundedMisfit mm V fun i => fl (Y i - μ i)) ((Y - μ) ⬝ᵥ (V *ᵥ (Y - μ))) β
    rw [hD]
    linarith
  refine ⟨_, roundedTpNegLogMl_ok hn hr hν2 hdof hK hV hdet.sign h0 Y μ, ?_⟩
  -- the four logarithms
  have k1 := tp_first_error hf hu hlg hζ hζ1 hν hνd
  have k3 := tp_third_error (n := n) hf hu hlg hζ hζ1 hgm hg hg1 hν2.le hνd hνn rfl
  have k4 := tp_fourth_error hf hu hlg hζ hζ1 hν2 hνd hβ0 hmf hDν
  have k2 := log_det_near hE0 hs hKe' hlt
  rw [← hT₁, ← hε₁] at k1
  rw [← hT₃] at k3
  rw [← hT₄, ← hε₄] at k4
  rw [← hT₂] at k2
  have hT4 : 0 ≤ T₄ := by
    rw [hT₄]
    apply Real.log_nonneg
    have := div_nonneg hβ0 (sub_pos.2 hν2).le
    linarith
  have hε2 : |(sld K).2 - T₂| ≤ ε₂ := by
    have := abs_sub_le (sld K).2 (Real.log K.det) T₂
    have h1 := hdet.near
    rw [hε₂]
    linarith
  have t3 : |lg (fl (gm (fl (fl (ν + n) / 2)) / gm (fl (ν / 2)))) - T₃| ≤ ε₃ := by
    rw [hε₃]
    linarith
  have hnd : (n : ℝ) ∈ Double := double_nat (by
    have : (n : ℝ) < 2 ^ 53 := lt_of_le_of_lt (by linarith : (n : ℝ) ≤ 340) (by norm_num)
    exact_mod_cast this)
  rw [← tllExact_eq hν2 (noisyGram_posDef name σ s l (.vec X)), tllExact, misfit, ← hβ, ← hT₁, ← hT₂, ← hT₃,
    ← hT₄]
  exact tp_terms_error hf hu hn1 hν2.le hνd hnd k1 hε2 t3 k4 (hlg.mem _) hT4 hS hP

/-- C162 with numbers: at most 20 responses in at most 10 dimensions, inputs within 10 lengthscales of the origin,
signal 1, noise variance between 0.01 and 1, residuals of size at most 3, between 3 and 200 degrees of freedom,
exponentials and logarithms with relative error `2^-50`, a Gamma function with relative error `1e-12`, rounded
products in any order, an inverse and a logarithm of the determinant that are right up to `1e-9`: the
computed value is within `0.01` of the exact one. -/
theorem C162_typical (hf : Nearest fl) (hex : ExpWithin (1 / 2 ^ 50) ex) (ho : o.Covers d) (hd : d ≤ 10)
    (hn : name ∈ baseNames) {v : List Flt} {ard fix : Bool} (hr : restoreHyps name v false ard fix = .ok h)
    (hh : Describes h σ 1 l) (hσ : 1 / 100 ≤ σ ^ 2) (hσ1 : σ ^ 2 ≤ 1) {ν : ℝ} (hν : 3 ≤ ν) (hν1 : ν ≤ 200)
    (hνd : ν ∈ Double) (hdof : h.dof = some (.flt (.fin ν))) {X : Fin n → Point d}
    (hX : ∀ i, scaledLength l (X i) ≤ 10) (h0 : n ≠ 0) (hn20 : n ≤ 20) (hlg : LogRelative (1 / 2 ^ 50) lg)
    (hgm : GammaRelative (1 / 10 ^ 12) gm) {o' : SumOrder} (ho' : o'.Covers n) {Y μ : Fin n → ℝ}
    (hY : ∀ i, Y i ∈ Double) (hμ : ∀ i, μ i ∈ Double) (h3 : ∀ i, |Y i - μ i| ≤ 3)
    {K V : Matrix (Fin n) (Fin n) ℝ} (hK : RoundedKernels.kernelMatrix fl ex o X h name = .ok K)
    (hV : inv K = .ok V) (hVd : ∀ i j, V i j ∈ Double) (hθ : ∀ i j, |V i j - K⁻¹ i j| ≤ 1 / 10 ^ 9)
    (hdet : LogDetWithin (1 / 10 ^ 9) K (sld K)) :
    ∃ value, RoundedTpLikelihood.negLogMl fl ex lg gm o (orderedMul fl o') inv sld X Y v name μ ard fix =
        .ok value ∧
      |value - -Real.log (mvtDensity ν μ (noisyGram name σ 1 l (.vec X)) Y) / n| ≤ 1 / 100 := by
  have hn1 : 1 ≤ n := Nat.one_le_iff_ne_zero.2 h0
  have hn1' : (1 : ℝ) ≤ n := by exact_mod_cast hn1
  have hn' : (n : ℝ) ≤ 20 := by exact_mod_cast hn20
  have hd' : (d : ℝ) ≤ 10 := by exact_mod_cast hd
  have hd0 : (0 : ℝ) ≤ d := Nat.cast_nonneg d
  have hmm := C129_products (fl := fl) hf ho' (hn20.trans (by norm_num))
  have hN2 : ∑ i, (Y i - μ i) ^ 2 ≤ 180 := by
    have h1 : ∑ i, (Y i - μ i) ^ 2 ≤ ∑ _i : Fin n, (9 : ℝ) := Finset.sum_le_sum fun i _ => by
      have := abs_le.1 (h3 i)
      nlinarith
    rw [Finset.sum_const, Finset.card_univ, Fintype.card_fin, nsmul_eq_mul] at h1
    linarith
  have hN0 : 0 ≤ ∑ i, (Y i - μ i) ^ 2 := Finset.sum_nonneg fun i _ => sq_nonneg _
  obtain ⟨N, hN⟩ : ∃ N, N = √(∑ i, (Y i - μ i) ^ 2) := ⟨_, rfl⟩
  have hNs : N ^ 2 ≤ 180 := by rwa [hN, Real.sq_sqrt hN0]
  have hN0' : 0 ≤ N := by rw [hN]; positivity
  have hQ : √n * N ≤ 60 := by
    rw [hN, ← Real.sqrt_mul (Nat.cast_nonneg n)]
    refine Real.sqrt_le_iff.2 ⟨by norm_num, ?_⟩
    have := mul_le_mul hn' hN2 hN0 (by norm_num)
    linarith
  obtain ⟨E, hE⟩ : ∃ E : ℝ, E = 1 ^ 2 * (2 * (1 / 2 ^ 50) + (1 + (d + 1) * 10) / 2 ^ 44) +
    (σ ^ 2 + 1) / 2 ^ 49 := ⟨_, rfl⟩
  have hE0 : 0 ≤ E := by rw [hE]; positivity
  have hE1 : E ≤ 1 / 10 ^ 11 := by
    rw [hE]
    norm_num
    linarith
  have hnE : n * E ≤ 2 / 10 ^ 10 := by
    have := mul_le_mul hn' hE1 hE0 (by norm_num)
    linarith
  have hgap : 1 / 100 ≤ σ ^ 2 + 1 / 100000 - n * E := by
    norm_num at hnE hσ ⊢
    linarith
  have k1 : n * E < σ ^ 2 + 1 / 100000 := by linarith
  obtain ⟨D, hD⟩ : ∃ D : ℝ, D = (n * E / ((σ ^ 2 + 1 / 100000) * (σ ^ 2 + 1 / 100000 - n * E)) +
      n * (1 / 10 ^ 9)) * N ^ 2 + (n * (1 / (σ ^ 2 + 1 / 100000 - n * E) + 1 / 10 ^ 9) * N * (√n * N) *
      (12 * ((4 * n + 1) / 2 ^ 53) + 3 * (1 / 2 ^ 53)) + 4 * (2 * n * (2 : ℝ) ^ (-1075 : ℤ)) * (√n * N) +
      2 * n * (2 : ℝ) ^ (-1075 : ℤ)) := ⟨_, rfl⟩
  obtain ⟨-, hD0, hD1⟩ := typical_misfit (n := n) hn' hn1' hd' hd0 hσ hσ1 hN0' hNs (by positivity) hQ rfl k1 hE
    rfl rfl rfl rfl rfl rfl rfl hD
  obtain ⟨β, hβ⟩ : ∃ β : ℝ, β = (Y - μ) ⬝ᵥ ((noisyGram name σ 1 l (.vec X))⁻¹ *ᵥ (Y - μ)) := ⟨_, rfl⟩
  have hβ0 : 0 ≤ β := by
    rw [hβ]
    exact misfit_nonneg (noisyGram_posDef name σ 1 l (.vec X)) _
  have hβ1 : β ≤ 18000 := by
    have k2 := misfit_le_noise name σ 1 l (.vec X) (Y - μ)
    have e1 : (Y - μ) ⬝ᵥ (Y - μ) = ∑ i, (Y i - μ i) ^ 2 := by simp [dotProduct, pow_two]
    rw [misfit, ← hβ, e1] at k2
    have k3 := div_le_div₀ (by norm_num) hN2 (by norm_num : (0 : ℝ) < 1 / 100)
      (show 1 / 100 ≤ σ ^ 2 + 1 / 100000 by linarith)
    norm_num at k3
    linarith
  have hT₁ : |Real.log ((ν - 2) * Real.pi)| ≤ 700 := by
    have hπ := Real.pi_gt_three
    have hπ4 := Real.pi_lt_d2
    have h1 : 1 ≤ (ν - 2) * Real.pi := by nlinarith
    have h2 : (ν - 2) * Real.pi ≤ 198 * 3.15 := mul_le_mul (by linarith) hπ4.le (by linarith) (by norm_num)
    have h4 := Real.log_le_sub_one_of_pos (show 0 < (ν - 2) * Real.pi by linarith)
    rw [abs_of_nonneg (Real.log_nonneg h1)]
    norm_num at h2
    linarith
  have hT₄ : 0 ≤ Real.log (1 + β / (ν - 2)) ∧ Real.log (1 + β / (ν - 2)) ≤ 18000 := by
    have h1 : 0 ≤ β / (ν - 2) := div_nonneg hβ0 (by linarith)
    have h2 : β / (ν - 2) ≤ β := div_le_self hβ0 (by linarith)
    have h4 := Real.log_le_sub_one_of_pos (show 0 < 1 + β / (ν - 2) by linarith)
    exact ⟨Real.log_nonneg (by linarith), by linarith⟩
  obtain ⟨g1, g2, g3⟩ := log_gamma_size hν hν1 hn'
  have hε₂ : 1 / 10 ^ 9 + n * √n * E / (σ ^ 2 + 1 / 100000 - n * E) ≤ 1 / 10 ^ 6 := by
    have hq : √(n : ℝ) ≤ 5 := Real.sqrt_le_iff.2 ⟨by norm_num, by linarith⟩
    have k2 : (n : ℝ) * √n ≤ 100 := by
      have := mul_le_mul hn' hq (Real.sqrt_nonneg _) (by norm_num)
      linarith
    have k3 : (n : ℝ) * √n * E ≤ 100 * (1 / 10 ^ 11) := mul_le_mul k2 hE1 hE0 (by norm_num)
    have k4 := div_le_div₀ (by norm_num) k3 (by norm_num) hgap
    norm_num at k4 ⊢
    linarith
  have hε₂0 : 0 ≤ 1 / 10 ^ 9 + n * √n * E / (σ ^ 2 + 1 / 100000 - n * E) := by
    have : 0 < σ ^ 2 + 1 / 100000 - n * E := by linarith
    positivity
  have hT₂ := log_det_size name σ 1 l (.vec X) (by norm_num) (by norm_num) hσ hσ1 (by norm_num) hn'
  norm_num at hT₂
  have hbound := typical_tp_likelihood hn' hn1' hν hν1 hβ0 hD0 hD1 rfl rfl hT₁ hT₂ g1 hT₄.1 hT₄.2 g2 g3 rfl hε₂0 hε₂ rfl rfl rfl rfl
  obtain ⟨value, e1, e2⟩ := C162_likelihood (mm := orderedMul fl o') (sld := sld) (inv := inv) hf hex
    (by positivity) (by norm_num) ho (hd.trans (by norm_num)) hn hr hh (by norm_num; linarith) hνd hdof
    (by linarith) hX (by norm_num; linarith) h0 (by positivity) (by norm_num) hlg (by positivity)
    (by norm_num) hgm (by positivity) (by norm_num; linarith) (by positivity) hmm hY hμ hK hV hVd
    (by positivity) hθ hdet rfl hE k1 rfl rfl hN rfl hβ hD (by norm_num at hD1 ⊢; linarith) rfl rfl rfl rfl
    rfl rfl rfl rfl rfl rfl
  refine ⟨value, e1, e2.trans ?_⟩
  have hw := tiny_lt
  refine (add_le_add hbound (mul_le_mul_of_nonneg_left hw (by norm_num))).trans ?_
  norm_num

end

private noncomputable def rtlPoints : Fin 2 → Point 2 := ![![0, 0], ![1, 2]]

private theorem rtlPoints_length (i : Fin 2) : scaledLength (![1, 2] : Fin 2 → ℝ) (rtlPoints i) ≤ 10 := by
  refine Real.sqrt_le_iff.2 ⟨by norm_num, ?_⟩
  fin_cases i <;> simp [rtlPoints, Fin.sum_univ_two] <;> norm_num

private noncomputable def rtlHyps : HypDict :=
  ⟨some (.flt (.fin (1 / 2))), some (.flt (.fin 5)), some (.flt (.fin 1)), some (.arr [.fin 1, .fin 2])⟩

private theorem rtlHyps_describes : Describes rtlHyps (1 / 2) 1 (![1, 2] : Fin 2 → ℝ) where
  noise := rfl
  signal := rfl
  lengthscales := .inl (by simp [rtlHyps])
  nonzero := fun k => by fin_cases k <;> simp

/-- Hypotheses of `C162_typical` are met by two observations in two dimensions, with the exact inverse, the exact
logarithm of the determinant and the exact Gamma function, each rounded. -/
example : ∃ (ex lg gm : ℝ → ℝ) (o o' : SumOrder)
    (inv : Matrix (Fin 2) (Fin 2) ℝ → Py (Matrix (Fin 2) (Fin 2) ℝ)) (sld : Matrix (Fin 2) (Fin 2) ℝ → ℝ × ℝ)
    (K V : Matrix (Fin 2) (Fin 2) ℝ) (value : ℝ),
    RoundedKernels.kernelMatrix roundAway ex o rtlPoints rtlHyps "matern52" = .ok K ∧ inv K = .ok V ∧
    (∀ i j, |V i j - K⁻¹ i j| ≤ 1 / 10 ^ 9) ∧ LogDetWithin (1 / 10 ^ 9) K (sld K) ∧
    RoundedTpLikelihood.negLogMl roundAway ex lg gm o (orderedMul roundAway o') inv sld rtlPoints ![1, -2]
      [.fin (1 / 2), .fin 5, .fin 1, .fin 1, .fin 2] "matern52" ![0, 0] true false = .ok value ∧
    |value - -Real.log (mvtDensity 5 ![0, 0] (noisyGram "matern52" (1 / 2) 1 (![1, 2] : Fin 2 → ℝ)
      (.vec rtlPoints)) ![1, -2]) / (2 : ℕ)| ≤ 1 / 100 := by
  have hf := roundAway_nearest
  have hex : ExpWithin (1 / 2 ^ 50) fun x => roundAway (Real.exp x) := by
    have h := expWithin_round hf
    exact ⟨h.zero, h.nonneg, h.le_one, fun x hx => (h.near x hx).trans (add_le_add
      (mul_le_mul_of_nonneg_right (by norm_num) (Real.exp_pos x).le) le_rfl)⟩
  have hlg : LogRelative (1 / 2 ^ 50) fun x => roundAway (Real.log x) := by
    have h := logRelative_round hf
    exact ⟨h.mem, fun x hx h0 => (h.near x hx h0).trans
      (mul_le_mul_of_nonneg_right (by norm_num) (abs_nonneg _))⟩
  have ho : (SumOrder.add (.entry 0) (.entry 1)).Covers 2 := by
    simp [SumOrder.Covers, SumOrder.entries, List.range_succ]
  have hn : "matern52" ∈ baseNames := by simp [baseNames]
  obtain ⟨K, hK, hs, hKe⟩ := kernelMatrix_error hf hex (by norm_num) (by norm_num) ho (by norm_num) hn
    rtlHyps_describes rtlPoints_length (by norm_num)
  obtain ⟨E, hE⟩ : ∃ E : ℝ, E = (1 : ℝ) ^ 2 * (2 * (1 / 2 ^ 50) + (1 + ((2 : ℕ) + 1) * 10) / 2 ^ 44) +
    ((1 / 2) ^ 2 + 1) / 2 ^ 49 := ⟨_, rfl⟩
  rw [← hE] at hKe
  have hE1 : E ≤ 1 / 10 ^ 6 := by rw [hE]; norm_num
  have hE0 : 0 ≤ E := by rw [hE]; norm_num
  have hlt : ((2 : ℕ) : ℝ) * E < (1 / 2) ^ 2 + 1 / 100000 := by
    norm_num at hE1 ⊢
    linarith
  have hgap : (1 / 10 : ℝ) ≤ (1 / 2) ^ 2 + 1 / 100000 - ((2 : ℕ) : ℝ) * E := by
    norm_num at hE1 ⊢
    linarith
  have hw : (2 : ℝ) ^ (-1075 : ℤ) ≤ 1 / 10 ^ 20 := by
    have h1 : (2 : ℝ) ^ (-1075 : ℤ) ≤ (2 : ℝ) ^ (-70 : ℤ) := zpow_le_zpow_right₀ (by norm_num) (by norm_num)
    exact h1.trans (by norm_num)
  have hB := near_inverse_entry (V := K⁻¹) (θ := 0) hs hKe hlt (by simp)
  have hV : ∀ i j, |roundAway (K⁻¹ i j) - K⁻¹ i j| ≤ 1 / 10 ^ 9 := fun i j => by
    refine (fl_error hf _).trans ?_
    have h1 : |K⁻¹ i j| ≤ 10 := by
      refine (hB i j).trans ?_
      have := one_div_le_one_div_of_le (by norm_num) hgap
      norm_num at this ⊢
      linarith
    norm_num at h1 hw ⊢
    linarith
  have hdet : |Real.log K.det| ≤ 20001 := by
    have h1 := log_det_near hE0 hs hKe hlt
    have h2 := log_det_size "matern52" (1 / 2) 1 (![1, 2] : Fin 2 → ℝ) (.vec rtlPoints) (τ := 1 / 100)
      (by norm_num) (by norm_num) (by norm_num) (by norm_num) (by norm_num) (by norm_num)
    norm_num at h2
    have h3 : ((2 : ℕ) : ℝ) * √(2 : ℕ) * E / ((1 / 2) ^ 2 + 1 / 100000 - ((2 : ℕ) : ℝ) * E) ≤ 1 := by
      rw [div_le_one (by linarith)]
      have h4 : √((2 : ℕ) : ℝ) ≤ 2 := Real.sqrt_le_iff.2 ⟨by norm_num, by norm_num⟩
      have h5 := mul_le_mul h4 hE1 hE0 (by norm_num)
      refine le_trans ?_ hgap
      push_cast at h5 ⊢
      norm_num at h5 ⊢
      linarith
    have h6 := abs_add_le (Real.log K.det - Real.log (noisyGram "matern52" (1 / 2) 1 (![1, 2] : Fin 2 → ℝ)
      (.vec rtlPoints)).det) (Real.log (noisyGram "matern52" (1 / 2) 1 (![1, 2] : Fin 2 → ℝ)
      (.vec rtlPoints)).det)
    rw [sub_add_cancel] at h6
    linarith
  have hsld : LogDetWithin (1 / 10 ^ 9) K (1, roundAway (Real.log K.det)) := by
    refine ⟨one_pos, (fl_error hf _).trans ?_⟩
    norm_num at hdet hw ⊢
    linarith
  have hY : ∀ i, (![1, -2] : Fin 2 → ℝ) i ∈ Double := by
    intro i
    fin_cases i
    · exact ⟨1, 0, by norm_num, by norm_num, by norm_num⟩
    · exact ⟨-2, 0, by norm_num, by norm_num, by norm_num⟩
  have hμ : ∀ i, (![0, 0] : Fin 2 → ℝ) i ∈ Double := by
    intro i
    fin_cases i <;> exact ⟨0, 0, by norm_num, by norm_num, by norm_num⟩
  have five : (5 : ℝ) ∈ Double := by simpa using double_nat (show 5 < 2 ^ 53 by norm_num)
  have hr : restoreHyps "matern52" [.fin (1 / 2), .fin 5, .fin 1, .fin 1, .fin 2] false true false =
      .ok rtlHyps := by
    simp [restoreHyps, rtlHyps, pyAssert, pyIndex, getListFirst, ALLOWED_COV, ALLOWED_COV_BASE, bind, Except.bind, pure,
      Except.pure, List.range', List.mapM_cons, List.mapM_nil]
  obtain ⟨value, e1, e2⟩ := C162_typical (X := rtlPoints) (Y := ![1, -2]) (μ := ![0, 0])
    (inv := fun A => .ok fun i j => roundAway (A⁻¹ i j)) (sld := fun A => (1, roundAway (Real.log A.det)))
    (V := fun i j => roundAway (K⁻¹ i j)) hf hex ho (by norm_num) hn hr rtlHyps_describes (by norm_num)
    (by norm_num) (ν := 5) (by norm_num) (by norm_num) five rfl rtlPoints_length (by norm_num) (by norm_num) hlg
    (gammaRelative_round hf) ho hY hμ (fun i => by fin_cases i <;> norm_num) hK rfl (fun i j => hf.mem _) hV hsld
  exact ⟨fun x => roundAway (Real.exp x), fun x => roundAway (Real.log x), fun x => roundAway (Real.Gamma x),
    .add (.entry 0) (.entry 1), .add (.entry 0) (.entry 1), fun A => .ok fun i j => roundAway (A⁻¹ i j),
    fun A => (1, roundAway (Real.log A.det)), K, fun i j => roundAway (K⁻¹ i j), value, hK, rfl, hV, hsld, e1, e2⟩

end Verif.Props
