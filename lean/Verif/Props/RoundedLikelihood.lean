import Verif.Lemmas.RoundedLikelihood
import Verif.Props.RoundedPredict
import Verif.Props.Gradients

/-! # The likelihood in double precision (C156) -/

namespace Verif.Props

open Verif.Spec Verif.Covariance Verif.UtilsCovariance Verif.Lemmas Verif.Rounded
  Verif.RoundedPredict
open scoped Matrix

section

variable {fl ex lg : ℝ → ℝ} {n d : ℕ} {o o' : SumOrder} {mm : MatMul} {name : String} {h : HypDict}
  {σ s η R : ℝ} {l : Fin d → ℝ}
  {chol : Matrix (Fin n) (Fin n) ℝ → Py (Matrix (Fin n) (Fin n) ℝ)}
  {solve : Matrix (Fin n) (Fin n) ℝ → (Fin n → ℝ) → Fin n → ℝ}

/-- C156: the likelihood computed in double precision. The kernel matrix is off by at most `E` in each entry,
the product of the computed factors by at most `δ` from the computed matrix, and the computed solution of the
linear system misses each equation by at most `ε`. Logarithms have relative error `ζ` and products of matrices `γ`,
losing `t` to underflow. Then the negative log marginal likelihood per response differs from the
one of the exact Gaussian density by at most the bound below: `a` comes from the quadratic form, `b` from the
determinant, and `M` bounds the size of the terms; `u` is the unit roundoff. -/
theorem C156_likelihood (hf : Nearest fl) (hex : ExpWithin η ex) (hη : 0 ≤ η) (hη1 : η ≤ 1 / 2)
    (ho : o.Covers d) (hd : d ≤ 2 ^ 20) (hn : name ∈ baseNames) {v : List Flt} {ard fix : Bool}
    (hr : restoreHyps name v true ard fix = .ok h) (hh : Describes h σ s l) {X : Fin n → Point d}
    (hX : ∀ i, scaledLength l (X i) ≤ R) (hR : (d + 1) * R ≤ 2 ^ 39) (h0 : n ≠ 0) (hn20 : n ≤ 2 ^ 20)
    (ho' : o'.Covers n) {ζ γ t δ ε : ℝ} (hζ : 0 ≤ ζ) (hζ1 : ζ ≤ 1 / 4) (hlg : LogRelative ζ lg)
    (hγ : 0 ≤ γ) (hmm : MultipliesWithin n γ t mm) {Y μ : Fin n → ℝ} (hY : ∀ i, Y i ∈ Double)
    (hμ : ∀ i, μ i ∈ Double) {K L : Matrix (Fin n) (Fin n) ℝ}
    (hK : RoundedKernels.kernelMatrix fl ex o X h name = .ok K) (hL : chol K = .ok L) (hδ : 0 ≤ δ)
    (hF : FactorsWithin δ K L) (hε : 0 ≤ ε)
    (hS : SolvesWithin ε K (fun i => fl (Y i - μ i)) (solve L fun i => fl (Y i - μ i)))
    {u E τ ρ A a b Λ M : ℝ} (hu : u = 1 / 2 ^ 53) (hτ : τ = σ ^ 2 + 1 / 100000)
    (hE : E = s ^ 2 * (2 * η + (1 + (d + 1) * R) / 2 ^ 44) + (σ ^ 2 + 1) / 2 ^ 49)
    (hlt : n * (E + δ) < τ) (hρ : √(∑ i, (Y i - μ i) ^ 2) ≤ ρ)
    (hA : A = (√n * ε + u * ρ + n * E * (ρ / τ)) / (τ - n * E))
    (ha : a = (1 + u) * ρ * A + u * ρ * (ρ / τ) + γ * ((1 + u) * ρ * (ρ / τ + A)) + t)
    (hΛ : Real.exp (-Λ) ≤ √(τ - n * (E + δ)))
    (hΛ' : 2 * (√(s ^ 2 + τ + (E + δ)) + 1 / 10 ^ 6) ≤ Real.exp Λ)
    (hb : b = n * (ζ * Λ + u + 101 / 10 ^ 9 / √(τ - n * (E + δ))) + 2 * n * u * (n * ((1 + ζ) * Λ)) +
      n * √n * (E + δ) / (τ - n * (E + δ)) / 2)
    (hM : M = ρ * (ρ / τ) + a + 2 * n * ((1 + ζ) * Λ) + 3 * n) :
    ∃ value, RoundedLikelihood.negLogMl fl ex lg o o' mm chol solve X Y v name μ ard fix = .ok value ∧
      |value - -Real.log (mvnDensity μ (noisyGram name σ s l (.vec X)) Y) / n| ≤
        (a / 2 + b + 6 * u * M) / n + 2 * ζ + 2 * u + 3 * (2 : ℝ) ^ (-1075 : ℤ) := by
  have hd' : (d : ℝ) ≤ 2 ^ 20 := by exact_mod_cast hd
  have hn' : (n : ℝ) ≤ 2 ^ 20 := by exact_mod_cast hn20
  have hn1 : 1 ≤ n := Nat.one_le_iff_ne_zero.2 h0
  have hn1' : (1 : ℝ) ≤ n := by exact_mod_cast hn1
  have hnp : (0 : ℝ) < n := by linarith
  obtain ⟨K₁, hK₁, hsym, hKe⟩ := kernelMatrix_error hf hex hη hη1 ho hd' hn hh hX hR
  rw [hK] at hK₁
  obtain rfl := Except.ok.inj hK₁
  rw [← hE] at hKe
  have hE0 : 0 ≤ E := (abs_nonneg _).trans (hKe ⟨0, hn1⟩ ⟨0, hn1⟩)
  have hltE : n * E < σ ^ 2 + 1 / 100000 := by
    rw [← hτ]
    refine lt_of_le_of_lt ?_ hlt
    gcongr
    linarith
  have hlt' : n * (E + δ) < σ ^ 2 + 1 / 100000 := hτ ▸ hlt
  have hgap : 0 < τ - n * (E + δ) := sub_pos.2 hlt
  refine ⟨_, roundedNegLogMl_ok hf hn hr hh hK hL h0 Y μ, ?_⟩
  -- the quadratic form
  have hρ' : √((Y - μ) ⬝ᵥ (Y - μ)) ≤ ρ := by simpa [dotProduct, sq] using hρ
  obtain ⟨-, hq1, hq2⟩ := quadratic_error hf hγ hmm hKe hltE hε hE0 hY hμ hS hρ' hu (hτ ▸ hA)
  rw [← hτ, ← ha] at hq1
  rw [← hτ] at hq2
  set p := mm (fun _ k => fl (Y k - μ k) : Matrix (Fin 1) (Fin n) ℝ)
    (fun k _ => solve L (fun i => fl (Y i - μ i)) k : Matrix (Fin n) (Fin 1) ℝ) 0 0
  set q := (Y - μ) ⬝ᵥ ((noisyGram name σ s l (.vec X))⁻¹ *ᵥ (Y - μ))
  have hp : |p| ≤ ρ * (ρ / τ) + a := by
    have := abs_add_le (p - q) q
    rw [sub_add_cancel] at this
    linarith
  -- the determinant
  have hG : ∀ i j, |(L * Lᵀ) i j - noisyGram name σ s l (.vec X) i j| ≤ E + δ := fun i j => by
    have h1 := abs_sub_le ((L * Lᵀ) i j) (K i j) (noisyGram name σ s l (.vec X) i j)
    have h2 : |(L * Lᵀ) i j - K i j| ≤ δ := hF.near i j
    have h3 := hKe i j
    linarith
  have hch : IsCholesky (L * Lᵀ) L := ⟨hF.upper, hF.diag, rfl⟩
  have hdet := log_det_near (by linarith) (isCholesky_symm hch) hG hlt'
  rw [cholesky_log_det hch, ← hτ] at hdet
  have hlow : ∀ i, √(τ - n * (E + δ)) ≤ L i i := fun i => by
    apply Real.sqrt_le_iff.2
    exact ⟨(hF.diag i).le, cholesky_diag_ge hch hgap.le (fun x => by
      rw [hτ]
      exact near_form hG x) i⟩
  have hupp : ∀ i, L i i ≤ √(s ^ 2 + τ + (E + δ)) := fun i => by
    apply Real.le_sqrt_of_sq_le
    have h1 : L i i ^ 2 ≤ (L * Lᵀ) i i := by
      rw [← isCholesky_entry hch i i]
      have := Finset.single_le_sum (f := fun k => L i k * L i k) (fun k _ => mul_self_nonneg (L i k))
        (Finset.mem_univ i)
      simpa [sq] using this
    have h2 := (abs_le.1 (hG i i)).2
    have h3 := (gram_bound name s l (.vec X) (.vec X) i i).2
    have h4 : noisyGram name σ s l (.vec X) i i = gram name s l (.vec X) (.vec X) i i + τ := by
      rw [hτ]
      simp [noisyGram]
    rw [h4] at h2
    linarith
  obtain ⟨hSd, hS1, hS2⟩ := log_sum_error hf hlg hζ ho' hn' (fun i => hF.mem i i)
    (Real.sqrt_pos.2 hgap) hlow hupp hΛ hΛ'
  rw [← hu] at hS2
  set T' := RoundedKernels.sumList fl
    (List.ofFn fun i => lg (fl (L i i + fl Constants.JITTER_LOG))) o'
  have hD : |T' - 1 / 2 * Real.log (noisyGram name σ s l (.vec X)).det| ≤ b := by
    have h1 := abs_sub_le T' (∑ i, Real.log (L i i))
      (1 / 2 * Real.log (noisyGram name σ s l (.vec X)).det)
    have e : ∑ i, Real.log (L i i) - 1 / 2 * Real.log (noisyGram name σ s l (.vec X)).det =
        1 / 2 * (2 * ∑ i, Real.log (L i i) - Real.log (noisyGram name σ s l (.vec X)).det) := by ring
    rw [e, abs_mul, abs_of_nonneg (by norm_num : (0 : ℝ) ≤ 1 / 2)] at h1
    linarith
  -- the constant
  obtain ⟨hT1, hT2⟩ := constant_error (n := n) hf hlg hζ hζ1 hn'
  have hfin := assemble_error hf hn1 hSd (hf.mem _) hu hq1 hD hT1 hp hS1 hT2 hM
  rw [← nllExact_eq (noisyGram_posDef name σ s l (.vec X)), nllExact]
  refine hfin.trans ?_
  have hw : (0 : ℝ) < (2 : ℝ) ^ (-1075 : ℤ) := by positivity
  rw [← hu]
  generalize (2 : ℝ) ^ (-1075 : ℤ) = w at *
  have e : (a / 2 + b + (n * (2 * ζ + 2 * u) + w) + 6 * u * M) / n =
      (a / 2 + b + 6 * u * M) / n + 2 * ζ + 2 * u + w / n := by
    field_simp
    ring
  rw [e]
  have : w / n ≤ w := div_le_self hw.le hn1'
  linarith

/-- C156 with numbers: at most 20 responses in at most 10 dimensions, inputs within 10 lengthscales of the origin,
signal 1, noise variance between 0.01 and 1, residuals of size at most 3, exponentials and logarithms with
relative error `2^-50`, rounded products in any order, a factorisation and a solution that are
right up to `1e-12`: the computed value is within `2e-5` of the exact one. -/
theorem C156_typical (hf : Nearest fl) (hex : ExpWithin (1 / 2 ^ 50) ex) (ho : o.Covers d)
    (hd : d ≤ 10) (hn : name ∈ baseNames) {v : List Flt} {ard fix : Bool}
    (hr : restoreHyps name v true ard fix = .ok h) (hh : Describes h σ 1 l)
    (hσ : 1 / 100 ≤ σ ^ 2) (hσ1 : σ ^ 2 ≤ 1) {X : Fin n → Point d}
    (hX : ∀ i, scaledLength l (X i) ≤ 10) (h0 : n ≠ 0) (hn20 : n ≤ 20) (ho' : o'.Covers n)
    (hlg : LogRelative (1 / 2 ^ 50) lg) {o'' : SumOrder} (ho'' : o''.Covers n) {Y μ : Fin n → ℝ}
    (hY : ∀ i, Y i ∈ Double) (hμ : ∀ i, μ i ∈ Double) (h3 : ∀ i, |Y i - μ i| ≤ 3)
    {K L : Matrix (Fin n) (Fin n) ℝ} (hK : RoundedKernels.kernelMatrix fl ex o X h name = .ok K)
    (hL : chol K = .ok L) (hF : FactorsWithin (1 / 10 ^ 12) K L)
    (hS : SolvesWithin (1 / 10 ^ 12) K (fun i => fl (Y i - μ i)) (solve L fun i => fl (Y i - μ i))) :
    ∃ value, RoundedLikelihood.negLogMl fl ex lg o o' (orderedMul fl o'') chol solve X Y v name μ ard
        fix = .ok value ∧
      |value - -Real.log (mvnDensity μ (noisyGram name σ 1 l (.vec X)) Y) / n| ≤ 2 / 10 ^ 5 := by
  have hn' : (n : ℝ) ≤ 20 := by exact_mod_cast hn20
  have hn1' : (1 : ℝ) ≤ n := by exact_mod_cast Nat.one_le_iff_ne_zero.2 h0
  have hn0 : (0 : ℝ) < n := by linarith
  have hd' : (d : ℝ) ≤ 10 := by exact_mod_cast hd
  have hd0 : (0 : ℝ) ≤ d := Nat.cast_nonneg d
  have ht2 : (2 : ℝ) ^ (-1075 : ℤ) ≤ 1 / 10 ^ 20 := by
    have h1 : (2 : ℝ) ^ (-1075 : ℤ) ≤ (2 : ℝ) ^ (-70 : ℤ) := zpow_le_zpow_right₀ (by norm_num) (by norm_num)
    exact h1.trans (by norm_num)
  have ht2' : (0 : ℝ) < (2 : ℝ) ^ (-1075 : ℤ) := by positivity
  obtain ⟨u, hu⟩ : ∃ u : ℝ, u = 1 / 2 ^ 53 := ⟨_, rfl⟩
  have hu0 : 0 < u := by rw [hu]; positivity
  have hu1 : u ≤ 1 / 10 ^ 15 := by rw [hu]; norm_num
  obtain ⟨E, hE⟩ : ∃ E : ℝ, E = 1 ^ 2 * (2 * (1 / 2 ^ 50) + (1 + (d + 1) * 10) / 2 ^ 44) +
    (σ ^ 2 + 1) / 2 ^ 49 := ⟨_, rfl⟩
  have hE0 : 0 ≤ E := by rw [hE]; positivity
  have hE1 : E ≤ 1 / 10 ^ 11 := by
    rw [hE]
    norm_num
    linarith
  obtain ⟨τ, hτ⟩ : ∃ τ : ℝ, τ = σ ^ 2 + 1 / 100000 := ⟨_, rfl⟩
  obtain ⟨δ, hδ⟩ : ∃ δ : ℝ, δ = 1 / 10 ^ 12 := ⟨_, rfl⟩
  have hδ0 : 0 < δ := by rw [hδ]; positivity
  have hκ1 : E + δ ≤ 11 / 10 ^ 12 := by rw [hδ]; norm_num at hE1 ⊢; linarith
  have hκ0 : 0 ≤ E + δ := by positivity
  have hnκ0 : 0 ≤ n * (E + δ) := by positivity
  have hnκ : n * (E + δ) ≤ 22 / 10 ^ 11 := by
    have := mul_le_mul hn' hκ1 (by positivity) (by norm_num)
    norm_num at this ⊢
    linarith
  have hnE0 : 0 ≤ n * E := by positivity
  have hnE : n * E ≤ 2 / 10 ^ 10 := by
    have := mul_le_mul hn' hE1 hE0 (by norm_num)
    norm_num at this ⊢
    linarith
  have hτ1 : 1 / 100 ≤ τ := by rw [hτ]; linarith
  have hτ2 : τ ≤ 2 := by rw [hτ]; linarith
  have hgap : 1 / 100 ≤ τ - n * (E + δ) := by rw [hτ]; norm_num at hnκ hσ ⊢; linarith
  have hgapE : 1 / 100 ≤ τ - n * E := by
    have : n * E ≤ n * (E + δ) := by gcongr; linarith
    linarith
  have hroot : 1 / 10 ≤ √(τ - n * (E + δ)) := Real.le_sqrt_of_sq_le (by norm_num at hgap ⊢; linarith)
  have hr0 : 0 < √(τ - n * (E + δ)) := by linarith
  obtain ⟨q, hq⟩ : ∃ q : ℝ, q = √n := ⟨_, rfl⟩
  have hq2 : q * q = n := by rw [hq]; exact Real.mul_self_sqrt hn0.le
  have hq0 : 0 < q := by rw [hq]; exact Real.sqrt_pos.2 hn0
  have hq1 : q ≤ 5 := by rw [hq]; exact Real.sqrt_le_iff.2 ⟨by norm_num, by linarith⟩
  have hρ : √(∑ i, (Y i - μ i) ^ 2) ≤ 3 * q := by
    apply Real.sqrt_le_iff.2
    refine ⟨by positivity, ?_⟩
    have h1 : ∑ i, (Y i - μ i) ^ 2 ≤ n * 9 := by
      refine (Finset.sum_le_sum fun i _ => (?_ : (Y i - μ i) ^ 2 ≤ 9)).trans_eq (by simp)
      rw [← sq_abs]
      have := pow_le_pow_left₀ (abs_nonneg _) (h3 i) 2
      norm_num at this ⊢
      exact this
    nlinarith
  obtain ⟨A, hA⟩ : ∃ A : ℝ, A = (√n * δ + u * (3 * q) + n * E * (3 * q / τ)) / (τ - n * E) := ⟨_, rfl⟩
  have hqτ : 3 * q / τ ≤ 300 * q := by
    rw [div_le_iff₀ (by linarith)]
    nlinarith
  have hqτ0 : 0 ≤ 3 * q / τ := by positivity
  have hA1 : A ≤ 7 / 10 ^ 6 * q := by
    rw [hA, div_le_iff₀ (by linarith), ← hq]
    have h1 : n * E * (3 * q / τ) ≤ 2 / 10 ^ 10 * (300 * q) := mul_le_mul hnE hqτ hqτ0 (by norm_num)
    have h2 : u * (3 * q) ≤ 1 / 10 ^ 15 * (3 * q) := mul_le_mul_of_nonneg_right hu1 (by positivity)
    have h4 : 7 / 10 ^ 6 * q * (1 / 100) ≤ 7 / 10 ^ 6 * q * (τ - n * E) :=
      mul_le_mul_of_nonneg_left hgapE (by positivity)
    rw [hδ]
    norm_num at h1 h2 h4 ⊢
    linarith
  have hA0 : 0 ≤ A := by rw [hA]; exact div_nonneg (by positivity) (by linarith)
  obtain ⟨γ, hγ⟩ : ∃ γ : ℝ, γ = (4 * n + 1) / 2 ^ 53 := ⟨_, rfl⟩
  obtain ⟨t, ht⟩ : ∃ t : ℝ, t = 2 * n * (2 : ℝ) ^ (-1075 : ℤ) := ⟨_, rfl⟩
  have hγ0 : 0 ≤ γ := by rw [hγ]; positivity
  have hγ1 : γ ≤ 1 / 10 ^ 13 := by
    rw [hγ]
    norm_num
    linarith
  have ht3 : t ≤ n * (1 / 10 ^ 15) := by
    rw [ht]
    have := mul_le_mul_of_nonneg_left ht2 (show (0 : ℝ) ≤ 2 * n by positivity)
    refine this.trans ?_
    norm_num
    linarith
  have ht0 : 0 ≤ t := by rw [ht]; positivity
  have hmm := C129_products (fl := fl) hf ho'' (hn20.trans (by norm_num))
  rw [← hγ, ← ht] at hmm
  obtain ⟨a, ha⟩ : ∃ a : ℝ, a = (1 + u) * (3 * q) * A + u * (3 * q) * (3 * q / τ) +
    γ * ((1 + u) * (3 * q) * (3 * q / τ + A)) + t := ⟨_, rfl⟩
  have ha1 := typical_quadratic hu0 hu1 hq0 hq2 hqτ hqτ0 hA0 hA1 hγ0 hγ1 ht3 ha
  have ha0 : 0 ≤ a := by rw [ha]; positivity
  have hexp3 : (20 : ℝ) ≤ Real.exp 3 := by
    have := Real.exp_one_gt_d9
    have e : Real.exp 3 = Real.exp 1 * Real.exp 1 * Real.exp 1 := by
      rw [← Real.exp_add, ← Real.exp_add]; norm_num
    have h1 : (2.718 : ℝ) ≤ Real.exp 1 := by norm_num at this ⊢; linarith
    have h2 := mul_le_mul (mul_le_mul h1 h1 (by norm_num) (by positivity)) h1 (by norm_num)
      (by positivity)
    rw [e]
    norm_num at h2 ⊢
    linarith
  have hΛ : Real.exp (-3) ≤ √(τ - n * (E + δ)) := by
    rw [Real.exp_neg]
    refine (inv_anti₀ (by norm_num) hexp3).trans ?_
    norm_num at hroot ⊢
    linarith
  have hΛ' : 2 * (√(1 ^ 2 + τ + (E + δ)) + 1 / 10 ^ 6) ≤ Real.exp 3 := by
    have : √(1 ^ 2 + τ + (E + δ)) ≤ 2 := Real.sqrt_le_iff.2 ⟨by norm_num, by
      norm_num at hκ1 ⊢
      linarith⟩
    norm_num at this ⊢
    linarith
  obtain ⟨b, hb⟩ : ∃ b : ℝ, b = n * (1 / 2 ^ 50 * 3 + u + 101 / 10 ^ 9 / √(τ - n * (E + δ))) +
    2 * n * u * (n * ((1 + 1 / 2 ^ 50) * 3)) + n * √n * (E + δ) / (τ - n * (E + δ)) / 2 := ⟨_, rfl⟩
  rw [← hq] at hb
  have hb1 := typical_determinant hu0 hu1 hn0 hn' hq0 hq1 hκ0 hκ1 hgap hroot hb
  rw [hq] at hb
  obtain ⟨M, hM⟩ : ∃ M : ℝ, M = 3 * q * (3 * q / τ) + a + 2 * n * ((1 + 1 / 2 ^ 50) * 3) + 3 * n :=
    ⟨_, rfl⟩
  have hM1 : M ≤ n * 1000 := by
    have h1 : 3 * q * (3 * q / τ) ≤ 3 * q * (300 * q) := mul_le_mul_of_nonneg_left hqτ (by positivity)
    have e : 3 * q * (300 * q) = 900 * n := by rw [← hq2]; ring
    rw [hM]
    norm_num at h1 ha1 ⊢
    linarith
  have hM0 : 0 ≤ M := by rw [hM]; positivity
  rw [← hδ] at hF hS
  obtain ⟨value, h1, h2⟩ := C156_likelihood (mm := orderedMul fl o'') hf hex (by positivity) (by norm_num)
    ho (hd.trans (by norm_num)) hn hr hh hX (by norm_num; linarith) h0 (hn20.trans (by norm_num)) ho'
    (by positivity) (by norm_num) hlg hγ0 hmm hY hμ hK hL hδ0.le hF hδ0.le hS hu hτ hE (by linarith) hρ
    hA ha hΛ hΛ' hb hM
  refine ⟨value, h1, h2.trans ?_⟩
  have h4 : 6 * u * M ≤ n * (1 / 10 ^ 10) := by
    have := mul_le_mul (mul_le_mul_of_nonneg_left hu1 (by norm_num : (0 : ℝ) ≤ 6)) hM1 hM0 (by norm_num)
    norm_num at this ⊢
    linarith
  have h5 : (a / 2 + b + 6 * u * M) / n ≤ 14 / 10 ^ 6 := by
    rw [div_le_iff₀ hn0]
    norm_num at ha1 hb1 h4 ⊢
    linarith
  norm_num at h5 ht2 hu1 ⊢
  linarith

end

private noncomputable def rlPoints : Fin 2 → Point 2 := ![![0, 0], ![1, 2]]

private theorem rlPoints_length (i : Fin 2) : scaledLength (![1, 2] : Fin 2 → ℝ) (rlPoints i) ≤ 10 := by
  refine Real.sqrt_le_iff.2 ⟨by norm_num, ?_⟩
  fin_cases i <;> simp [rlPoints, Fin.sum_univ_two] <;> norm_num

private noncomputable def rlHyps : HypDict :=
  ⟨some (.flt (.fin (1 / 2))), none, some (.flt (.fin 1)), some (.arr [.fin 1, .fin 2])⟩

private theorem rlHyps_describes : Describes rlHyps (1 / 2) 1 (![1, 2] : Fin 2 → ℝ) where
  noise := rfl
  signal := rfl
  lengthscales := .inl (by simp [rlHyps])
  nonzero := fun k => by fin_cases k <;> simp

/-- Hypotheses of `C156_typical` are met by two observations in two dimensions, with the exact factor and the exact
solution rounded entry by entry. -/
example : ∃ (fl ex lg : ℝ → ℝ) (o : SumOrder) (K L : Matrix (Fin 2) (Fin 2) ℝ) (a : Fin 2 → ℝ),
    Nearest fl ∧ ExpWithin (1 / 2 ^ 50) ex ∧ o.Covers 2 ∧ "matern52" ∈ baseNames ∧
    restoreHyps "matern52" [.fin (1 / 2), .fin 1, .fin 1, .fin 2] true true false = .ok rlHyps ∧
    Describes rlHyps (1 / 2) 1 (![1, 2] : Fin 2 → ℝ) ∧
    (∀ i, scaledLength (![1, 2] : Fin 2 → ℝ) (rlPoints i) ≤ 10) ∧ LogRelative (1 / 2 ^ 50) lg ∧
    (∀ i, (![1, -2] : Fin 2 → ℝ) i ∈ Double) ∧ (∀ i, |(![1, -2] : Fin 2 → ℝ) i - 0| ≤ 3) ∧
    RoundedKernels.kernelMatrix fl ex o rlPoints rlHyps "matern52" = .ok K ∧
    FactorsWithin (1 / 10 ^ 12) K L ∧
    SolvesWithin (1 / 10 ^ 12) K (fun i => fl ((![1, -2] : Fin 2 → ℝ) i - 0)) a := by
  have hf := roundAway_nearest
  have hex : ExpWithin (1 / 2 ^ 50) fun x => roundAway (Real.exp x) := by
    have h := expWithin_round hf
    exact ⟨h.zero, h.nonneg, h.le_one, fun x hx => (h.near x hx).trans (add_le_add
      (mul_le_mul_of_nonneg_right (by norm_num) (Real.exp_pos x).le) le_rfl)⟩
  have hlg : LogRelative (1 / 2 ^ 50) fun x => roundAway (Real.log x) := by
    have h := logRelative_round hf
    exact ⟨h.mem, fun x hx h0 => (h.near x hx h0).trans
      (mul_le_mul_of_nonneg_right (by norm_num) (abs_nonneg _))⟩
  have ho : (SumOrder.add (.entry 0) (.entry 1)).Covers 2 := by
    simp [SumOrder.Covers, SumOrder.entries, List.range_succ]
  have hn : "matern52" ∈ baseNames := by simp [baseNames]
  obtain ⟨K, hK, hs, hKe⟩ := kernelMatrix_error hf hex (by norm_num) (by norm_num) ho (by norm_num) hn
    rlHyps_describes rlPoints_length (by norm_num)
  obtain ⟨E, hE⟩ : ∃ E : ℝ, E = (1 : ℝ) ^ 2 * (2 * (1 / 2 ^ 50) + (1 + ((2 : ℕ) + 1) * 10) / 2 ^ 44) +
    ((1 / 2) ^ 2 + 1) / 2 ^ 49 := ⟨_, rfl⟩
  rw [← hE] at hKe
  have hE1 : E ≤ 1 / 10 ^ 6 := by rw [hE]; norm_num
  have hE0 : 0 ≤ E := by rw [hE]; norm_num
  have hlt : ((2 : ℕ) : ℝ) * E < (1 / 2) ^ 2 + 1 / 100000 := by
    norm_num at hE1 ⊢
    linarith
  have hpos := near_posDef hs hKe hlt
  have hform := near_form hKe
  have hKb : ∀ i j, |K i j| ≤ 2 := fun i j => by
    have h1 := hKe i j
    have h2 := gram_bound "matern52" 1 (![1, 2] : Fin 2 → ℝ) (.vec rlPoints) (.vec rlPoints) i j
    have h3 : |noisyGram "matern52" (1 / 2) 1 (![1, 2] : Fin 2 → ℝ) (.vec rlPoints) i j| ≤ 3 / 2 := by
      rw [noisyGram, Matrix.add_apply, Matrix.smul_apply, smul_eq_mul, Matrix.one_apply]
      obtain ⟨h4, h5⟩ := h2
      split <;> rw [abs_of_nonneg (by positivity)] <;> norm_num at h5 ⊢ <;> linarith
    have h6 := abs_add_le (K i j - noisyGram "matern52" (1 / 2) 1 (![1, 2] : Fin 2 → ℝ) (.vec rlPoints) i j)
      (noisyGram "matern52" (1 / 2) 1 (![1, 2] : Fin 2 → ℝ) (.vec rlPoints) i j)
    rw [sub_add_cancel] at h6
    norm_num at hE1
    linarith
  obtain ⟨L, hL⟩ := exists_cholesky K hs fun x hx => by
    have := hpos.dotProduct_mulVec_pos hx
    simpa [dotProduct, Matrix.mulVec, mul_add, mul_assoc] using this
  have hLb : ∀ i j, |L i j| ≤ 2 := fun i j => by
    have h1 : L i j ^ 2 ≤ K i i := by
      rw [← isCholesky_entry hL i i]
      have := Finset.single_le_sum (f := fun k => L i k * L i k) (fun k _ => mul_self_nonneg (L i k))
        (Finset.mem_univ j)
      simpa [sq] using this
    have h2 := (abs_le.1 (hKb i i)).2
    exact abs_le_of_sq_le_sq (by linarith) (by norm_num)
  have hgap : (1 / 10 : ℝ) ≤ (1 / 2) ^ 2 + 1 / 100000 - ((2 : ℕ) : ℝ) * E := by
    norm_num at hE1 ⊢
    linarith
  have hLd : ∀ i, 1 / 2 ^ 10 ≤ L i i := fun i => by
    have h1 := cholesky_diag_ge hL (by linarith) hform i
    refine le_of_sq_le_sq ?_ (hL.2.1 i).le
    refine le_trans (by norm_num) (hgap.trans h1)
  have hw : (2 : ℝ) ^ (-1075 : ℤ) ≤ 1 / 10 ^ 20 := by
    have h1 : (2 : ℝ) ^ (-1075 : ℤ) ≤ (2 : ℝ) ^ (-70 : ℤ) := zpow_le_zpow_right₀ (by norm_num) (by norm_num)
    exact h1.trans (by norm_num)
  have hw0 : (0 : ℝ) < (2 : ℝ) ^ (-1075 : ℤ) := by positivity
  obtain ⟨e, he⟩ : ∃ e : ℝ, e = 1 / 2 ^ 53 * 2 + (2 : ℝ) ^ (-1075 : ℤ) := ⟨_, rfl⟩
  have he1 : e ≤ 3 / 10 ^ 16 := by rw [he]; norm_num at hw ⊢; linarith
  have he0 : 0 ≤ e := by rw [he]; positivity
  have hfac := factors_round hf hL hLb hLd he
  set r : Fin 2 → ℝ := fun i => roundAway ((![1, -2] : Fin 2 → ℝ) i - 0) with hr
  have hY : ∀ i, (![1, -2] : Fin 2 → ℝ) i ∈ Double := by
    intro i
    fin_cases i
    · exact ⟨1, 0, by norm_num, by norm_num, by norm_num⟩
    · exact ⟨-2, 0, by norm_num, by norm_num, by norm_num⟩
  have hrb : ∀ i, |r i| ≤ 2 := fun i => by
    rw [hr]
    simp only [sub_zero]
    rw [fl_of_mem hf (hY i)]
    fin_cases i <;> norm_num
  have hxb : ∀ i, |(K⁻¹ *ᵥ r) i| ≤ 40 := fun i => by
    refine (entry_le_length _ i).trans ((length_inv_le (by linarith) hpos hform r).trans ?_)
    rw [div_le_iff₀ (by linarith)]
    have h1 := length_le_entries (by norm_num) hrb
    have h2 : √((2 : ℕ) : ℝ) ≤ 2 := Real.sqrt_le_iff.2 ⟨by norm_num, by norm_num⟩
    linarith
  have hsol := solves_round hf hpos hKb hxb
  refine ⟨roundAway, _, _, _, K, _, _, hf, hex, ho, hn, ?_, rlHyps_describes, rlPoints_length, hlg, hY,
    ?_, hK, ⟨hfac.mem, hfac.upper, hfac.diag, fun i j => (hfac.near i j).trans ?_⟩,
    ⟨hsol.mem, fun i => (hsol.near i).trans ?_⟩⟩
  · have := restore_vec (name := "matern52") hn false (1 / 2) 1 [1, 2]
    simpa [hypVector, rlHyps, restoreHyps] using this
  · intro i
    fin_cases i <;> norm_num
  · have h1 : e * (2 + e) ≤ 3 / 10 ^ 16 * 3 := mul_le_mul he1 (by norm_num at he1 ⊢; linarith)
      (by positivity) (by norm_num)
    norm_num at h1 he1 ⊢
    linarith
  · norm_num at hw ⊢
    linarith

end Verif.Props
