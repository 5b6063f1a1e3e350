import Verif.Lemmas.RoundedTp

/-! # C159: the Student-t process in double precision -/

namespace Verif.Props

open Verif.Spec Verif.Covariance Verif.UtilsCovariance Verif.Lemmas Verif.Rounded Verif.RoundedPredict
  Verif.Constants Verif.BoCommon Verif.UtilsBo Verif.Acquisition
open Verif.BoWTp (BOwTP)
open scoped Matrix

section

variable {fl ex : ℝ → ℝ} {n m d : ℕ} {o : SumOrder} {mm : MatMul} {name : String} {h : HypDict}
  {σ s η R : ℝ} {l : Fin d → ℝ}

/-- C159: predictions of the Student-t process computed in double precision, with kernel matrix, inverse,
products of matrices and constants as in C129. Means have the error of the Gaussian process. The covariance is
the one of the Gaussian process, `S`, times a factor `c` that is computed with error at most `ε`; `D` bounds the
error of the misfit `β` of the observations, `N` is the length of the residuals. -/
theorem C159_predictions (hf : Nearest fl) (hex : ExpWithin η ex) (hη : 0 ≤ η) (hη1 : η ≤ 1 / 2)
    (ho : o.Covers d) (hd : d ≤ 2 ^ 20) (hn : name ∈ baseNames) (hh : Describes h σ s l)
    {ν : ℝ} (hν : 2 < ν) (hνd : ν ∈ Double) (hdof : h.dof = some (.flt (.fin ν))) (hn1 : 1 ≤ n)
    (hn53 : n < 2 ^ 53) {X : Fin n → Point d} {Xs : Fin m → Point d} (hX : ∀ i, scaledLength l (X i) ≤ R)
    (hXs : ∀ j, scaledLength l (Xs j) ≤ R) (hR : (d + 1) * R ≤ 2 ^ 39)
    {γ t : ℝ} (hγ : 0 ≤ γ) (hγ1 : γ ≤ 1) (ht : 0 ≤ t) (hmm : MultipliesWithin n γ t mm)
    {prior : Gp.PriorMu d} {μ : Fin n → ℝ} {μs : Fin m → ℝ}
    (hμ : Gp.getPriorMu prior (.vec X) = .ok μ) (hμs : Gp.getPriorMu prior (.vec Xs) = .ok μs)
    (hμd : ∀ i, μ i ∈ Double) (hμsd : ∀ j, μs j ∈ Double) {Y : Fin n → ℝ} (hY : ∀ i, Y i ∈ Double)
    {K V : Matrix (Fin n) (Fin n) ℝ} (hK : RoundedKernels.kernelMatrix fl ex o X h name = .ok K)
    (hVd : ∀ i j, V i j ∈ Double) {θ : ℝ} (hθ0 : 0 ≤ θ) (hθ : ∀ i j, |V i j - K⁻¹ i j| ≤ θ)
    {E e u B κ ρ N Q F G β D c ε : ℝ} (hu : u = 1 / 2 ^ 53)
    (hE : E = s ^ 2 * (2 * η + (1 + (d + 1) * R) / 2 ^ 44) + (σ ^ 2 + 1) / 2 ^ 49)
    (he : e = s ^ 2 * (2 * η + (1 + (d + 1) * R) / 2 ^ 45) + (2 : ℝ) ^ (-1070 : ℤ))
    (hlt : n * E < σ ^ 2 + 1 / 100000)
    (hB : B = 1 / (σ ^ 2 + 1 / 100000 - n * E) + θ) (hκ : κ = s ^ 2 + e)
    (hρ : ρ = n * E / ((σ ^ 2 + 1 / 100000) * (σ ^ 2 + 1 / 100000 - n * E)) + n * θ)
    (hN : N = √(∑ i, (Y i - μ i) ^ 2)) (hQ : Q = √n * N)
    (hF : F = Q * (s ^ 2 * ρ + n * B * (e + (6 * γ + u) * κ) + 4 * t) + t)
    (hG : G = s ^ 4 * n * ρ + n * κ * (n * B * (2 * e + 3 * γ * κ) + 2 * t) + t +
      (s ^ 2 * (2 * η + (1 + (d + 1) * R) / 2 ^ 44) + 1 / 2 ^ 49))
    (hβ : β = (Y - μ) ⬝ᵥ ((noisyGram name σ s l (.vec X))⁻¹ *ᵥ (Y - μ)))
    (hD : D = ρ * N ^ 2 + (n * B * N * Q * (12 * γ + 3 * u) + 4 * t * Q + t))
    (hc : c = (ν + β - 2) / (ν + n - 2))
    (hε : ε = 2 * (2 * D + 3 * u * (ν + β)) / (ν + n - 2) + 7 * u * c + (2 : ℝ) ^ (-1075 : ℤ)) :
    0 < c ∧ ∃ mu sd₀ S sd ν' mu' sd' T',
      Gp.predictWithHyps (.vec X) Y (.vec Xs) h name prior = .ok (mu, sd₀, S) ∧
      Tp.predictWithHyps (.vec X) Y (.vec Xs) h name prior = .ok (ν + n, mu, sd, c • S) ∧
      RoundedTp.predictWithCov fl ex o mm X Y Xs K V h name prior = .ok (ν', mu', sd', T') ∧
      |ν' - (ν + n)| ≤ u * (ν + n) ∧
      (∀ j, |mu' j - mu j| ≤ (1 + u) * F + u * |mu j|) ∧
      (∀ j j', |T' j j' - c * S j j'| ≤ (1 + u) * (ε * (|S j j'| + ((1 + u) * G + u * |S j j'|)) +
        c * ((1 + u) * G + u * |S j j'|)) + u * (c * |S j j'|) + (2 : ℝ) ^ (-1075 : ℤ)) ∧
      ∀ j δ, |T' j j - c * S j j| ≤ δ →
        |sd' j - sd j| ≤ (1 + u) * √δ + u * sd j + (2 : ℝ) ^ (-1075 : ℤ) := by
  have hsuit : ∀ {p : ℕ} (Z : Fin p → Point d), Suits name name (.vec Z) :=
    fun Z => ⟨hn, .inl ⟨rfl, Z, rfl⟩⟩
  have hd' : (d : ℝ) ≤ 2 ^ 20 := by exact_mod_cast hd
  have hu0 : 0 ≤ u := by rw [hu]; positivity
  have hn1' : (1 : ℝ) ≤ n := by exact_mod_cast hn1
  obtain ⟨mu, sd₀, S, mu', sd₀', S', hp, hp', hmu, hS, -⟩ := C129_predictions hf hex hη hη1 ho hd hn hh hX
    hXs hR hγ hγ1 ht hmm hμ hμs hμd hμsd hY hK hVd hθ0 hθ hu hE he hlt hB hκ hρ (hN ▸ hQ) hF hG
  obtain ⟨K', hK', hs, hKe⟩ := kernelMatrix_error hf hex hη hη1 ho hd' hn hh hX hR
  obtain rfl := Except.ok.inj (hK.symm.trans hK')
  have hKe' := fun i j => (hKe i j).trans_eq hE.symm
  have hB0 : 0 ≤ B := by
    have := sub_pos.2 hlt
    rw [hB]
    positivity
  have hVB : ∀ i j, |V i j| ≤ B := fun i j => by
    rw [hB]
    exact near_inverse_entry hs hKe' hlt hθ i j
  have hβ0 : 0 ≤ β := by
    rw [hβ]
    exact misfit_nonneg (noisyGram_posDef name σ s l (.vec X)) _
  obtain ⟨hmd, hme⟩ := roundedMisfit_error hf hγ hγ1 ht hmm hVd hB0 hVB hY hμd hu hN hQ
  have hmf : |roundedMisfit mm V (fun i => fl (Y i - μ i)) - β| ≤ D := by
    have h1 := near_misfit hs hKe' hlt hθ (Y - μ)
    have e1 : (Y - μ) ⬝ᵥ (Y - μ) = N ^ 2 := by
      rw [hN, Real.sq_sqrt (Finset.sum_nonneg fun i _ => sq_nonneg _)]
      simp [dotProduct, pow_two]
    rw [e1, ← hρ, misfit, ← hβ] at h1
    have h2 := abs_sub_le (roundedMisfit mm V fun i => fl (Y i - μ i)) ((Y - μ) ⬝ᵥ (V *ᵥ (Y - μ))) β
    rw [hD]
    linarith
  obtain ⟨hq0, hfac⟩ := roundedFactor_error hf hu hν hνd hβ0 hmd hmf hn1 hn53 rfl hc
  rw [← hε] at hfac
  have hq1 : 0 < ν + n - 2 := by linarith
  have hc0 : 0 < c := by
    rw [hc]
    exact div_pos (by linarith) hq1
  have htp := tpPredictWithHyps_ok (hsuit X) (hsuit Xs) hh hν hdof Y hμ hμs
  have hpe := hp
  rw [predictWithHyps_ok (hsuit X) (hsuit Xs) hh Y hμ hμs, Except.ok.injEq, Prod.mk.injEq,
    Prod.mk.injEq] at hpe
  obtain ⟨hmue, -, hSe⟩ := hpe
  simp only [misfit] at htp
  rw [← hβ, ← hc, hmue, hSe] at htp
  refine ⟨hc0, mu, sd₀, S, _, _, mu', _, _, hp, htp, roundedTp_ok hdof hμ hq0 hp', ?_, hmu, ?_, ?_⟩
  · have := fl_add_rel hf hνd (double_nat hn53)
    rwa [abs_of_pos (show 0 < ν + n by linarith), ← hu] at this
  · intro j j'
    have h1 := hS j j'
    have h2 := fl_error hf (roundedFactor fl ν (roundedMisfit mm V fun i => fl (Y i - μ i)) n * S' j j')
    rw [← hu] at h2
    beta_reduce
    generalize roundedFactor fl ν (roundedMisfit mm V fun i => fl (Y i - μ i)) n = c' at *
    generalize (1 + u) * G + u * |S j j'| = g at *
    have h3 : |c' * S' j j' - c * S j j'| ≤ ε * (|S j j'| + g) + c * g := by
      have e1 : c' * S' j j' - c * S j j' = (c' - c) * S' j j' + c * (S' j j' - S j j') := by ring
      rw [e1]
      refine (abs_add_le _ _).trans (add_le_add ?_ ?_)
      · rw [abs_mul]
        have := abs_sub_abs_le_abs_sub (S' j j') (S j j')
        exact mul_le_mul hfac (by linarith) (abs_nonneg _) ((abs_nonneg _).trans hfac)
      · rw [abs_mul, abs_of_pos hc0]
        exact mul_le_mul_of_nonneg_left h1 hc0.le
    generalize ε * (|S j j'| + g) + c * g = H at *
    have h4 := abs_sub_abs_le_abs_sub (c' * S' j j') (c * S j j')
    rw [abs_mul c, abs_of_pos hc0] at h4
    have h5 := mul_le_mul_of_nonneg_left (show |c' * S' j j'| ≤ c * |S j j'| + H by linarith) hu0
    have h6 := abs_sub_le (fl (c' * S' j j')) (c' * S' j j') (c * S j j')
    linarith only [h2, h3, h5, h6]
  · intro j δ hδ
    beta_reduce at hδ ⊢
    have hpos : 0 ≤ S j j := by
      rw [← hSe]
      exact (by norm_num : (0 : ℝ) ≤ 1 / 100000).trans (postCov_diag_ge name σ s l (.vec X) (.vec Xs) j)
    have hcS : 0 ≤ c * S j j := mul_nonneg hc0.le hpos
    have e1 : (c • S) j j = c * S j j := rfl
    rw [e1, max_eq_left hcS]
    have h1 := abs_sqrt_sub_le hcS hδ
    have h2 := fl_error hf
      √(max (fl (roundedFactor fl ν (roundedMisfit mm V fun i => fl (Y i - μ i)) n * S' j j)) 0)
    rw [abs_of_nonneg (Real.sqrt_nonneg _), ← hu] at h2
    generalize √(max (fl (roundedFactor fl ν (roundedMisfit mm V fun i => fl (Y i - μ i)) n * S' j j)) 0) = x
      at h1 h2 ⊢
    have h3 := le_abs_self (x - √(c * S j j))
    have h4 : u * x ≤ u * (√(c * S j j) + √δ) := mul_le_mul_of_nonneg_left (by linarith) hu0
    have h5 := abs_sub_le (fl x) x √(c * S j j)
    linarith

/-- At every candidate, `mean` and `dev` are the exact prediction of the Student-t process, and the computed
one is within `em` and `es` of it. -/
def TpPredictsWithin (fl ex : ℝ → ℝ) (o : SumOrder) (mm : MatMul) (X : Fin n → Point d) (Y : Fin n → ℝ)
    (K V : Matrix (Fin n) (Fin n) ℝ) (h : HypDict) (name : String) (prior : Gp.PriorMu d)
    (ps : List (Point d)) (mean dev : Point d → ℝ) (em es : ℝ) : Prop :=
  ∀ x ∈ ps, ∃ ν T ν' mu' sd' T',
    Tp.predictWithHyps (.vec X) Y (.vec fun _ : Fin 1 => x) h name prior =
      .ok (ν, fun _ => mean x, fun _ => dev x, T) ∧
    RoundedTp.predictWithCov fl ex o mm X Y (fun _ : Fin 1 => x) K V h name prior =
      .ok (ν', mu', sd', T') ∧ |mu' 0 - mean x| ≤ em ∧ |sd' 0 - dev x| ≤ es

variable {cdf pdf lg : ℝ → ℝ} {bo : BOwTP d} {X : Fin n → Point d} {Y : Fin n → ℝ}
  {K V : Matrix (Fin n) (Fin n) ℝ} {ps : List (Point d)} {mean dev : Point d → ℝ} {em es : ℝ}

/-- C159: with any of the acquisition functions, the candidate chosen from predictions of the Student-t process,
all of it computed in double precision, has a value under the exact prediction that is close to the largest
among candidates. -/
theorem C159_choice {D Δ b κ w : ℝ} (hf : Nearest fl) (hη : 0 ≤ η) (hη1 : η ≤ 1 / 2) (hc : CdfWithin η cdf)
    (hd : PdfWithin η pdf) (hlg : LogWithin η lg) (hacq : bo.str_acq ∈ ALLOWED_BO_ACQ)
    (hh : Describes h σ s l)
    (hpred : TpPredictsWithin fl ex o mm X Y K V h bo.str_cov bo.prior_mu ps mean dev em es)
    (hdev : ∀ x ∈ ps, 0 ≤ dev x) (hn : n < 2 ^ 52) (hY : ∀ i, Y i ∈ Double) (hb : ∃ i, Y i = b)
    (hb' : ∀ i, b ≤ Y i) (hps : ps ≠ []) (hκ : κ = 2 * Real.log (n + 1))
    (hD : ∀ x ∈ ps, |b - mean x| + dev x ≤ D ∧ |mean x| + κ * dev x ≤ D)
    (haei : bo.str_acq = "aei" → (2 : ℝ) ^ (-400 : ℤ) ≤ σ)
    (hpi : bo.str_acq = "pi" → 2 * (es + 1 / 80000) ≤ w - es ∧ ∀ x ∈ ps, w ≤ dev x)
    (hΔ : Δ = acqError bo.str_acq η κ σ em es D w) :
    ∃ x, getBestAcquisitionByEvaluation ps
        (onePoint (RoundedTp.negAcquisition fl ex cdf pdf lg o mm bo X Y (K, V, h))) = .ok [x] ∧
      NearBest (fun x => acqMeaning bo.str_acq b κ σ (mean x) (dev x)) ps
        (2 * Δ + 2 / 2 ^ 53 * (D + 1 + Δ) + (2 : ℝ) ^ (-1075 : ℤ)) x := by
  obtain ⟨f, hch, hval⟩ := value_near (Y := List.ofFn Y) (b := b) (κ := κ) (σ := σ) (w := w) (em := em)
    (es := es) (D := D) (noise := some σ) hacq hf hη hη1 hc hd hlg (doubles_ofFn hY) (isBest_ofFn hb hb')
    (by simpa using hn) (by simpa using hκ) (fun h => ⟨rfl, haei h⟩) fun h => (hpi h).1
  have key : ∀ x, ∃ v, x ∈ ps →
      onePoint (RoundedTp.negAcquisition fl ex cdf pdf lg o mm bo X Y (K, V, h)) x =
        .ok (.fin (-1 * fl (v * 10))) ∧
      |v - acqMeaning bo.str_acq b κ σ (mean x) (dev x)| ≤ Δ ∧ |v| ≤ D + 1 + Δ := by
    intro x
    by_cases hx : x ∈ ps
    swap
    · exact ⟨0, fun h => absurd h hx⟩
    obtain ⟨ν, T, ν', mu', sd', T', h1, h2, h3, h4⟩ := hpred x hx
    obtain ⟨d1, d2, d3⟩ := roundedTp_doubles hf h2 0
    obtain ⟨v, k1, k2, k3⟩ := hval (mean x) (dev x) (mu' 0) (sd' 0) d1 d2 d3 (hdev x hx) h3 h4 (hD x hx).1
      (hD x hx).2 fun h => (hpi h).2 x hx
    rw [hΔ]
    exact ⟨v, fun _ => ⟨tpObjective_at hh h2 hch k1, k2, k3⟩⟩
  choose v hv using key
  exact choice_near hf hps (fun x hx => (hv x hx).1) (fun x hx => (hv x hx).2.1) fun x hx => (hv x hx).2.2

/-- C159, a case with numbers: between 1 and 20 responses between -3 and 3 in at most 10 dimensions, no prior
mean, inputs and candidates within 10 lengthscales of the origin, signal 1, noise variance between 0.01 and 1,
between 3 and a million degrees of freedom, an exponential function with relative error `2 ** -50`, rounded
products of matrices in any order and an inverse whose entries are off by at most `1e-9`: computed means are
within `6e-4` of the exact ones, and deviations within `0.045` times the root of the factor `c` by which the
Student-t process multiplies the covariance of the Gaussian process. -/
theorem C159_typical (hf : Nearest fl) (hex : ExpWithin (1 / 2 ^ 50) ex) (ho : o.Covers d) (hd : d ≤ 10)
    (hn : name ∈ baseNames) (hh : Describes h σ 1 l) (hσ : 1 / 100 ≤ σ ^ 2) (hσ1 : σ ^ 2 ≤ 1) {ν : ℝ}
    (hν : 3 ≤ ν) (hν1 : ν ≤ 10 ^ 6) (hνd : ν ∈ Double) (hdof : h.dof = some (.flt (.fin ν))) (hn1 : 1 ≤ n)
    (hn20 : n ≤ 20) (hX : ∀ i, scaledLength l (X i) ≤ 10) (hps : ∀ x ∈ ps, scaledLength l x ≤ 10)
    {o' : SumOrder} (ho' : o'.Covers n) (hY : ∀ i, Y i ∈ Double) (hY3 : ∀ i, |Y i| ≤ 3)
    (hK : RoundedKernels.kernelMatrix fl ex o X h name = .ok K) (hVd : ∀ i j, V i j ∈ Double)
    (hθ : ∀ i j, |V i j - K⁻¹ i j| ≤ 1 / 10 ^ 9) {c : ℝ}
    (hc : c = (ν + Y ⬝ᵥ ((noisyGram name σ 1 l (.vec X))⁻¹ *ᵥ Y) - 2) / (ν + n - 2)) :
    0 < c ∧ ∃ mean dev : Point d → ℝ,
      TpPredictsWithin fl ex o (orderedMul fl o') X Y K V h name none ps mean dev (6 / 10 ^ 4)
        (45 / 1000 * √c) ∧
      ∀ x ∈ ps, |mean x| ≤ 6000 ∧ 0 < dev x ∧ dev x ≤ 101 / 100 * √c := by
  have hn' : (n : ℝ) ≤ 20 := by exact_mod_cast hn20
  have hn1' : (1 : ℝ) ≤ n := by exact_mod_cast hn1
  have hd' : (d : ℝ) ≤ 10 := by exact_mod_cast hd
  have hd0 : (0 : ℝ) ≤ d := Nat.cast_nonneg d
  have hmm := C129_products (fl := fl) hf ho' (hn20.trans (by norm_num))
  have hp : PriorFunction (d := d) none fun _ => 0 := fun n X => rfl
  have zero : (0 : ℝ) ∈ Double := by simpa using double_nat (show 0 < 2 ^ 53 by norm_num)
  have hN2 : ∑ i, (Y i - (fun _ => 0 : Fin n → ℝ) i) ^ 2 ≤ 180 := by
    have h1 : ∑ i, (Y i - (fun _ => 0 : Fin n → ℝ) i) ^ 2 ≤ ∑ _i : Fin n, (9 : ℝ) :=
      Finset.sum_le_sum fun i _ => by
        have := abs_le.1 (hY3 i)
        simp only [sub_zero]
        nlinarith
    rw [Finset.sum_const, Finset.card_univ, Fintype.card_fin, nsmul_eq_mul] at h1
    linarith
  have hN0 : 0 ≤ ∑ i, (Y i - (fun _ => 0 : Fin n → ℝ) i) ^ 2 := Finset.sum_nonneg fun i _ => sq_nonneg _
  obtain ⟨N, hN⟩ : ∃ N, N = √(∑ i, (Y i - (fun _ => 0 : Fin n → ℝ) i) ^ 2) := ⟨_, rfl⟩
  have hNs : N ^ 2 ≤ 180 := by rwa [hN, Real.sq_sqrt hN0]
  have hN0' : 0 ≤ N := by rw [hN]; positivity
  have hQ : √n * N ≤ 60 := by
    rw [hN, ← Real.sqrt_mul (Nat.cast_nonneg n)]
    refine Real.sqrt_le_iff.2 ⟨by norm_num, ?_⟩
    have := mul_le_mul hn' hN2 hN0 (by norm_num)
    linarith
  have hY0 : Y - (fun _ => 0 : Fin n → ℝ) = Y := by
    funext i
    simp
  have hβ0 : 0 ≤ Y ⬝ᵥ ((noisyGram name σ 1 l (.vec X))⁻¹ *ᵥ Y) :=
    misfit_nonneg (noisyGram_posDef name σ 1 l (.vec X)) _
  obtain ⟨k1, k2, k3, k4, k5, k6, k7, k8, k9, k10⟩ := typical_tp (n := n) hn' hn1' hd' hd0 hσ hσ1 hN0' hNs
    (by positivity) hQ hβ0 hν hν1 rfl rfl rfl rfl rfl rfl rfl rfl rfl rfl rfl hc rfl
  refine ⟨k8, ?_⟩
  have key : ∀ x, ∃ m w, x ∈ ps → (∃ ν₁ T ν' mu' sd' T',
      Tp.predictWithHyps (.vec X) Y (.vec fun _ : Fin 1 => x) h name none =
        .ok (ν₁, fun _ => m, fun _ => w, T) ∧
      RoundedTp.predictWithCov fl ex o (orderedMul fl o') X Y (fun _ : Fin 1 => x) K V h name none =
        .ok (ν', mu', sd', T') ∧ |mu' 0 - m| ≤ 6 / 10 ^ 4 ∧ |sd' 0 - w| ≤ 45 / 1000 * √c) ∧
      |m| ≤ 6000 ∧ 0 < w ∧ w ≤ 101 / 100 * √c := by
    intro x
    by_cases hx : x ∈ ps
    swap
    · exact ⟨0, 0, fun h => absurd h hx⟩
    obtain ⟨-, mu, sd₀, S, sd, ν', mu', sd', T', e1, e2, e3, -, e4, e5, e6⟩ := C159_predictions hf hex
      (by positivity) (by norm_num) ho (hd.trans (by norm_num)) hn hh (show 2 < ν by linarith) hνd hdof hn1
      (lt_of_le_of_lt hn20 (by norm_num)) hX (Xs := fun _ : Fin 1 => x) (fun _ => hps x hx)
      (by norm_num; linarith) (by positivity) (by norm_num; linarith) (by positivity) hmm (hp _ X) (hp _ _)
      (fun _ => zero) (fun _ => zero) hY hK hVd (by positivity) hθ rfl rfl rfl k1 rfl rfl rfl hN rfl rfl rfl
      (by rw [hY0]) rfl hc rfl
    obtain ⟨m, w, S₁, hS₁⟩ := predict_point hn hh X Y x (hp _ X) (hp _ fun _ : Fin 1 => x)
    have hinj := Except.ok.inj (e1.symm.trans hS₁)
    simp only [Prod.mk.injEq] at hinj
    obtain ⟨rfl, rfl, rfl⟩ := hinj
    obtain ⟨b1, b2, b3, -, b5⟩ := deviation_bounds hn hh (hp _ X) (hp _ _) hS₁
    have hS0 : 0 < S 0 0 := Real.sqrt_pos.1 (b2 ▸ b1)
    rw [abs_of_pos hS0] at b3
    have hsd : sd 0 = √(c * S 0 0) := by
      rw [tp_deviation e2 0, max_eq_left]
      · rfl
      · exact mul_nonneg k8.le hS0.le
    obtain ⟨c1, c2, c3⟩ := typical_tp_point rfl hS0.le b3 k5 k4 k8 k9 k10 k6 k7 hsd
    have hsd' : sd = fun _ => sd 0 := by
      funext j
      fin_cases j
      rfl
    have hm6 : |m| ≤ 6000 := by
      have h5 := postMean_size name σ 1 l X x (Y - fun _ => 0)
      have f1 : (Y - fun _ => 0) ⬝ᵥ (Y - fun _ => 0) = ∑ i, (Y i - (fun _ => 0 : Fin n → ℝ) i) ^ 2 := by
        simp [dotProduct, pow_two]
      rw [f1, ← hN] at h5
      rw [b5, add_zero]
      refine h5.trans ?_
      have f2 : √(n : ℝ) * 1 ^ 2 * (N / (σ ^ 2 + 1 / 100000)) = √n * N / (σ ^ 2 + 1 / 100000) := by ring
      rw [f2, div_le_iff₀ (by positivity)]
      linarith
    refine ⟨m, sd 0, fun _ => ⟨⟨_, _, ν', mu', sd', T', hsd' ▸ e2, e3, (e4 0).trans ?_,
      (e6 0 _ ((e5 0 0).trans c1)).trans c3⟩, hm6, ?_, c2⟩⟩
    · norm_num at k3 hm6 ⊢
      linarith
    · rw [hsd]
      exact Real.sqrt_pos.2 (mul_pos k8 hS0)
  choose mean dev hm using key
  exact ⟨mean, dev, fun x hx => (hm x hx).1, fun x hx => (hm x hx).2⟩

end

private noncomputable def rtPoint : Fin 1 → Point 2 := fun _ => ![1, 2]

private noncomputable def rtCandidates : List (Point 2) := [![3, -4], ![-1, 1], ![1 / 2, 1]]

private theorem rtPoint_length (i : Fin 1) : scaledLength (![1, 2] : Fin 2 → ℝ) (rtPoint i) ≤ 10 := by
  refine Real.sqrt_le_iff.2 ⟨by norm_num, ?_⟩
  fin_cases i
  simp [rtPoint, Fin.sum_univ_two]
  norm_num

private theorem rtCandidates_length (x : Point 2) (hx : x ∈ rtCandidates) :
    scaledLength (![1, 2] : Fin 2 → ℝ) x ≤ 10 := by
  refine Real.sqrt_le_iff.2 ⟨by norm_num, ?_⟩
  simp only [rtCandidates, List.mem_cons, List.not_mem_nil, or_false] at hx
  rcases hx with rfl | rfl | rfl <;> simp [Fin.sum_univ_two] <;> norm_num

private noncomputable def rtHyps : HypDict :=
  ⟨some (.flt (.fin (1 / 2))), some (.flt (.fin 5)), some (.flt (.fin 1)), some (.arr [.fin 1, .fin 2])⟩

private theorem rtHyps_describes : Describes rtHyps (1 / 2) 1 (![1, 2] : Fin 2 → ℝ) where
  noise := rfl
  signal := rfl
  lengthscales := .inl (by simp [rtHyps])
  nonzero := fun k => by fin_cases k <;> simp

private noncomputable def rtBo (str_acq : String) : BOwTP 2 :=
  { range_X := fun _ => (-5, 5)
    str_surrogate := "tp"
    str_acq := str_acq
    str_optimizer_method_bo := "L-BFGS-B"
    normalize_Y := true
    str_cov := "matern52"
    use_ard := true
    prior_mu := none
    str_optimizer_method_tp := "SLSQP" }

private theorem rtInverse :
    (noisyGram "matern52" (1 / 2) 1 (![1, 2] : Fin 2 → ℝ) (.vec rtPoint))⁻¹ 0 0 =
      (1 + ((1 / 2) ^ 2 + 1 / 100000))⁻¹ := by
  rw [Matrix.inv_def, Matrix.adjugate_fin_one, Matrix.det_fin_one]
  simp [noisyGram, gram, itemKernel_vec, kernel_self]

private theorem rtFactor {c : ℝ} (hc : c = (5 + (fun _ => 3 : Fin 1 → ℝ) ⬝ᵥ
    ((noisyGram "matern52" (1 / 2) 1 (![1, 2] : Fin 2 → ℝ) (.vec rtPoint))⁻¹ *ᵥ fun _ => 3) - 2) /
      (5 + (1 : ℕ) - 2)) : 1 ≤ c := by
  simp only [dotProduct, Matrix.mulVec, Finset.univ_unique, Fin.default_eq_zero, Finset.sum_singleton,
    rtInverse] at hc
  rw [hc]
  norm_num

private theorem rtDev {x : Point 2} {m w ν c : ℝ} {S : Matrix (Fin 1) (Fin 1) ℝ}
    (hp : Tp.predictWithHyps (.vec rtPoint) (fun _ => 3) (.vec fun _ : Fin 1 => x) rtHyps "matern52" none =
      .ok (ν, fun _ => m, fun _ => w, S))
    (hc : c = (5 + (fun _ => 3 : Fin 1 → ℝ) ⬝ᵥ
      ((noisyGram "matern52" (1 / 2) 1 (![1, 2] : Fin 2 → ℝ) (.vec rtPoint))⁻¹ *ᵥ fun _ => 3) - 2) /
        (5 + (1 : ℕ) - 2)) : 2 / 5 * √c ≤ w := by
  have hn : "matern52" ∈ baseNames := by simp [baseNames]
  have hsuit : ∀ {p : ℕ} (Z : Fin p → Point 2), Suits "matern52" "matern52" (.vec Z) :=
    fun Z => ⟨hn, .inl ⟨rfl, Z, rfl⟩⟩
  have hc1 := rtFactor hc
  have hY0 : (fun _ => 3 : Fin 1 → ℝ) - (fun _ => 0) = fun _ => 3 := by
    funext i
    simp
  rw [tpPredictWithHyps_ok (hsuit _) (hsuit _) rtHyps_describes (by norm_num : (2 : ℝ) < 5) rfl _
    (μ := fun _ => 0) (μs := fun _ => 0) rfl rfl] at hp
  simp only [misfit, hY0, ← hc, Except.ok.injEq, Prod.mk.injEq] at hp
  rw [← congrFun hp.2.2.1 0]
  have h1 := gram_bound "matern52" 1 (![1, 2] : Fin 2 → ℝ) (.vec rtPoint)
    (.vec fun _ : Fin 1 => x) 0 0
  have e1 : gram "matern52" 1 (![1, 2] : Fin 2 → ℝ) (.vec fun _ : Fin 1 => x) (.vec fun _ : Fin 1 => x) 0 0 =
      1 := by
    simp [gram, itemKernel_vec, kernel_self]
  have h2 : 4 / 25 ≤ postCov "matern52" (1 / 2) 1 (![1, 2] : Fin 2 → ℝ) (.vec rtPoint)
      (.vec fun _ : Fin 1 => x) 0 0 := by
    simp only [postCov, Matrix.sub_apply, Matrix.add_apply, Matrix.mul_apply, Finset.univ_unique,
      Fin.default_eq_zero, Finset.sum_singleton, Matrix.transpose_apply, e1, rtInverse, Matrix.smul_apply,
      Matrix.one_apply_eq]
    generalize gram "matern52" 1 (![1, 2] : Fin 2 → ℝ) (.vec rtPoint) (.vec fun _ : Fin 1 => x) 0 0 = k at h1
    have h2 : k * k ≤ 1 := mul_le_one₀ (by linarith [h1.2]) h1.1 (by linarith [h1.2])
    norm_num
    linarith
  have h3 : (2 / 5 * √c) ^ 2 = 4 / 25 * c := by
    rw [mul_pow, Real.sq_sqrt (by linarith)]
    norm_num
  refine Real.le_sqrt_of_sq_le (le_trans ?_ (le_max_left _ _))
  rw [h3, Matrix.smul_apply, smul_eq_mul, mul_comm]
  exact mul_le_mul_of_nonneg_left h2 (by linarith)

/-- `C159_typical` for one response, with the inverse rounded, five degrees of freedom and three candidates;
its predictions meet the hypotheses of `C159_choice` with every acquisition function. -/
example : ∃ (ex : ℝ → ℝ) (o o' : SumOrder) (K V : Matrix (Fin 1) (Fin 1) ℝ) (mean dev : Point 2 → ℝ) (c : ℝ),
    1 ≤ c ∧ RoundedKernels.kernelMatrix roundAway ex o rtPoint rtHyps "matern52" = .ok K ∧
    (∀ i j, |V i j - K⁻¹ i j| ≤ 1 / 10 ^ 9) ∧
    TpPredictsWithin roundAway ex o (orderedMul roundAway o') rtPoint (fun _ => 3) K V rtHyps "matern52" none
      rtCandidates mean dev (6 / 10 ^ 4) (45 / 1000 * √c) ∧
    ∀ acq ∈ ALLOWED_BO_ACQ, ∃ x ε, getBestAcquisitionByEvaluation rtCandidates
        (onePoint (RoundedTp.negAcquisition roundAway ex (fun x => roundAway (normCdf x))
          (fun x => roundAway (normPdf x)) (fun x => roundAway (Real.log x)) o (orderedMul roundAway o')
          (rtBo acq) rtPoint (fun _ => 3) (K, V, rtHyps))) = .ok [x] ∧
      NearBest (fun x => acqMeaning acq 3 (2 * Real.log ((1 : ℕ) + 1)) (1 / 2) (mean x) (dev x)) rtCandidates
        ε x := by
  have hf := roundAway_nearest
  have hex : ExpWithin (1 / 2 ^ 50) fun x => roundAway (Real.exp x) := by
    have h := expWithin_round hf
    exact ⟨h.zero, h.nonneg, h.le_one, fun x hx => (h.near x hx).trans (add_le_add
      (mul_le_mul_of_nonneg_right (by norm_num) (Real.exp_pos x).le) le_rfl)⟩
  have ho : (SumOrder.add (.entry 0) (.entry 1)).Covers 2 := by
    simp [SumOrder.Covers, SumOrder.entries, List.range_succ]
  have ho' : (SumOrder.entry 0).Covers 1 := by
    simp [SumOrder.Covers, SumOrder.entries, List.range_succ]
  have hn : "matern52" ∈ baseNames := by simp [baseNames]
  obtain ⟨K, hK, hs, hKe⟩ := kernelMatrix_error hf hex (by norm_num) (by norm_num) ho (by norm_num) hn
    rtHyps_describes rtPoint_length (by norm_num)
  have hB := near_inverse_entry (V := K⁻¹) (θ := 0) hs hKe (by norm_num) (by simp)
  have ht2 : (2 : ℝ) ^ (-1075 : ℤ) ≤ 1 / 10 ^ 20 := by
    have h1 : (2 : ℝ) ^ (-1075 : ℤ) ≤ (2 : ℝ) ^ (-70 : ℤ) := zpow_le_zpow_right₀ (by norm_num) (by norm_num)
    exact h1.trans (by norm_num)
  have hV : ∀ i j, |roundAway (K⁻¹ i j) - K⁻¹ i j| ≤ 1 / 10 ^ 9 := fun i j => by
    refine (fl_error hf _).trans ?_
    have h1 : |K⁻¹ i j| ≤ 10 := (hB i j).trans (by norm_num)
    norm_num at h1 ht2 ⊢
    linarith
  have hcd : CdfWithin (1 / 2 ^ 40) fun x => roundAway (normCdf x) := by
    have h := cdfWithin_round hf
    exact ⟨h.nonneg, h.le_one, fun x => (h.near x).trans (by norm_num)⟩
  have hpd : PdfWithin (1 / 2 ^ 40) fun x => roundAway (normPdf x) :=
    fun x => (pdfWithin_round hf x).trans (by norm_num)
  have hlg : LogWithin (1 / 2 ^ 40) fun x => roundAway (Real.log x) := fun n =>
    (logWithin_round hf n).trans (mul_le_mul_of_nonneg_right (by norm_num)
      (Real.log_nonneg (by linarith [Nat.cast_nonneg (α := ℝ) n])))
  have three : (3 : ℝ) ∈ Double := by simpa using double_nat (show 3 < 2 ^ 53 by norm_num)
  have five : (5 : ℝ) ∈ Double := by simpa using double_nat (show 5 < 2 ^ 53 by norm_num)
  obtain ⟨c, hc⟩ : ∃ c : ℝ, c = (5 + (fun _ => 3 : Fin 1 → ℝ) ⬝ᵥ
      ((noisyGram "matern52" (1 / 2) 1 (![1, 2] : Fin 2 → ℝ) (.vec rtPoint))⁻¹ *ᵥ fun _ => 3) - 2) /
        (5 + (1 : ℕ) - 2) := ⟨_, rfl⟩
  have hc1 := rtFactor hc
  have hr1 : 1 ≤ √c := Real.one_le_sqrt.2 hc1
  obtain ⟨-, mean, dev, h1, h2⟩ := C159_typical (X := rtPoint) (Y := fun _ => 3) (ps := rtCandidates)
    (V := fun i j => roundAway (K⁻¹ i j)) hf hex ho (by norm_num) hn rtHyps_describes (by norm_num)
    (by norm_num) (ν := 5) (by norm_num) (by norm_num) five rfl le_rfl (by norm_num) rtPoint_length
    rtCandidates_length ho' (fun _ => three) (fun _ => by norm_num) hK (fun i j => hf.mem _) hV hc
  refine ⟨_, _, _, K, _, mean, dev, c, hc1, hK, hV, h1, fun acq hacq => ?_⟩
  have hκ0 : 0 ≤ 2 * Real.log ((1 : ℕ) + 1) := by
    have := Real.log_nonneg (show (1 : ℝ) ≤ (1 : ℕ) + 1 by norm_num)
    linarith
  obtain ⟨x, e1, e2⟩ := C159_choice (bo := rtBo acq) (b := 3) (w := 2 / 5 * √c)
    (D := 6003 + (2 * Real.log ((1 : ℕ) + 1) + 1) * (101 / 100 * √c)) hf (by norm_num) (by norm_num) hcd hpd hlg
    hacq rtHyps_describes h1 (fun x hx => (h2 x hx).2.1.le) (by norm_num) (fun _ => three) ⟨0, rfl⟩
    (fun _ => le_rfl) (by simp [rtCandidates]) rfl (fun x hx => by
      obtain ⟨k1, k2, k3⟩ := h2 x hx
      have k4 := abs_sub 3 (mean x)
      rw [abs_of_pos (by norm_num : (0 : ℝ) < 3)] at k4
      have k5 := mul_le_mul_of_nonneg_left k3 hκ0
      have k6 := mul_nonneg hκ0 (show 0 ≤ 101 / 100 * √c by positivity)
      constructor <;> linarith) (fun _ => by
      have : (2 : ℝ) ^ (-400 : ℤ) ≤ (2 : ℝ) ^ (-1 : ℤ) := zpow_le_zpow_right₀ (by norm_num) (by norm_num)
      exact this.trans (by norm_num)) (fun _ => ⟨by linarith, fun x hx => by
        obtain ⟨ν, T, ν', mu', sd', T', e1, -⟩ := h1 x hx
        exact rtDev e1 hc⟩) rfl
  exact ⟨x, _, e1, e2⟩

end Verif.Props
