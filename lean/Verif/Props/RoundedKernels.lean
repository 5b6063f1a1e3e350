import Verif.Lemmas.RoundedKernels
import Verif.Props.Robust

/-! # Covariances in double precision (C127) -/

namespace Verif.Props

open Verif.Spec Verif.Covariance Verif.UtilsCovariance Verif.Lemmas Verif.Rounded

section

variable {fl ex : ℝ → ℝ} {n m d : ℕ} {o : SumOrder} {name : String} {h : HypDict} {σ s η R : ℝ}
  {l : Fin d → ℝ}

/-- C127: covariances computed in double precision, whatever rounding to nearest does with ties, in
whatever order `cdist` adds up, and with an exponential function of relative error `η`, are doubles,
not negative, and differ from the covariances by at most the signal variance times
`2 η + (1 + (d + 1) R) / 2^45`, up to underflow, if the inputs are not longer than `R` in units of the
lengthscales. -/
theorem C127_entries (hf : Nearest fl) (hex : ExpWithin η ex) (hη : 0 ≤ η) (hη1 : η ≤ 1 / 2)
    (ho : o.Covers d) (hd : d ≤ 2 ^ 20) (hn : name ∈ baseNames) (hh : Describes h σ s l)
    {X : Fin n → Point d} {Xp : Fin m → Point d} (hX : ∀ i, scaledLength l (X i) ≤ R)
    (hXp : ∀ j, scaledLength l (Xp j) ≤ R) (hR : (d + 1) * R ≤ 2 ^ 39) :
    ∃ K, RoundedKernels.covMain fl ex o name X Xp h false = .ok K ∧ ∀ i j, K i j ∈ Double ∧
      0 ≤ K i j ∧ |K i j - kernel name s l (X i) (Xp j)| ≤
        s ^ 2 * (2 * η + (1 + (d + 1) * R) / 2 ^ 45) + (2 : ℝ) ^ (-1070 : ℤ) := by
  obtain ⟨c, L, hc, hst, hk⟩ := roundedCovMain_ok (fl := fl) (ex := ex) (o := o) hn hh X Xp false
    (by simp)
  refine ⟨_, hk, fun i j => ?_⟩
  have e : fl (RoundedKernels.cov fl ex o c X Xp L s i j) =
      RoundedKernels.cov fl ex o c X Xp L s i j := fl_of_mem hf (cov_mem hf c X Xp s i j)
  simp only [Bool.false_eq_true, false_and, if_false, zero_add, e]
  have h1 := cov_error hf hex hη hη1 hn hc ho (by exact_mod_cast hd) hst X Xp s i j (hX i) (hXp j) hR
  refine ⟨cov_mem hf c X Xp s i j, cov_nonneg hf hex c X Xp s i j, h1.trans ?_⟩
  have : (2 : ℝ) ^ (-1070 : ℤ) = 32 * (2 : ℝ) ^ (-1075 : ℤ) := by
    rw [show (32 : ℝ) = (2 : ℝ) ^ (5 : ℤ) by norm_num, ← zpow_add₀ (by norm_num)]
    norm_num
  have hτ : (0 : ℝ) < (2 : ℝ) ^ (-1075 : ℤ) := by positivity
  rw [this]
  generalize (2 : ℝ) ^ (-1075 : ℤ) = τ at *
  linarith

/-- C127: two equal inputs have exactly the rounded signal variance as covariance; a squared
exponential covariance is never greater; and if rounding treats both signs alike, the matrix of
covariances of inputs with themselves is exactly symmetric. -/
theorem C127_exact (hf : Nearest fl) (hex : ExpWithin η ex) (hn : name ∈ baseNames)
    (hh : Describes h σ s l) (X : Fin n → Point d) (Xp : Fin m → Point d) :
    ∃ K K', RoundedKernels.covMain fl ex o name X Xp h false = .ok K ∧
      RoundedKernels.covMain fl ex o name Xp X h false = .ok K' ∧
      (∀ i j, X i = Xp j → K i j = fl (s ^ 2)) ∧
      (name = "eq" ∨ name = "se" → ∀ i j, K i j ≤ fl (s ^ 2)) ∧
      ((∀ x, fl (-x) = -fl x) → ∀ i j, K i j = K' j i) := by
  obtain ⟨c, L, hc, hst, hk⟩ := roundedCovMain_ok (fl := fl) (ex := ex) (o := o) hn hh X Xp false
    (by simp)
  obtain ⟨c', L', hc', hst', hk'⟩ := roundedCovMain_ok (fl := fl) (ex := ex) (o := o) hn hh Xp X false
    (by simp)
  have ec : c = c' := by simpa [hc] using hc'
  subst ec
  have e : ∀ {n m : ℕ} (X : Fin n → Point d) (Xp : Fin m → Point d) (L : Lengthscales d) (i j),
      fl (RoundedKernels.cov fl ex o c X Xp L s i j) = RoundedKernels.cov fl ex o c X Xp L s i j :=
    fun X Xp L i j => fl_of_mem hf (cov_mem hf c X Xp s i j)
  refine ⟨_, _, hk, hk', ?_, ?_, ?_⟩
  · intro i j hij
    simp only [Bool.false_eq_true, false_and, if_false, zero_add, e]
    exact cov_self hf hex c X Xp s hij
  · intro hse i j
    simp only [Bool.false_eq_true, false_and, if_false, zero_add, e]
    have : c = .se := by
      rcases hse with rfl | rfl <;> simpa [chooseFunCov] using hc.symm
    subst this
    exact covSe_le hf hex X Xp s i j
  · intro hodd i j
    simp only [Bool.false_eq_true, false_and, if_false, zero_add, e]
    have eL : ∀ x k, RoundedKernels.scale fl L x k = RoundedKernels.scale fl L' x k := by
      intro x k
      rw [scale_stands hst, scale_stands hst']
    rw [cov_symm hodd]
    cases c <;> simp only [RoundedKernels.cov, RoundedKernels.covSe, RoundedKernels.covMatern32,
      RoundedKernels.covMatern52, RoundedKernels.scaledDist, eL]

/-- C127: the matrix that `get_kernel_inverse` and `get_kernel_cholesky` build in double precision is
symmetric and within `E` of the exact one; and if `n E < σ² + 1e-5`, it is positive definite and
factorised without any jitter. -/
theorem C127_matrix (hf : Nearest fl) (hex : ExpWithin η ex) (hη : 0 ≤ η) (hη1 : η ≤ 1 / 2)
    (ho : o.Covers d) (hd : d ≤ 2 ^ 20) (hn : name ∈ baseNames) (hh : Describes h σ s l)
    {X : Fin n → Point d} (hX : ∀ i, scaledLength l (X i) ≤ R) (hR : (d + 1) * R ≤ 2 ^ 39) {E : ℝ}
    (hE : E = s ^ 2 * (2 * η + (1 + (d + 1) * R) / 2 ^ 44) + (σ ^ 2 + 1) / 2 ^ 49) :
    ∃ K K₀ V₀, RoundedKernels.kernelMatrix fl ex o X h name = .ok K ∧
      getKernelInverse (.vec X) h name = .ok (K₀, V₀, none) ∧ (∀ i j, K i j = K j i) ∧
      (∀ i j, |K i j - K₀ i j| ≤ E) ∧
      (n * E < σ ^ 2 + 1 / 100000 →
        K.PosDef ∧ ∃ L, choleskyLoop K jitters = .ok (K, L) ∧ IsCholesky K L) := by
  obtain ⟨K, hK, hs, he⟩ := kernelMatrix_error hf hex hη hη1 ho (by exact_mod_cast hd) hn hh hX hR
  rw [← hE] at he
  have hsuit : Suits name name (.vec X : Inputs n d) := ⟨hn, .inl ⟨rfl, X, rfl⟩⟩
  have h0 := getKernelInverse_ok hsuit hh Constants.FIX_GP_NOISE
  exact ⟨K, _, _, hK, h0, hs, he, fun hlt => C102_factorised hsuit hh _ h0 hs he hlt⟩

/-- C127: and predictions made with that matrix and an inverse of it that is off by at most `θ` in each
entry differ from those without rounding by at most a multiple of
`ρ = n E / (τ (τ - n E)) + n θ`, where `τ = σ² + 1e-5`. -/
theorem C127_predictions (hf : Nearest fl) (hex : ExpWithin η ex) (hη : 0 ≤ η) (hη1 : η ≤ 1 / 2)
    (ho : o.Covers d) (hd : d ≤ 2 ^ 20) (hn : name ∈ baseNames) (hh : Describes h σ s l)
    {X : Fin n → Point d} (hX : ∀ i, scaledLength l (X i) ≤ R) (hR : (d + 1) * R ≤ 2 ^ 39) {E : ℝ}
    (hE : E = s ^ 2 * (2 * η + (1 + (d + 1) * R) / 2 ^ 44) + (σ ^ 2 + 1) / 2 ^ 49)
    (hlt : n * E < σ ^ 2 + 1 / 100000) {Xs : Fin m → Point d} {prior : Gp.PriorMu d}
    {μ : Fin n → ℝ} {μs : Fin m → ℝ} (hμ : Gp.getPriorMu prior (.vec X) = .ok μ)
    (hμs : Gp.getPriorMu prior (.vec Xs) = .ok μs) (Y : Fin n → ℝ)
    {K V : Matrix (Fin n) (Fin n) ℝ} (hK : RoundedKernels.kernelMatrix fl ex o X h name = .ok K)
    {θ : ℝ} (hθ : ∀ i j, |V i j - K⁻¹ i j| ≤ θ) {ρ : ℝ}
    (hρ : ρ = n * E / ((σ ^ 2 + 1 / 100000) * (σ ^ 2 + 1 / 100000 - n * E)) + n * θ) :
    ∃ mu sd S mu' sd' S', Gp.predictWithHyps (.vec X) Y (.vec Xs) h name prior = .ok (mu, sd, S) ∧
      Gp.predictWithCov (.vec X) Y (.vec Xs) K V h name prior = .ok (mu', sd', S') ∧
      (∀ j, |mu' j - mu j| ≤ s ^ 2 * √n * ρ * √(∑ i, (Y i - μ i) ^ 2)) ∧
      (∀ j, |sd' j - sd j| ≤ √(s ^ 4 * n * ρ)) ∧
      ∀ j j', |S' j j' - S j j'| ≤ s ^ 4 * n * ρ := by
  obtain ⟨K', K₀, V₀, hK', h0, hs, he, -⟩ := C127_matrix hf hex hη hη1 ho hd hn hh hX hR hE
  rw [hK, Except.ok.injEq] at hK'
  subst hK'
  exact C102_predictions ⟨hn, .inl ⟨rfl, X, rfl⟩⟩ ⟨hn, .inl ⟨rfl, Xs, rfl⟩⟩ hh hμ hμs Y _ h0 hs he hlt
    hθ hρ

end

/-! The hypotheses can be met: rounding to nearest with ties away from zero, a correctly rounded
exponential function, three inputs in the plane. -/

private noncomputable def rkPoints : Fin 3 → Point 2 := ![![0, 0], ![1, 2], ![3, -4]]

private theorem rkPoints_length (i : Fin 3) : scaledLength (![1, 2] : Fin 2 → ℝ) (rkPoints i) ≤ 10 := by
  refine Real.sqrt_le_iff.2 ⟨by norm_num, ?_⟩
  fin_cases i <;> simp [rkPoints, Fin.sum_univ_two] <;> norm_num

private noncomputable def rkHyps : HypDict :=
  ⟨some (.flt (.fin (1 / 10))), none, some (.flt (.fin 2)), some (.arr [.fin 1, .fin 2])⟩

private theorem rkHyps_describes : Describes rkHyps (1 / 10) 2 (![1, 2] : Fin 2 → ℝ) where
  noise := rfl
  signal := rfl
  lengthscales := .inl (by simp [rkHyps])
  nonzero := fun k => by fin_cases k <;> simp

example : ∃ (fl ex : ℝ → ℝ) (o : SumOrder), Nearest fl ∧ (∀ x, fl (-x) = -fl x) ∧
    ExpWithin (1 / 2 ^ 53) ex ∧ o.Covers 2 ∧ "matern52" ∈ baseNames ∧
    Describes rkHyps (1 / 10) 2 (![1, 2] : Fin 2 → ℝ) ∧
    (∀ i, scaledLength (![1, 2] : Fin 2 → ℝ) (rkPoints i) ≤ 10) ∧
    (((2 : ℕ) : ℝ) + 1) * 10 ≤ 2 ^ 39 ∧
    ((3 : ℕ) : ℝ) * ((2 : ℝ) ^ 2 * (2 * (1 / 2 ^ 53) + (1 + (((2 : ℕ) : ℝ) + 1) * 10) / 2 ^ 44) +
      ((1 / 10) ^ 2 + 1) / 2 ^ 49) < (1 / 10) ^ 2 + 1 / 100000 :=
  ⟨roundAway, fun x => roundAway (Real.exp x), .add (.entry 0) (.entry 1), roundAway_nearest,
    roundAway_neg, expWithin_round roundAway_nearest, by
      simp [SumOrder.Covers, SumOrder.entries, List.range_succ], by simp [baseNames],
    rkHyps_describes, rkPoints_length, by norm_num, by norm_num⟩

end Verif.Props
