import Verif.Lemmas.Likelihood
import Verif.Lemmas.MvnDensity
import Verif.Lemmas.GaussianCond
import Verif.Props.Gradients
import Verif.Props.GpPosterior

/-! C36, C37: the marginal likelihood and its gradient. -/

namespace Verif.Props

open Verif.Spec Verif.Covariance Verif.UtilsCovariance Verif.Constants Verif.Lemmas Verif.Gp
open Matrix hiding gram
open MeasureTheory ProbabilityTheory WithLp
open scoped Topology

/-- C36: there is a density of the responses under the Gaussian process prior (with respect to
Lebesgue measure, for every such prior whatever its probability space), and `neg_log_ml` on the
inverse path returns minus its logarithm at the given responses, divided by their number. -/
theorem C36_density {n d : ℕ} {name base : String} {X : Inputs n d}
    (hX : Suits name base X) {v : List Flt} {ard fix : Bool} {h : HypDict}
    (hr : restoreHyps name v true ard fix = .ok h) {σ s : ℝ} {l : Fin d → ℝ}
    (hd : Describes h σ s l) (hn : n ≠ 0) (μ : Fin n → ℝ) :
    ∃ p : (Fin n → ℝ) → ℝ, (∀ Y, 0 < p Y) ∧
      (∀ (Ω : Type) [MeasurableSpace Ω] (P : Measure Ω) [IsProbabilityMeasure P] (m : ℕ)
        (Xs : Inputs m d) (μs : Fin m → ℝ) (y : Fin n → Ω → ℝ) (f : Fin m → Ω → ℝ),
        GaussianPrior P base σ s l X Xs μ μs y f →
        P.map (fun ω i => y i ω) = volume.withDensity fun Y => ENNReal.ofReal (p Y)) ∧
      ∀ Y ug, negLogMl X Y v name μ ard fix false ug = .ok (-Real.log (p Y) / n, none) := by
  have hp := noisyGram_posDef base σ s l X
  refine ⟨mvnDensity μ (noisyGram base σ s l X), fun Y => ?_, ?_, fun Y ug => ?_⟩
  · have h2 : (0 : ℝ) < (2 * Real.pi) ^ n := by positivity
    rw [mvnDensity, Fintype.card_fin]
    exact div_pos (Real.exp_pos _) (Real.sqrt_pos.mpr (mul_pos h2 hp.det_pos))
  · intro Ω _ P _ m Xs μs y f hP
    have h1 := map_eq_multivariateGaussian (S := noisyGram base σ s l X) hP.law.fst
      hp.posSemidef hP.mean_y (fun i j => by
        rw [hP.cov_yy]; simp [noisyGram, gram, Matrix.one_apply])
    rw [← multivariateGaussian_density μ hp, ← h1]
    have hm : AEMeasurable (fun ω => toLp 2 (fun i => y i ω)) P :=
      (hP.law.fst.toLp_pi 2).aemeasurable
    rw [AEMeasurable.map_map_of_aemeasurable (by fun_prop) hm]
    rfl
  · rw [negLogMl_inverse_ok hX hr hd hn, nllExact_eq hp]

/-- C36: the same against the textbook formula. -/
theorem C36_inverse_path {n d : ℕ} {name base : String} {X : Inputs n d}
    (hX : Suits name base X) {v : List Flt} {ard fix : Bool} {h : HypDict}
    (hr : restoreHyps name v true ard fix = .ok h) {σ s : ℝ} {l : Fin d → ℝ}
    (hd : Describes h σ s l) (hn : n ≠ 0) (Y μ : Fin n → ℝ) (ug : Bool) :
    negLogMl X Y v name μ ard fix false ug =
      .ok (-Real.log (mvnDensity μ (noisyGram base σ s l X) Y) / n, none) := by
  rw [negLogMl_inverse_ok hX hr hd hn, nllExact_eq (noisyGram_posDef base σ s l X)]

/-- C36: on the Cholesky path each logarithm of a diagonal entry of the factor is taken after
adding `1e-7`; otherwise the value is the same. -/
theorem C36_cholesky_path {n d : ℕ} {name base : String} {X : Inputs n d}
    (hX : Suits name base X) {v : List Flt} {ard fix : Bool} {h : HypDict}
    (hr : restoreHyps name v true ard fix = .ok h) {σ s : ℝ} {l : Fin d → ℝ}
    (hd : Describes h σ s l) (hn : n ≠ 0) (Y μ : Fin n → ℝ) :
    ∃ L, IsCholesky (noisyGram base σ s l X) L ∧ negLogMl X Y v name μ ard fix true false =
      .ok (-Real.log (mvnDensity μ (noisyGram base σ s l X) Y) / n +
        (∑ i, (Real.log (L i i + 1 / 10000000) - Real.log (L i i))) / n, none) := by
  obtain ⟨L, hL, h1⟩ := negLogMl_chol_ok hX hr hd hn Y μ
  refine ⟨L, hL, ?_⟩
  rw [h1, nllChol, nllExact_eq (noisyGram_posDef base σ s l X)]

/-- C36: the two paths never differ by more than `4e-5`, and the Cholesky path is never below. -/
theorem C36_paths_close {n d : ℕ} {name base : String} {X : Inputs n d}
    (hX : Suits name base X) {v : List Flt} {ard fix : Bool} {h : HypDict}
    (hr : restoreHyps name v true ard fix = .ok h) {σ s : ℝ} {l : Fin d → ℝ}
    (hd : Describes h σ s l) (hn : n ≠ 0) (Y μ : Fin n → ℝ) :
    ∃ a b, negLogMl X Y v name μ ard fix false false = .ok (a, none) ∧
      negLogMl X Y v name μ ard fix true false = .ok (b, none) ∧ a < b ∧ b ≤ a + 4 / 100000 := by
  obtain ⟨L, hL, h1⟩ := negLogMl_chol_ok hX hr hd hn Y μ
  refine ⟨_, _, negLogMl_inverse_ok hX hr hd hn Y μ false, h1, ?_, ?_⟩
  · have hpos : 0 < ∑ i, (Real.log (L i i + 1 / 10000000) - Real.log (L i i)) := by
      haveI : NeZero n := ⟨hn⟩
      refine Finset.sum_pos (fun i _ => ?_) ⟨0, Finset.mem_univ _⟩
      exact sub_pos.mpr (Real.log_lt_log (hL.2.1 i) (by linarith [hL.2.1 i]))
    have : (0 : ℝ) < n := by positivity
    rw [nllChol]
    have := div_pos hpos this
    linarith
  · have hle : ∀ i, Real.log (L i i + 1 / 10000000) - Real.log (L i i) ≤ 4 / 100000 := by
      intro i
      have hi := hL.2.1 i
      have hsq := cholesky_diag_ge hL (by positivity) (noisyGram_ge base σ s l X) i
      have hlow : 1 / 400 ≤ L i i := by
        by_contra hc
        push Not at hc
        have h3 : L i i ^ 2 < (1 / 400) ^ 2 := by
          exact pow_lt_pow_left₀ hc hi.le (by norm_num)
        nlinarith [sq_nonneg σ]
      rw [← Real.log_div (by positivity) hi.ne']
      refine le_trans (Real.log_le_sub_one_of_pos (by positivity)) ?_
      rw [add_div, div_self hi.ne', add_sub_cancel_left, div_le_iff₀ hi]
      nlinarith
    have hsum : ∑ i, (Real.log (L i i + 1 / 10000000) - Real.log (L i i)) ≤ n * (4 / 100000) := by
      have := Finset.sum_le_sum fun i (_ : i ∈ Finset.univ) => hle i
      simpa using this
    have hn' : (0 : ℝ) < n := by positivity
    rw [nllChol]
    have : (∑ i, (Real.log (L i i + 1 / 10000000) - Real.log (L i i))) / n ≤ 4 / 100000 := by
      rw [div_le_iff₀ hn']; linarith
    linarith

theorem negLogMl_of_noisyCov {n d : ℕ} {name base : String} {X : Inputs n d}
    (hX : Suits name base X) {v : List Flt} {ard fix : Bool} {h : HypDict}
    (hr : restoreHyps name v true ard fix = .ok h) {K : Matrix (Fin n) (Fin n) ℝ}
    (hc : noisyCov X h name = .ok K) (hdet : 0 < K.det) (hn : n ≠ 0) (Y μ : Fin n → ℝ) :
    negLogMl X Y v name μ ard fix false false = .ok (nllExact K (Y - μ), none) := by
  have hsign : ¬ Real.sign K.det ≤ 0 := by
    rw [Real.sign_of_pos hdet]; norm_num
  have hY : (fun i => Y i - μ i) = Y - μ := rfl
  simp only [negLogMl, checkStrCov_suits hX, hr, getKernelInverse, hc, npInv, hdet.ne', slogdet,
    hsign, hn, hY, abs_of_pos hdet, bind, Except.bind, pure, Except.pure, if_false,
    Option.map_none, Bool.false_eq_true, dite_false]
  congr 2
  rw [nllExact, ← Matrix.dotProduct_mulVec]
  ring

/-- The claim of C37 about entry `k` of the gradient, up to an error: the entry is the
derivative, with respect to entry `k` of the hyperparameter vector, of the exact negative log
likelihood per response (inverse path). -/
def EntryIsDerivative {n d : ℕ} (name : String) (X : Fin n → Point d) (Y μ : Fin n → ℝ)
    (ard fix : Bool) (θ : List ℝ) (k : ℕ) (g err : ℝ) : Prop :=
  ∃ (x : ℝ) (V : ℝ → ℝ), θ[k]? = some x ∧
    (∀ᶠ t in 𝓝 x, negLogMl (.vec X) Y ((θ.set k t).map Flt.fin) name μ ard fix false false =
      .ok (V t, none)) ∧
    HasDerivAt V (g - err) x

theorem grad_general {n d : ℕ} {name : String} (hb : name ∈ baseNames) (X : Fin n → Point d)
    (Y μ : Fin n → ℝ) (ard fix : Bool) (θ : List ℝ) (σ s : ℝ) (l : Fin d → ℝ) (hn : n ≠ 0)
    (hnoise : ∀ w, restoreHyps name w true ard fix = restoreHyps name w true ard fix (.fin σ))
    {h : HypDict} (hr : restoreHyps name (θ.map Flt.fin) true ard fix (.fin σ) = .ok h)
    (hd : Describes h σ s l) {G : List (Matrix (Fin n) (Fin n) ℝ)}
    (hG : gradCovMain name (.vec X) (.vec X) h fix = .ok G) (hlen : G.length = θ.length)
    {slot : ℕ} {e : ℝ}
    (hk : ∀ k A, G[k]? = some A → SliceIsDerivative name X ard fix σ θ k A
      (if k = slot then e • 1 else 0)) :
    ∃ value g K P, negLogMl (.vec X) Y (θ.map Flt.fin) name μ ard fix true true =
        .ok (value, some g) ∧ g.length = θ.length ∧
      getKernelInverse (.vec X) h name fix false = .ok (K, P, none) ∧
      ∀ k gk, g[k]? = some gk → EntryIsDerivative name X Y μ ard fix θ k gk
        (if k = slot then e / 2 * (∑ i, P i i - ∑ i, (P *ᵥ (Y - μ)) i ^ 2) / n else 0) := by
  have hX : Suits name name (Inputs.vec X) := ⟨hb, .inl ⟨rfl, X, rfl⟩⟩
  have hr' : restoreHyps name (θ.map Flt.fin) true ard fix = .ok h := by rw [hnoise]; exact hr
  obtain ⟨L, hL, hval⟩ := negLogMl_chol_grad_ok hb X hr' hd hn Y μ hG
  have hp := noisyGram_posDef name σ s l (.vec X)
  set K := noisyGram name σ s l (.vec X) with hK
  have hKt : (K⁻¹)ᵀ = K⁻¹ := by rw [Matrix.transpose_nonsing_inv, hK, noisyGram_transpose]
  refine ⟨_, _, K, K⁻¹, hval, by simpa using hlen, getKernelInverse_ok hX hd fix, ?_⟩
  intro k gk hgk
  rw [List.getElem?_map, Option.map_eq_some_iff] at hgk
  obtain ⟨A, hA, rfl⟩ := hgk
  obtain ⟨x, M, hx, hM, hder⟩ := hk k A hA
  have hset : θ.set k x = θ := by
    obtain ⟨hlt, he⟩ := List.getElem?_eq_some_iff.mp hx
    rw [← he, List.set_getElem_self]
  have hMx : M x = K := by
    obtain ⟨h', h1, h2⟩ := hM.self_of_nhds
    rw [hset, hr] at h1
    cases h1
    rw [noisyCov_ok hX hd] at h2
    exact (Except.ok.inj h2).symm
  set E : Matrix (Fin n) (Fin n) ℝ := if k = slot then e • 1 else 0 with hE
  have hder' : ∀ i j, HasDerivAt (fun t => M t i j) ((A - E) i j) x := fun i j => hder i j
  have hdet : 0 < (M x).det := by rw [hMx]; exact hp.det_pos
  have hev : ∀ᶠ t in 𝓝 x, 0 < (M t).det :=
    (hasDerivAt_det hder').continuousAt.eventually (lt_mem_nhds hdet)
  refine ⟨x, fun t => nllExact (M t) (Y - μ), hx, ?_, ?_⟩
  · filter_upwards [hM, hev] with t ⟨h', h1, h2⟩ h3
    exact negLogMl_of_noisyCov hX (by rw [hnoise]; exact h1) h2 h3 hn Y μ
  · have q1 := hasDerivAt_quad_inv hdet.ne' hder' (Y - μ)
    have q2 := hasDerivAt_log_det hdet hder'
    have q := (((q1.const_mul (1 / 2)).add (q2.const_mul (1 / 2))).add_const
      ((n : ℝ) / 2 * Real.log (2 * Real.pi))).div_const (n : ℝ)
    refine q.congr_deriv ?_
    rw [hMx]
    have t1 : trace (K⁻¹ * (A - E)) = trace (K⁻¹ * A) - trace (K⁻¹ * E) := by
      rw [Matrix.mul_sub, Matrix.trace_sub]
    have t2 : (Y - μ) ⬝ᵥ ((K⁻¹ * (A - E) * K⁻¹) *ᵥ (Y - μ)) =
        (Y - μ) ⬝ᵥ ((K⁻¹ * A * K⁻¹) *ᵥ (Y - μ)) - (Y - μ) ⬝ᵥ ((K⁻¹ * E * K⁻¹) *ᵥ (Y - μ)) := by
      rw [Matrix.mul_sub, Matrix.sub_mul, Matrix.sub_mulVec, dotProduct_sub]
    have t3 : (1 / 2 * trace (K⁻¹ * E) - 1 / 2 * ((Y - μ) ⬝ᵥ ((K⁻¹ * E * K⁻¹) *ᵥ (Y - μ)))) / n =
        if k = slot then e / 2 * (∑ i, K⁻¹ i i - ∑ i, (K⁻¹ *ᵥ (Y - μ)) i ^ 2) / n else 0 := by
      by_cases hks : k = slot
      · have u1 : trace (K⁻¹ * E) = e * ∑ i, K⁻¹ i i := by
          rw [hE, if_pos hks, Matrix.mul_smul, Matrix.mul_one, Matrix.trace_smul, smul_eq_mul]
          rfl
        have u2 : (Y - μ) ⬝ᵥ ((K⁻¹ * E * K⁻¹) *ᵥ (Y - μ)) = e * ∑ i, (K⁻¹ *ᵥ (Y - μ)) i ^ 2 := by
          rw [hE, if_pos hks, Matrix.mul_smul, Matrix.mul_one, Matrix.smul_mul, Matrix.smul_mulVec,
            dotProduct_smul, smul_eq_mul, ← Matrix.mulVec_mulVec, Matrix.dotProduct_mulVec,
            ← Matrix.mulVec_transpose, hKt]
          generalize K⁻¹ *ᵥ (Y - μ) = a
          simp only [dotProduct, sq]
        rw [if_pos hks, u1, u2]
        ring
      · have u1 : E = 0 := by rw [hE, if_neg hks]
        rw [if_neg hks, u1]
        simp
    rw [← t3, t1, t2]
    ring

theorem noise_irrelevant (name : String) (ard fix : Bool) (σ : ℝ)
    (hfix : fix = true → σ = GP_NOISE) (w : List Flt) :
    restoreHyps name w true ard fix = restoreHyps name w true ard fix (.fin σ) := by
  cases fix
  · simp [restoreHyps]
  · rw [hfix rfl]

/-- C37, one lengthscale per dimension. The returned gradient has one entry per entry of the
hyperparameter vector, and each is the derivative of the exact negative log likelihood per
response; the entry of the signal is so only up to a multiple of the jitter. Missing from the
full claim: the error of the signal entry, and that the value returned along with the gradient
carries the `1e-7` offset of C36. With fixed noise the noise is the package constant. -/
theorem C37_ard_partial {n d : ℕ} {name : String} (hb : name ∈ baseNames) (hn : n ≠ 0)
    (X : Fin n → Point d) (Y μ : Fin n → ℝ) (fix : Bool) (σ s : ℝ)
    (hfix : fix = true → σ = GP_NOISE) (hs : s ≠ 0) (l : Fin d → ℝ) (hl : ∀ k, l k ≠ 0) :
    ∃ h value g K P,
      restoreHyps name ((hypVector fix σ s (List.ofFn l)).map Flt.fin) true true fix = .ok h ∧
      negLogMl (.vec X) Y ((hypVector fix σ s (List.ofFn l)).map Flt.fin) name μ true fix true true =
        .ok (value, some g) ∧ g.length = (hypVector fix σ s (List.ofFn l)).length ∧
      getKernelInverse (.vec X) h name fix false = .ok (K, P, none) ∧
      ∀ k gk, g[k]? = some gk →
        EntryIsDerivative name X Y μ true fix (hypVector fix σ s (List.ofFn l)) k gk
          (if k = (if fix then 0 else 1) then
            1 / 100000 / s * (∑ i, P i i - ∑ i, (P *ᵥ (Y - μ)) i ^ 2) / n else 0) := by
  obtain ⟨h, G, h1, h2, h3, h4⟩ := C29_ard_partial hb X fix σ s hs l hl
  have hd : Describes h σ s l := by
    have h5 := restore_vec hb fix σ s (List.ofFn l)
    rw [h1] at h5
    cases h5
    exact ⟨rfl, rfl, .inl (by rw [List.map_ofFn]; rfl), hl⟩
  obtain ⟨value, g, K, P, a1, a2, a3, a4⟩ := grad_general hb X Y μ true fix _ σ s l hn
    (noise_irrelevant name true fix σ hfix) h1 hd h2 h3 h4
  refine ⟨h, value, g, K, P, ?_, a1, a2, a3, ?_⟩
  · rw [noise_irrelevant name true fix σ hfix]; exact h1
  · intro k gk hgk
    have := a4 k gk hgk
    rwa [show (2 / 100000 / s / 2 : ℝ) = 1 / 100000 / s by ring] at this

/-- C37, one lengthscale for all dimensions; missing as in `C37_ard_partial`. -/
theorem C37_iso_partial {n d : ℕ} {name : String} (hb : name ∈ baseNames) (hn : n ≠ 0)
    (X : Fin n → Point d) (Y μ : Fin n → ℝ) (fix : Bool) (σ s : ℝ)
    (hfix : fix = true → σ = GP_NOISE) (hs : s ≠ 0) (a : ℝ) (ha : a ≠ 0) :
    ∃ h value g K P,
      restoreHyps name ((hypVector fix σ s [a]).map Flt.fin) true false fix = .ok h ∧
      negLogMl (.vec X) Y ((hypVector fix σ s [a]).map Flt.fin) name μ false fix true true =
        .ok (value, some g) ∧ g.length = (hypVector fix σ s [a]).length ∧
      getKernelInverse (.vec X) h name fix false = .ok (K, P, none) ∧
      ∀ k gk, g[k]? = some gk →
        EntryIsDerivative name X Y μ false fix (hypVector fix σ s [a]) k gk
          (if k = (if fix then 0 else 1) then
            1 / 100000 / s * (∑ i, P i i - ∑ i, (P *ᵥ (Y - μ)) i ^ 2) / n else 0) := by
  obtain ⟨h, G, h1, h2, h3, h4⟩ := C29_iso_partial hb X fix σ s a hs ha
  have hd : Describes h σ s (fun _ : Fin d => a) := by
    have h5 := restore_vec_iso hb fix σ s a
    rw [h1] at h5
    cases h5
    exact ⟨rfl, rfl, .inr ⟨a, ha, fun _ => rfl, rfl⟩, fun _ => ha⟩
  obtain ⟨value, g, K, P, a1, a2, a3, a4⟩ := grad_general hb X Y μ false fix _ σ s
    (fun _ => a) hn (noise_irrelevant name false fix σ hfix) h1 hd h2 h3 h4
  refine ⟨h, value, g, K, P, ?_, a1, a2, a3, ?_⟩
  · rw [noise_irrelevant name false fix σ hfix]; exact h1
  · intro k gk hgk
    have := a4 k gk hgk
    rwa [show (2 / 100000 / s / 2 : ℝ) = 1 / 100000 / s by ring] at this

/-- C37: the full claim fails for the signal entry, whatever the data, when the responses equal
the prior mean. -/
theorem C37_signal_violated {n d : ℕ} {name : String} (hb : name ∈ baseNames) (hn : n ≠ 0)
    (X : Fin n → Point d) (μ : Fin n → ℝ) (fix : Bool) (σ s : ℝ)
    (hfix : fix = true → σ = GP_NOISE) (hs : s ≠ 0) (l : Fin d → ℝ) (hl : ∀ k, l k ≠ 0) :
    ∃ value g gk,
      negLogMl (.vec X) μ ((hypVector fix σ s (List.ofFn l)).map Flt.fin) name μ true fix true true =
        .ok (value, some g) ∧ g[if fix then 0 else 1]? = some gk ∧
      ¬ EntryIsDerivative name X μ μ true fix (hypVector fix σ s (List.ofFn l))
        (if fix then 0 else 1) gk 0 := by
  obtain ⟨h, value, g, K, P, h1, h2, h3, h4, h5⟩ := C37_ard_partial hb hn X μ μ fix σ s hfix hs l hl
  have hlt : (if fix then 0 else 1) < g.length := by
    rw [h3]; cases fix <;> simp [hypVector]
  refine ⟨value, g, _, h2, List.getElem?_eq_getElem hlt, ?_⟩
  rintro ⟨x, V, hx, hV, hder⟩
  obtain ⟨x', V', hx', hV', hder'⟩ := h5 _ _ (List.getElem?_eq_getElem hlt)
  have : x' = x := by rw [hx] at hx'; exact (Option.some.inj hx').symm
  subst this
  have heq : V =ᶠ[𝓝 x'] V' := by
    filter_upwards [hV, hV'] with t ha hb'
    rw [ha] at hb'
    exact (Prod.mk.inj (Except.ok.inj hb')).1
  have e1 := hder.unique (hder'.congr_of_eventuallyEq heq)
  rw [if_pos rfl, sub_self μ, Matrix.mulVec_zero] at e1
  have hsum : (∑ i, (0 : Fin n → ℝ) i ^ 2) = 0 := by simp
  rw [hsum, sub_zero, sub_zero] at e1
  have hX : Suits name name (Inputs.vec X) := ⟨hb, .inl ⟨rfl, X, rfl⟩⟩
  have hd : Describes h σ s l := by
    have h6 := restore_vec hb fix σ s (List.ofFn l)
    rw [← noise_irrelevant name true fix σ hfix, h1] at h6
    cases h6
    exact ⟨rfl, rfl, .inl (by rw [List.map_ofFn]; rfl), hl⟩
  rw [getKernelInverse_ok hX hd] at h4
  cases h4
  have hpos : 0 < ∑ i, (noisyGram name σ s l (.vec X))⁻¹ i i := by
    haveI : NeZero n := ⟨hn⟩
    exact Finset.sum_pos (fun i _ => (noisyGram_posDef name σ s l (.vec X)).inv.diag_pos)
      ⟨0, Finset.mem_univ _⟩
  have hn' : (n : ℝ) ≠ 0 := by exact_mod_cast hn
  have : (1 / 100000 / s * ∑ i, (noisyGram name σ s l (.vec X))⁻¹ i i) / n ≠ 0 := by
    have := hpos.ne'
    positivity
  apply this
  linarith

/-- Concrete data for C36 and C37: three equal inputs, fixed noise, signal `2`, lengthscale `3`. -/
example : Suits "matern32" "matern32" exTrain3 ∧
    restoreHyps "matern32" [.fin 2, .fin 3] true true true =
      .ok ⟨some (.flt (.fin GP_NOISE)), none, some (.flt (.fin 2)), some (.arr [.fin 3])⟩ ∧
    Describes ⟨some (.flt (.fin GP_NOISE)), none, some (.flt (.fin 2)), some (.arr [.fin 3])⟩
      GP_NOISE 2 (fun _ : Fin 1 => 3) ∧ "matern32" ∈ baseNames ∧ (3 : ℕ) ≠ 0 := by
  refine ⟨exTrain3_suits, ?_, ⟨rfl, rfl, .inl rfl, by intro; norm_num⟩, by simp [baseNames],
    by norm_num⟩
  have := restore_vec (name := "matern32") (by simp [baseNames]) true GP_NOISE 2 [3]
  simpa [hypVector] using this

end Verif.Props
