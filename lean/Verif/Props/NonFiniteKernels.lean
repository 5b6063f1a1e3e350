import Verif.Lemmas.NonFiniteKernels
import Verif.Props.Hyps

/-! # Hyperparameters that are zero, infinite or NaN (C149) -/

namespace Verif.Props

open Verif.Spec Verif.Covariance Verif.UtilsCovariance Verif.Lemmas Verif.Constants
open Filter (Tendsto atTop)
open Topology

variable {n m d : ℕ} {name : String} {h : HypDict}

/-- C149, numbers: the model with floats agrees with the model with real numbers. -/
theorem C149_numbers (hn : name ∈ baseNames) {σ s : ℝ} {l : Fin d → ℝ} (hd : Describes h σ s l)
    (X : Fin n → Point d) (Xp : Fin m → Point d) (same : Bool) (hs : same = true → n = m) (jit : ℝ) :
    (∃ A, Covariance.covMain name (.vec X) (.vec Xp) h same jit = .ok A ∧
      NonFiniteKernels.covMain name X Xp h same jit = .ok (fun i j => .fin (A i j))) ∧
    ∃ A L, Covariance.getKernelCholesky (.vec X) h name = .ok (A, L, none) ∧
      NonFiniteKernels.getKernelCholesky X h name = .ok (A, L) := by
  have hf : DescribesFloats h (.fin σ) (.fin s) (fun k => .fin (l k)) :=
    ⟨hd.noise, hd.signal, hd.lengthscales.imp id fun ⟨a, _, ha, hl⟩ => ⟨.fin a, fun k => by rw [ha], hl⟩⟩
  have hdiv : ∀ k, Divisor (Flt.fin (l k)) := fun k => ⟨fun e => hd.nonzero k (Flt.fin.inj e), by simp⟩
  have hker : ∀ x y, kernelIgnoring name s (fun k => .fin (l k)) x y = kernel name s l x y := fun _ _ => rfl
  constructor
  · obtain ⟨c, hc, hcov⟩ := floatCov_ok hn
    obtain ⟨L, hL, hk⟩ := floatCovMain_ok hn hf hc
    refine ⟨_, covMain_base hn hd X Xp same hs jit, ?_⟩
    rw [hk X Xp same hs jit]
    refine congrArg Except.ok ?_
    ext1 i
    ext1 j
    rw [(hcov X Xp L i j).1 s _ (dist_divisors hL hdiv X Xp i j)]
    rfl
  · have hX : Suits name name (.vec X : Inputs n d) := ⟨hn, .inl ⟨rfl, X, rfl⟩⟩
    obtain ⟨L, hL, hk⟩ := getKernelCholesky_ok hX hd FIX_GP_NOISE
    obtain ⟨L', hL', hk'⟩ := floatCholesky_ok hn hf hdiv X
    have e : noisyIgnoring name σ s (fun k => .fin (l k)) X = noisyGram name σ s l (.vec X) := by
      ext i j
      have hg : gram name s l (.vec X) (.vec X) i j = kernel name s l (X i) (X j) := by
        change (∑ _a : Fin 1, ∑ _b : Fin 1, kernel name s l (X i) (X j)) / ((1 : ℕ) * (1 : ℕ)) = _
        simp
      simp [noisyIgnoring, noisyGram, hg, hker, Matrix.one_apply]
    rw [e] at hL' hk'
    refine ⟨_, L, hk, ?_⟩
    rw [hk', cholesky_unique hL' hL]

/-- C149, which floats are accepted: with noise and signal that are numbers and lengthscales that are neither
zero nor NaN, the covariance matrix is the one that ignores coordinates with an infinite lengthscale, and it has
a Cholesky factor. -/
theorem C149_accepted (hn : name ∈ baseNames) {σ s : ℝ} {l : Fin d → Flt}
    (hd : DescribesFloats h (.fin σ) (.fin s) l) (hl : ∀ k, Divisor (l k)) (X : Fin n → Point d) :
    ∃ L, IsCholesky (noisyIgnoring name σ s l X) L ∧
      NonFiniteKernels.getKernelCholesky X h name = .ok (noisyIgnoring name σ s l X, L) :=
  floatCholesky_ok hn hd hl X

/-- C149, which floats are refused: noise or signal infinite or NaN, or a lengthscale that is zero or NaN,
raise `ValueError`, whatever the inputs. -/
theorem C149_refused (hn : name ∈ baseNames) {σ s : Flt} {l : Fin d → Flt} (hd : DescribesFloats h σ s l)
    (hbad : (∀ x, σ ≠ .fin x) ∨ (∀ x, s ≠ .fin x) ∨ ∃ k, l k = .fin 0 ∨ l k = .nan) (h0 : 0 < n)
    (X : Fin n → Point d) : NonFiniteKernels.getKernelCholesky X h name = .error .value :=
  floatCholesky_bad hn hd (hbad.imp id (Or.imp id fun ⟨k, hk⟩ => ⟨k, by
    rintro ⟨h1, h2⟩
    exact hk.elim h1 h2⟩)) ⟨0, h0⟩ X

/-- C149, the entries of the covariance matrix of two arrays of inputs when lengthscales may be zero: `0` for
the squared exponential if all coordinates with lengthscale zero have opposite signs, NaN otherwise. So also
the covariance of an input with itself is NaN, not the signal variance. -/
theorem C149_zero (hn : name ∈ baseNames) {σ : Flt} {s : ℝ} {l : Fin d → Flt}
    (hd : DescribesFloats h σ (.fin s) l) (hl : ∀ k, l k ≠ .nan) (hz : ∃ k, l k = .fin 0)
    (X : Fin n → Point d) (Xp : Fin m → Point d) :
    ∃ A, NonFiniteKernels.covMain name X Xp h false = .ok A ∧ ∀ i j,
      A i j = if (name = "eq" ∨ name = "se") ∧ ∀ k, l k = .fin 0 → X i k * Xp j k < 0 then .fin 0 else .nan := by
  obtain ⟨c, hc, hcov⟩ := floatCov_ok hn
  obtain ⟨L, hL, hk⟩ := floatCovMain_ok hn hd hc
  refine ⟨_, hk X Xp false (by simp) _, fun i j => ?_⟩
  by_cases hsep : ∀ k, l k = .fin 0 → X i k * Xp j k < 0
  · rw [(hcov X Xp L i j).2.2 s (dist_pinf hL hl hsep hz)]
    by_cases hse : name = "eq" ∨ name = "se" <;> simp [hse, Flt.add]
    exact hsep
  · simp only [hsep, and_false, if_false]
    push Not at hsep
    obtain ⟨k, h0, hp⟩ := hsep
    rw [(hcov X Xp L i j).2.1 _ (dist_nan hL (.inr ⟨h0, hp⟩)), add_nan]

private theorem continuous_profile (name : String) : Continuous (profile name) := by
  unfold profile
  split_ifs
  · unfold m32Profile; fun_prop
  · unfold m52Profile; fun_prop
  · unfold seProfile; fun_prop

/-- C149, infinity is the limit: with lengthscales that grow beyond all bounds where `l` is infinite and equal
`l` elsewhere, the covariances tend to those that ignore the coordinates. -/
theorem C149_limit (name : String) (s : ℝ) {l : Fin d → Flt} (hl : ∀ k, Divisor (l k)) {r : ℕ → Fin d → ℝ}
    (hr : ∀ k, (∀ t, l k = .fin (r t k)) ∨ ((l k = .pinf ∨ l k = .ninf) ∧ Tendsto (fun t => |r t k|) atTop atTop))
    (x y : Point d) :
    Tendsto (fun t => kernel name s (r t) x y) atTop (𝓝 (kernelIgnoring name s l x y)) := by
  unfold kernel kernelIgnoring scaledDistance
  refine ((continuous_profile name).continuousAt.tendsto.comp (Real.continuous_sqrt.continuousAt.tendsto.comp
    (tendsto_finset_sum _ fun k _ => ?_))).const_mul _
  rcases hr k with h1 | ⟨hi, ht⟩
  · refine tendsto_const_nhds.congr fun t => ?_
    rw [h1 t, coordinatePart]
  · have e : coordinatePart (l k) (x k) (y k) = 0 := by rcases hi with hi | hi <;> rw [hi] <;> rfl
    rw [e]
    have : Tendsto (fun t => (x k - y k) ^ 2 / |r t k| ^ 2) atTop (𝓝 0) :=
      Filter.Tendsto.div_atTop tendsto_const_nhds ((Filter.tendsto_pow_atTop two_ne_zero).comp ht)
    refine this.congr fun t => ?_
    rw [sq_abs, div_pow]

/-- C149, the likelihood: at an array of floats for noise, signal and lengthscales, `neg_log_ml` has a value
exactly if noise and signal are numbers and no lengthscale is zero or NaN; otherwise it raises `ValueError`. -/
theorem C149_likelihood (hn : name ∈ baseNames) (h0 : 0 < n) (X : Fin n → Point d) (Y μ : Fin n → ℝ)
    (σ s : Flt) (l : Fin d → Flt) :
    ((∃ v, NonFiniteKernels.negLogMl X Y (σ :: s :: List.ofFn l) name μ true false = .ok v) ↔
      (∃ x, σ = .fin x) ∧ (∃ x, s = .fin x) ∧ ∀ k, l k ≠ .fin 0 ∧ l k ≠ .nan) ∧
    ((∃ v, NonFiniteKernels.negLogMl X Y (σ :: s :: List.ofFn l) name μ true false = .ok v) ∨
      NonFiniteKernels.negLogMl X Y (σ :: s :: List.ofFn l) name μ true false = .error .value) := by
  have hch : checkStrCov name 2 = .ok () := by
    simp [checkStrCov, base_allowed hn, pyAssert, bind, Except.bind, pure, Except.pure]
  let h : HypDict := { noise := some (.flt σ), signal := some (.flt s),
                       lengthscales := some (.arr (List.ofFn l)) }
  have hd : DescribesFloats h σ s l := ⟨rfl, rfl, .inl rfl⟩
  have hr : restoreHyps name (σ :: s :: List.ofFn l) true true false = .ok h := by
    have h1 := base_allowed' hn
    have h2 : name ∈ getListFirst := listFirst_eq ▸ h1
    have h3 : (List.range' 2 d).mapM (pyIndex (σ :: s :: List.ofFn l)) = .ok (List.ofFn l) := by
      simpa using restore_tail (σ :: s :: List.ofFn l) 2
    simp [restoreHyps, pyAssert, h1, h2, pyIndex, bind, Except.bind, pure, Except.pure, h3, h]
  have hsplit : (∃ v, NonFiniteKernels.negLogMl X Y (σ :: s :: List.ofFn l) name μ true false = .ok v) ∧
        ((∃ x, σ = .fin x) ∧ (∃ x, s = .fin x) ∧ ∀ k, l k ≠ .fin 0 ∧ l k ≠ .nan) ∨
      NonFiniteKernels.negLogMl X Y (σ :: s :: List.ofFn l) name μ true false = .error .value ∧
        ¬ ((∃ x, σ = .fin x) ∧ (∃ x, s = .fin x) ∧ ∀ k, l k ≠ .fin 0 ∧ l k ≠ .nan) := by
    by_cases hg : (∃ x, σ = .fin x) ∧ (∃ x, s = .fin x) ∧ ∀ k, l k ≠ .fin 0 ∧ l k ≠ .nan
    · left
      refine ⟨?_, hg⟩
      obtain ⟨⟨a, rfl⟩, ⟨b, rfl⟩, hl⟩ := hg
      obtain ⟨L, -, hL⟩ := floatCholesky_ok hn hd hl X
      simp only [NonFiniteKernels.negLogMl, hch, hr, hL, h0.ne', bind, Except.bind, pure, Except.pure, if_false]
      exact ⟨_, rfl⟩
    · right
      refine ⟨?_, hg⟩
      have hb : (∀ x, σ ≠ .fin x) ∨ (∀ x, s ≠ .fin x) ∨ ∃ k, ¬ Divisor (l k) := by
        by_contra hc
        push Not at hc
        exact hg ⟨hc.1, hc.2.1, hc.2.2⟩
      simp only [NonFiniteKernels.negLogMl, hch, hr, floatCholesky_bad hn hd hb ⟨0, h0⟩ X, bind, Except.bind]
  rcases hsplit with ⟨hv, hg⟩ | ⟨hv, hg⟩
  · exact ⟨⟨fun _ => hg, fun _ => hv⟩, .inl hv⟩
  · refine ⟨⟨fun ⟨v, hv'⟩ => ?_, fun hc => absurd hc hg⟩, .inr hv⟩
    rw [hv] at hv'
    exact absurd hv' (by simp)

/-- C149, the value of the likelihood: with hyperparameters that are accepted it is that of C36 for the
covariance that ignores coordinates with an infinite lengthscale. -/
theorem C149_likelihood_value (hn : name ∈ baseNames) (h0 : n ≠ 0) (X : Fin n → Point d) (Y μ : Fin n → ℝ)
    {v : List Flt} {ard fix : Bool} (hr : restoreHyps name v true ard fix = .ok h) {σ s : ℝ} {l : Fin d → Flt}
    (hd : DescribesFloats h (.fin σ) (.fin s) l) (hl : ∀ k, Divisor (l k)) :
    ∃ L, IsCholesky (noisyIgnoring name σ s l X) L ∧ NonFiniteKernels.negLogMl X Y v name μ ard fix =
      .ok (-Real.log (mvnDensity μ (noisyIgnoring name σ s l X) Y) / n +
        (∑ i, (Real.log (L i i + 1 / 10000000) - Real.log (L i i))) / n) := by
  have hch : checkStrCov name 2 = .ok () := by
    simp [checkStrCov, base_allowed hn, pyAssert, bind, Except.bind, pure, Except.pure]
  obtain ⟨L, hL, hk⟩ := floatCholesky_ok hn hd hl X
  refine ⟨L, hL, ?_⟩
  have hY : (fun i => Y i - μ i) = Y - μ := rfl
  simp only [NonFiniteKernels.negLogMl, hch, hr, hk, h0, hY, bind, Except.bind, pure, Except.pure, if_false]
  rw [nllChol_value hL, nllChol, nllExact_eq (noisyIgnoring_posDef name σ s l X)]

/-- Two inputs that differ in the second coordinate only, whose lengthscale is infinite: accepted. -/
example : ∃ L, IsCholesky (noisyIgnoring "matern52" (1 / 100) 2 ![.fin 3, .pinf] ![![1, 5], ![1, 7]]) L ∧
    NonFiniteKernels.getKernelCholesky ![![1, 5], ![1, 7]]
      { noise := some (.flt (.fin (1 / 100))), signal := some (.flt (.fin 2)),
        lengthscales := some (.arr [.fin 3, .pinf]) } "matern52" =
      .ok (noisyIgnoring "matern52" (1 / 100) 2 ![.fin 3, .pinf] ![![1, 5], ![1, 7]], L) :=
  C149_accepted (by simp [baseNames]) ⟨rfl, rfl, .inl rfl⟩ (by
    intro k
    fin_cases k <;> simp [Divisor]) _

/-- A lengthscale of zero for one of two dimensions: refused. -/
example : NonFiniteKernels.getKernelCholesky ![![1, 5], ![1, 7]]
      { noise := some (.flt (.fin (1 / 100))), signal := some (.flt (.fin 2)),
        lengthscales := some (.arr [.fin 3, .fin 0]) } "se" = .error .value :=
  C149_refused (l := ![.fin 3, .fin 0]) (by simp [baseNames]) ⟨rfl, rfl, .inl rfl⟩
    (.inr (.inr ⟨1, .inl rfl⟩)) (by norm_num) _

/-- One float as lengthscale, infinite noise. -/
example : NonFiniteKernels.getKernelCholesky ![![1, 5], ![1, 7]]
      { noise := some (.flt .ninf), signal := some (.flt (.fin 2)),
        lengthscales := some (.flt (.fin 3)) } "eq" = .error .value :=
  C149_refused (l := fun _ => .fin 3) (by simp [baseNames]) ⟨rfl, rfl, .inr ⟨_, fun _ => rfl, rfl⟩⟩
    (.inl (by simp)) (by norm_num) _

/-- Lengthscales 1, 2, 3, … in the second dimension. -/
example : Tendsto (fun t : ℕ => kernel "se" 2 ![3, (t : ℝ)] ![1, 5] ![4, 7]) atTop
    (𝓝 (kernelIgnoring "se" 2 ![.fin 3, .pinf] ![1, 5] ![4, 7])) :=
  C149_limit (r := fun t => ![3, (t : ℝ)]) "se" 2 (by
    intro k
    fin_cases k <;> simp [Divisor]) (by
    intro k
    fin_cases k
    · exact .inl fun _ => rfl
    · refine .inr ⟨.inl rfl, ?_⟩
      simpa using tendsto_natCast_atTop_atTop (R := ℝ)) _ _

/-- A likelihood with one float as lengthscale, minus infinity, and the noise fixed. -/
example : ∃ L, IsCholesky (noisyIgnoring "se" GP_NOISE 2 (fun _ => .ninf) ![![1, 5], ![1, 7]]) L ∧
    NonFiniteKernels.negLogMl ![![1, 5], ![1, 7]] ![3, 4] [.fin 2, .ninf] "se" ![0, 0] false true =
      .ok (-Real.log (mvnDensity ![0, 0] (noisyIgnoring "se" GP_NOISE 2 (fun _ => .ninf) ![![1, 5], ![1, 7]])
        ![3, 4]) / (2 : ℕ) + (∑ i, (Real.log (L i i + 1 / 10000000) - Real.log (L i i))) / (2 : ℕ)) :=
  C149_likelihood_value
    (h := { noise := some (.flt (.fin GP_NOISE)), signal := some (.flt (.fin 2)),
            lengthscales := some (.flt .ninf) }) (by simp [baseNames]) (by norm_num) _ _ _
    (by
      have h1 : "se" ∈ ALLOWED_COV := base_allowed' (by simp [baseNames])
      have h2 : "se" ∈ getListFirst := listFirst_eq ▸ h1
      simp [restoreHyps, pyAssert, h1, h2, pyIndex, bind, Except.bind, pure, Except.pure])
    ⟨rfl, rfl, .inr ⟨_, fun _ => rfl, rfl⟩⟩ (by simp [Divisor])

end Verif.Props
