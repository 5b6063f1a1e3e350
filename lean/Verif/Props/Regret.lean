import Verif.Lemmas.Regret
import Verif.Spec.Regret
import Verif.Props.Chain
import Verif.Props.Acquisition
import Mathlib.Algebra.Order.Chebyshev
import Mathlib.Analysis.SpecificLimits.Basic

/-! # Regret of the upper confidence bound (C114) -/

namespace Verif.Props

open Verif.Spec Verif.Covariance Verif.UtilsCovariance Verif.Lemmas Verif.Acquisition
  Verif.Constants
open Matrix hiding gram

/-- What one step of the sequence predicts: the variance and its bounds. -/
private theorem step_var {d : ℕ} {name base : String} {X : (n : ℕ) → Inputs n d}
    {x : ℕ → Inputs 1 d} (hs : Successive name base X x) {h : HypDict} {σ s : ℝ} {l : Fin d → ℝ}
    (hd : Describes h σ s l) {prior : Gp.PriorMu d} {μ : ℕ → ℝ}
    (hμX : ∀ n, Gp.getPriorMu prior (X n) = .ok fun i => μ i)
    (hμx : ∀ n, Gp.getPriorMu prior (x n) = .ok fun _ => μ n) {Y mu sd : ℕ → ℝ}
    (hp : ∀ n, ∃ S, Gp.predictWithHyps (X n) (fun i => Y i) (x n) h name prior =
      .ok (fun _ => mu n, fun _ => sd n, S)) (n : ℕ) :
    postCov base σ s l (X n) (x n) 0 0 = sd n ^ 2 ∧ 1 / 100000 ≤ sd n ^ 2 ∧
      sd n ^ 2 ≤ s ^ 2 + 1 / 100000 ∧ 0 < sd n := by
  obtain ⟨S, hS⟩ := hp n
  obtain ⟨mu', sd', S', h1, -, -, -, h2⟩ :=
    C32_posterior_covariance (hs.1 n) (hs.2.1 n) hd (fun i => Y i) (hμX n) (hμx n)
  obtain ⟨mu'', sd'', S'', h3, h4⟩ :=
    C33_at_most_prior (hs.1 n) (hs.2.1 n) hd (fun i => Y i) (hμX n) (hμx n)
  have h5 := predictWithHyps_ok (hs.1 n) (hs.2.1 n) hd (fun i => Y i) (hμX n) (hμx n)
  rw [h1] at hS
  rw [h3] at h1
  rw [h3] at h5
  simp only [Except.ok.injEq, Prod.mk.injEq] at hS h1 h5
  obtain ⟨-, h6, -⟩ := hS
  obtain ⟨-, -, h7⟩ := h1
  obtain ⟨-, -, h8⟩ := h5
  obtain ⟨ha, -, hb, hc⟩ := h2 0
  obtain ⟨-, hd', -⟩ := h4 0
  rw [h7] at hd' h8
  rw [h6] at hb hc
  rw [← h8, hb]
  exact ⟨rfl, ha, hd', hc⟩

/-- C114: the predicted variances along a sequence of observations add up, on the scale of the
logarithm, to the information the observations carry. -/
theorem C114_information {d : ℕ} {name base : String} {X : (n : ℕ) → Inputs n d}
    {x : ℕ → Inputs 1 d} (hs : Successive name base X x) {h : HypDict} {σ s : ℝ} {l : Fin d → ℝ}
    (hd : Describes h σ s l) {prior : Gp.PriorMu d} {μ : ℕ → ℝ}
    (hμX : ∀ n, Gp.getPriorMu prior (X n) = .ok fun i => μ i)
    (hμx : ∀ n, Gp.getPriorMu prior (x n) = .ok fun _ => μ n) {Y mu sd : ℕ → ℝ}
    (hp : ∀ n, ∃ S, Gp.predictWithHyps (X n) (fun i => Y i) (x n) h name prior =
      .ok (fun _ => mu n, fun _ => sd n, S)) (T : ℕ) :
    ∑ n ∈ Finset.range T, Real.log (1 + (sd n ^ 2 - 1 / 100000) / (σ ^ 2 + 1 / 100000)) =
      informationGain base σ s l (X T) := by
  have hτ : (0 : ℝ) < σ ^ 2 + 1 / 100000 := by positivity
  induction T with
  | zero => simp [informationGain]
  | succ T ih =>
    obtain ⟨h1, h2, -, -⟩ := step_var hs hd hμX hμx hp T
    have hk := det_noisyGram_succ (base := base) (σ := σ) (s := s) (l := l) (X := X (T + 1))
      (X₁ := X T) (X₂ := x T)
      (fun i => by rw [hs.2.2, hs.2.2]; rfl)
      (fun j => by rw [hs.2.2, Subsingleton.elim j 0]; simp)
    rw [det_noisyGram_scale, det_noisyGram_scale, h1] at hk
    have hdet := (noisyGram_posDef base σ s l (X T)).det_pos
    rw [det_noisyGram_scale] at hdet
    have hd0 : 0 < (1 + (σ ^ 2 + 1 / 100000 : ℝ)⁻¹ • gram base s l (X T) (X T)).det :=
      pos_of_mul_pos_right hdet (by positivity)
    have e : (1 + (σ ^ 2 + 1 / 100000 : ℝ)⁻¹ • gram base s l (X (T + 1)) (X (T + 1))).det =
        (1 + (σ ^ 2 + 1 / 100000 : ℝ)⁻¹ • gram base s l (X T) (X T)).det *
          (1 + (sd T ^ 2 - 1 / 100000) / (σ ^ 2 + 1 / 100000)) := by
      have hpw : ((σ ^ 2 + 1 / 100000) ^ (T + 1) : ℝ) ≠ 0 := by positivity
      refine mul_left_cancel₀ hpw (hk.trans ?_)
      have : sd T ^ 2 + σ ^ 2 =
          (σ ^ 2 + 1 / 100000) * (1 + (sd T ^ 2 - 1 / 100000) / (σ ^ 2 + 1 / 100000)) := by
        field_simp
        ring
      rw [this, pow_succ]
      ring
    have hf : 0 < 1 + (sd T ^ 2 - 1 / 100000) / (σ ^ 2 + 1 / 100000) := by
      have : 0 ≤ (sd T ^ 2 - 1 / 100000) / (σ ^ 2 + 1 / 100000) :=
        div_nonneg (by linarith) hτ.le
      linarith
    rw [Finset.sum_range_succ, ih, informationGain, informationGain, e,
      Real.log_mul hd0.ne' hf.ne']

/-- C114: one step. If the values at the chosen input and at another one lie within the confidence
bounds, and the other one does not score more than `δ` above the chosen one, then the chosen value
exceeds the other by at most `δ` and twice the weighted deviation at the chosen input. -/
theorem C114_step {ms ss vals Y : List ℝ} {kappa : ℝ} {grow : Bool}
    (h : ucb ms ss (some Y) kappa grow = .ok vals) {m s v m' s' v' δ : ℝ}
    (h1 : At ms ss vals m s v) (h2 : At ms ss vals m' s' v') (hv : v' ≤ v + δ) {f f' : ℝ}
    (hf : |f - m| ≤ confidenceWeight kappa grow Y.length * s)
    (hf' : |f' - m'| ≤ confidenceWeight kappa grow Y.length * s') :
    f - f' ≤ δ + 2 * confidenceWeight kappa grow Y.length * s := by
  by_cases hl : ms.length = ss.length
  swap
  · rw [(C44_ucb_fails_iff ms ss (some Y) kappa grow .assertion).2 ⟨hl, rfl⟩] at h
    cases h
  obtain ⟨vals', k, hu, -, hk, hat⟩ := C44_ucb ms ss (some Y) kappa grow hl
  rw [h] at hu
  cases hu
  have hk' : k = confidenceWeight kappa grow Y.length := by
    rw [hk, confidenceWeight]
    cases grow <;> simp
  have e1 := hat m s v h1
  have e2 := hat m' s' v' h2
  rw [hk'] at e1 e2
  have a1 := (abs_le.1 hf).2
  have a2 := (abs_le.1 hf').1
  linarith

/-- C114: the sum of the regrets of choices by the upper confidence bound. The choices from `n₀` on
score at most `δ n` less than the point of comparison, and the values lie within the confidence
bounds; then the regrets sum to at most the sum of the `δ n` and a term that grows with the square
root of the number of choices times the information they carry. The jitter the code adds to every
predicted variance enters as `1e-5` per choice. -/
theorem C114_regret {d : ℕ} {name base : String} {X : (n : ℕ) → Inputs n d}
    {x : ℕ → Inputs 1 d} (hs : Successive name base X x) {h : HypDict} {σ s : ℝ} {l : Fin d → ℝ}
    (hd : Describes h σ s l) {prior : Gp.PriorMu d} {μ : ℕ → ℝ}
    (hμX : ∀ n, Gp.getPriorMu prior (X n) = .ok fun i => μ i)
    (hμx : ∀ n, Gp.getPriorMu prior (x n) = .ok fun _ => μ n) {Y mu sd : ℕ → ℝ}
    (hp : ∀ n, ∃ S, Gp.predictWithHyps (X n) (fun i => Y i) (x n) h name prior =
      .ok (fun _ => mu n, fun _ => sd n, S)) {kappa : ℝ} (hk : 0 ≤ kappa) {grow : Bool}
    {n₀ T : ℕ} {mu' sd' a a' δ : ℕ → ℝ}
    (hu : ∀ n ∈ Finset.Ico n₀ T, ucb [mu n, mu' n] [sd n, sd' n]
      (some (List.ofFn fun i : Fin n => Y i)) kappa grow = .ok [a n, a' n] ∧ a' n ≤ a n + δ n)
    {f : ℕ → ℝ} {best : ℝ}
    (hc : ∀ n ∈ Finset.Ico n₀ T, |f n - mu n| ≤ confidenceWeight kappa grow n * sd n ∧
      |best - mu' n| ≤ confidenceWeight kappa grow n * sd' n) :
    ∑ n ∈ Finset.Ico n₀ T, (f n - best) ≤ ∑ n ∈ Finset.Ico n₀ T, δ n +
      2 * confidenceWeight kappa grow T * √((T - n₀ : ℕ) * ((T - n₀ : ℕ) / 100000 +
        s ^ 2 / Real.log (1 + s ^ 2 / (σ ^ 2 + 1 / 100000)) * informationGain base σ s l (X T))) := by
  have hτ : (0 : ℝ) < σ ^ 2 + 1 / 100000 := by positivity
  have hW : ∀ n, 0 ≤ confidenceWeight kappa grow n := fun n => by
    rw [confidenceWeight]
    split_ifs
    · exact mul_nonneg hk (Real.log_nonneg (by linarith [(Nat.cast_nonneg n : (0 : ℝ) ≤ n)]))
    · exact hk
  have hmono : ∀ n ≤ T, confidenceWeight kappa grow n ≤ confidenceWeight kappa grow T := by
    intro n hn
    rw [confidenceWeight, confidenceWeight]
    split_ifs
    · refine mul_le_mul_of_nonneg_left (Real.log_le_log (by positivity) ?_) hk
      have : (n : ℝ) ≤ T := by exact_mod_cast hn
      linarith
    · exact le_rfl
  have hstep : ∀ n ∈ Finset.Ico n₀ T,
      f n - best ≤ δ n + 2 * confidenceWeight kappa grow T * sd n := by
    intro n hn
    obtain ⟨hu1, hu2⟩ := hu n hn
    obtain ⟨hc1, hc2⟩ := hc n hn
    have hl : (List.ofFn fun i : Fin n => Y i).length = n := by simp
    have := C114_step hu1 (m := mu n) (s := sd n) (v := a n) (m' := mu' n) (s' := sd' n)
      (v' := a' n) (δ := δ n) ⟨0, rfl, rfl, rfl⟩ ⟨1, rfl, rfl, rfl⟩ hu2 (f := f n) (f' := best)
      (by rw [hl]; exact hc1) (by rw [hl]; exact hc2)
    rw [hl] at this
    have h3 := mul_le_mul_of_nonneg_right (hmono n (Finset.mem_Ico.1 hn).2.le)
      (step_var hs hd hμX hμx hp n).2.2.2.le
    linarith
  have hsum := Finset.sum_le_sum hstep
  rw [Finset.sum_add_distrib, ← Finset.mul_sum] at hsum
  refine hsum.trans (add_le_add le_rfl (mul_le_mul_of_nonneg_left ?_ (by linarith [hW T])))
  refine Real.le_sqrt_of_sq_le ?_
  have hcs := sq_sum_le_card_mul_sum_sq (s := Finset.Ico n₀ T) (f := sd)
  rw [Nat.card_Ico] at hcs
  refine hcs.trans (mul_le_mul_of_nonneg_left ?_ (Nat.cast_nonneg _))
  have hC : 0 ≤ s ^ 2 / Real.log (1 + s ^ 2 / (σ ^ 2 + 1 / 100000)) :=
    div_nonneg (sq_nonneg s) (Real.log_nonneg (by
      have : 0 ≤ s ^ 2 / (σ ^ 2 + 1 / 100000) := by positivity
      linarith))
  have hterm : ∀ n ∈ Finset.Ico n₀ T, sd n ^ 2 ≤ 1 / 100000 +
      s ^ 2 / Real.log (1 + s ^ 2 / (σ ^ 2 + 1 / 100000)) *
        Real.log (1 + (sd n ^ 2 - 1 / 100000) / (σ ^ 2 + 1 / 100000)) := by
    intro n _
    obtain ⟨-, h2, h3, -⟩ := step_var hs hd hμX hμx hp n
    have := le_log_gain hτ (w := sd n ^ 2 - 1 / 100000) (S := s ^ 2) (by linarith) (by linarith)
    linarith
  refine (Finset.sum_le_sum hterm).trans ?_
  rw [Finset.sum_add_distrib, ← Finset.mul_sum, Finset.sum_const, Nat.card_Ico, nsmul_eq_mul,
    mul_one_div]
  refine add_le_add le_rfl (mul_le_mul_of_nonneg_left ?_ hC)
  rw [← C114_information hs hd hμX hμx hp T]
  refine Finset.sum_le_sum_of_subset_of_nonneg (fun n hn => ?_) fun n _ _ => ?_
  · exact Finset.mem_range.2 (Finset.mem_Ico.1 hn).2
  · obtain ⟨-, h2, -, -⟩ := step_var hs hd hμX hμx hp n
    have : 0 ≤ (sd n ^ 2 - 1 / 100000) / (σ ^ 2 + 1 / 100000) := div_nonneg (by linarith) hτ.le
    exact Real.log_nonneg (by linarith)

/-- C114: with only `N` different inputs to choose from, the information grows with the logarithm of
the number of observations. -/
theorem C114_finite {N T d : ℕ} (hN : 0 < N) (base : String) (σ s : ℝ) (l : Fin d → ℝ)
    (X : Inputs T d) (z : Inputs N d) (hz : ∀ i, ∃ j, item X i = item z j) :
    informationGain base σ s l X ≤
      N * Real.log (1 + T * s ^ 2 / (N * (σ ^ 2 + 1 / 100000))) := by
  have hτ : (0 : ℝ) < σ ^ 2 + 1 / 100000 := by positivity
  choose p hp using hz
  have e : gram base s l X X = (gram base s l z z).submatrix p p := by
    ext i j
    simp [gram, hp]
  have hdet := (noisyGram_posDef base σ s l X).det_pos
  rw [det_noisyGram_scale] at hdet
  have hd0 : 0 < (1 + (σ ^ 2 + 1 / 100000 : ℝ)⁻¹ • gram base s l X X).det :=
    pos_of_mul_pos_right hdet (by positivity)
  rw [informationGain, ← Real.log_pow]
  refine Real.log_le_log hd0 ?_
  rw [e]
  exact det_repeated_le hN (gram_posSemidef base s l z) hτ
    (fun i => setKernel_le base s l _ _) p

private theorem log_le_sqrt {u : ℝ} (hu : 0 ≤ u) : Real.log (1 + u) ≤ 2 * √u := by
  have h1 : Real.log (1 + u) ≤ Real.log ((1 + √u) ^ 2) := by
    refine Real.log_le_log (by linarith) ?_
    have := Real.sq_sqrt hu
    nlinarith [Real.sqrt_nonneg u]
  rw [Real.log_pow] at h1
  have h2 := Real.log_le_sub_one_of_pos (x := 1 + √u) (by linarith [Real.sqrt_nonneg u])
  push_cast at h1
  linarith

/-- C114: choices from finitely many inputs with a fixed weight. Whatever the number of inputs, the
best value chosen comes within the tolerance `δ`, twice the weight times the square root of the
jitter, and any `η > 0`, of the value compared with, after finitely many choices. -/
theorem C114_limit {d N : ℕ} (hN : 0 < N) {name base : String} {X : (n : ℕ) → Inputs n d}
    {x : ℕ → Inputs 1 d} (hs : Successive name base X x) {z : Inputs N d}
    (hz : ∀ n, ∃ j, item (x n) 0 = item z j) {h : HypDict} {σ s : ℝ} {l : Fin d → ℝ}
    (hd : Describes h σ s l) {prior : Gp.PriorMu d} {μ : ℕ → ℝ}
    (hμX : ∀ n, Gp.getPriorMu prior (X n) = .ok fun i => μ i)
    (hμx : ∀ n, Gp.getPriorMu prior (x n) = .ok fun _ => μ n) {Y mu sd : ℕ → ℝ}
    (hp : ∀ n, ∃ S, Gp.predictWithHyps (X n) (fun i => Y i) (x n) h name prior =
      .ok (fun _ => mu n, fun _ => sd n, S)) {kappa δ : ℝ} (hk : 0 ≤ kappa)
    {n₀ : ℕ} {mu' sd' a a' : ℕ → ℝ}
    (hu : ∀ n, n₀ ≤ n → ucb [mu n, mu' n] [sd n, sd' n]
      (some (List.ofFn fun i : Fin n => Y i)) kappa false = .ok [a n, a' n] ∧ a' n ≤ a n + δ)
    {f : ℕ → ℝ} {best : ℝ}
    (hc : ∀ n, n₀ ≤ n → |f n - mu n| ≤ kappa * sd n ∧ |best - mu' n| ≤ kappa * sd' n)
    {η : ℝ} (hη : 0 < η) :
    ∃ M : ℕ, ∀ m ≥ M, ∃ n, n₀ ≤ n ∧ n < n₀ + m ∧ f n - best ≤ δ + 2 * kappa * √(1 / 100000) + η := by
  have hτ : (0 : ℝ) < σ ^ 2 + 1 / 100000 := by positivity
  set C := s ^ 2 / Real.log (1 + s ^ 2 / (σ ^ 2 + 1 / 100000)) with hCdef
  have hC : 0 ≤ C :=
    div_nonneg (sq_nonneg s) (Real.log_nonneg (by
      have : 0 ≤ s ^ 2 / (σ ^ 2 + 1 / 100000) := by positivity
      linarith))
  set c := s ^ 2 / (N * (σ ^ 2 + 1 / 100000)) with hcdef
  have hc0 : 0 ≤ c := by positivity
  -- the bound on the average tends to its value without the information
  have hlim : Filter.Tendsto (fun m : ℕ => δ + 2 * kappa * √(1 / 100000 +
      C * N * (2 * √(n₀ * c)) * (1 / (m : ℝ)) + C * N * (2 * √c) * √(1 / (m : ℝ))))
      Filter.atTop (nhds (δ + 2 * kappa * √(1 / 100000))) := by
    have h1 : Filter.Tendsto (fun m : ℕ => 1 / (m : ℝ)) Filter.atTop (nhds 0) :=
      tendsto_one_div_atTop_nhds_zero_nat
    have h2 : Filter.Tendsto (fun m : ℕ => √(1 / (m : ℝ))) Filter.atTop (nhds 0) := by
      simpa using h1.sqrt
    have h3 := (((h1.const_mul (C * N * (2 * √(n₀ * c)))).const_add (1 / 100000)).add
      (h2.const_mul (C * N * (2 * √c)))).sqrt
    have h4 := (h3.const_mul (2 * kappa)).const_add δ
    simpa using h4
  obtain ⟨M, hM⟩ := Filter.eventually_atTop.1
    (hlim.eventually (gt_mem_nhds (show _ < δ + 2 * kappa * √(1 / 100000) + η by linarith)))
  refine ⟨max M 1, fun m hm => ?_⟩
  have hm1 : 1 ≤ m := (le_max_right M 1).trans hm
  have hm0 : (0 : ℝ) < m := by exact_mod_cast hm1
  have hreg := C114_regret hs hd hμX hμx hp hk (grow := false) (n₀ := n₀) (T := n₀ + m)
    (δ := fun _ => δ) (fun n hn => hu n (Finset.mem_Ico.1 hn).1) (f := f) (best := best)
    (fun n hn => by
      have := hc n (Finset.mem_Ico.1 hn).1
      simpa [confidenceWeight] using this)
  have hgain := C114_finite hN base σ s l (X (n₀ + m)) z fun i => by
    rw [hs.2.2]
    exact hz i
  have hlog : Real.log (1 + ((n₀ + m : ℕ) : ℝ) * s ^ 2 / (N * (σ ^ 2 + 1 / 100000))) ≤
      2 * √(n₀ * c) + 2 * √c * √m := by
    have e : ((n₀ + m : ℕ) : ℝ) * s ^ 2 / (N * (σ ^ 2 + 1 / 100000)) = n₀ * c + m * c := by
      rw [hcdef]
      push_cast
      ring
    have ha : (0 : ℝ) ≤ n₀ * c := by positivity
    have hb : (0 : ℝ) ≤ m * c := by positivity
    rw [e]
    have h1 : Real.log (1 + (n₀ * c + m * c)) ≤ Real.log ((1 + n₀ * c) * (1 + m * c)) :=
      Real.log_le_log (by linarith) (by nlinarith [mul_nonneg ha hb])
    rw [Real.log_mul (by linarith) (by linarith)] at h1
    have h2 := log_le_sqrt ha
    have h3 := log_le_sqrt hb
    have h4 : √(m * c) = √c * √m := by rw [mul_comm, Real.sqrt_mul hc0]
    rw [h4] at h3
    linarith
  have hroot : √(((n₀ + m - n₀ : ℕ) : ℝ) * (((n₀ + m - n₀ : ℕ) : ℝ) / 100000 +
      C * informationGain base σ s l (X (n₀ + m)))) ≤
      m * √(1 / 100000 + C * N * (2 * √(n₀ * c)) * (1 / (m : ℝ)) +
        C * N * (2 * √c) * √(1 / (m : ℝ))) := by
    rw [Nat.add_sub_cancel_left]
    have hg : C * informationGain base σ s l (X (n₀ + m)) ≤
        C * N * (2 * √(n₀ * c)) + C * N * (2 * √c) * √m := by
      have := hgain.trans (mul_le_mul_of_nonneg_left hlog (Nat.cast_nonneg N))
      have := mul_le_mul_of_nonneg_left this hC
      linarith
    have hsq : √(1 / (m : ℝ)) * m = √m := by
      rw [Real.sqrt_div zero_le_one, Real.sqrt_one, div_mul_eq_mul_div, one_mul, Real.div_sqrt]
    have hsm : (m : ℝ) = √((m : ℝ) ^ 2) := (Real.sqrt_sq hm0.le).symm
    conv_rhs => rw [hsm, ← Real.sqrt_mul (sq_nonneg _)]
    rw [Real.sqrt_sq hm0.le]
    refine Real.sqrt_le_sqrt ?_
    rw [pow_two, mul_assoc]
    refine mul_le_mul_of_nonneg_left ?_ hm0.le
    have e : (m : ℝ) * (1 / 100000 + C * N * (2 * √(n₀ * c)) * (1 / (m : ℝ)) +
        C * N * (2 * √c) * √(1 / (m : ℝ))) =
        m / 100000 + C * N * (2 * √(n₀ * c)) + C * N * (2 * √c) * √m := by
      rw [← hsq]
      field_simp
    rw [e]
    linarith
  by_contra hcon
  push Not at hcon
  have hlt : ∑ n ∈ Finset.Ico n₀ (n₀ + m), (δ + 2 * kappa * √(1 / 100000) + η) <
      ∑ n ∈ Finset.Ico n₀ (n₀ + m), (f n - best) := by
    refine Finset.sum_lt_sum_of_nonempty (by simp; omega) fun n hn => ?_
    exact hcon n (Finset.mem_Ico.1 hn).1 (Finset.mem_Ico.1 hn).2
  rw [Finset.sum_const, Nat.card_Ico, nsmul_eq_mul, Nat.add_sub_cancel_left] at hlt
  rw [Finset.sum_const, Nat.card_Ico, nsmul_eq_mul] at hreg
  have hb := mul_le_mul_of_nonneg_left hroot (show 0 ≤ 2 * confidenceWeight kappa false (n₀ + m) by
    simp only [confidenceWeight]
    simpa using hk)
  have hMm := hM m ((le_max_left M 1).trans hm)
  have hMm' := mul_lt_mul_of_pos_left hMm hm0
  have hw : confidenceWeight kappa false (n₀ + m) = kappa := by simp [confidenceWeight]
  rw [Nat.add_sub_cancel_left] at hreg hb
  rw [hw] at hreg hb
  nlinarith

/-- A sequence of inputs on a line, with the squared values observed: for some weight the hypotheses
of C114 hold from the first observation to the fourth, compared with the input `1 / 2`. -/
example : ∃ (h : HypDict) (mu sd mu' sd' a a' δ : ℕ → ℝ) (kappa : ℝ), 0 ≤ kappa ∧
    Describes h GP_NOISE 2 (fun _ : Fin 1 => 3) ∧
    Successive "matern32" "matern32" (fun n => .vec fun (i : Fin n) (_ : Fin 1) => ((i : ℕ) : ℝ))
      (fun n => .vec fun _ _ => (n : ℝ)) ∧
    (∀ n, ∃ S, Gp.predictWithHyps (.vec fun (i : Fin n) (_ : Fin 1) => ((i : ℕ) : ℝ))
      (fun i => ((i : ℕ) : ℝ) ^ 2) (.vec fun (_ : Fin 1) _ => (n : ℝ)) h "matern32" none =
        .ok (fun _ => mu n, fun _ => sd n, S)) ∧
    (∀ n, ∃ S, Gp.predictWithHyps (.vec fun (i : Fin n) (_ : Fin 1) => ((i : ℕ) : ℝ))
      (fun i => ((i : ℕ) : ℝ) ^ 2) (.vec fun (_ : Fin 1) _ => (1 / 2 : ℝ)) h "matern32" none =
        .ok (fun _ => mu' n, fun _ => sd' n, S)) ∧
    (∀ n ∈ (Finset.Ico 1 4 : Finset ℕ), ucb [mu n, mu' n] [sd n, sd' n]
      (some (List.ofFn fun i : Fin n => ((i : ℕ) : ℝ) ^ 2)) kappa false = .ok [a n, a' n] ∧
        a' n ≤ a n + δ n) ∧
    ∀ n ∈ (Finset.Ico 1 4 : Finset ℕ), |(n : ℝ) ^ 2 - mu n| ≤ confidenceWeight kappa false n * sd n ∧
      |(1 / 2 : ℝ) ^ 2 - mu' n| ≤ confidenceWeight kappa false n * sd' n := by
  have hb : "matern32" ∈ baseNames := by simp [baseNames]
  have hd : Describes ⟨some (.flt (.fin GP_NOISE)), none, some (.flt (.fin 2)), some (.arr [.fin 3])⟩
      GP_NOISE 2 (fun _ : Fin 1 => 3) := ⟨rfl, rfl, .inl rfl, by intro; norm_num⟩
  have hv : ∀ {n : ℕ} (v : Fin n → Point 1), Suits "matern32" "matern32" (.vec v) :=
    fun v => ⟨hb, .inl ⟨rfl, _, rfl⟩⟩
  have key : ∀ (n : ℕ) (p : Fin 1 → Point 1), ∃ m t : ℝ, 0 < t ∧ ∃ S, Gp.predictWithHyps
      (.vec fun (i : Fin n) (_ : Fin 1) => ((i : ℕ) : ℝ)) (fun i => ((i : ℕ) : ℝ) ^ 2) (.vec p)
      ⟨some (.flt (.fin GP_NOISE)), none, some (.flt (.fin 2)), some (.arr [.fin 3])⟩ "matern32" none =
        .ok (fun _ => m, fun _ => t, S) := by
    intro n p
    obtain ⟨m, t, S, h1, -, -, -, h2⟩ := C32_posterior_covariance
      (hv fun (i : Fin n) (_ : Fin 1) => ((i : ℕ) : ℝ)) (hv p) hd
      (fun i => ((i : ℕ) : ℝ) ^ 2) (prior := none) (μ := 0) (μs := 0) rfl rfl
    refine ⟨m 0, t 0, (h2 0).2.2.2, S, h1.trans ?_⟩
    congr 2
    · funext i
      rw [Subsingleton.elim i 0]
    · congr 1
      funext i
      rw [Subsingleton.elim i 0]
  choose mu sd h0 hp using fun n : ℕ => key n fun _ _ => (n : ℝ)
  choose mu' sd' h0' hp' using fun n : ℕ => key n fun _ _ => (1 / 2 : ℝ)
  refine ⟨_, mu, sd, mu', sd', _, _, fun n => (-mu' n + (∑ k ∈ (Finset.Ico 1 4 : Finset ℕ),
      (|(k : ℝ) ^ 2 - mu k| / sd k + |(1 / 2 : ℝ) ^ 2 - mu' k| / sd' k)) * sd' n) -
      (-mu n + (∑ k ∈ (Finset.Ico 1 4 : Finset ℕ),
      (|(k : ℝ) ^ 2 - mu k| / sd k + |(1 / 2 : ℝ) ^ 2 - mu' k| / sd' k)) * sd n),
    ∑ k ∈ (Finset.Ico 1 4 : Finset ℕ), (|(k : ℝ) ^ 2 - mu k| / sd k + |(1 / 2 : ℝ) ^ 2 - mu' k| / sd' k),
    Finset.sum_nonneg fun k _ => add_nonneg (div_nonneg (abs_nonneg _) (h0 k).le)
      (div_nonneg (abs_nonneg _) (h0' k).le), hd, ⟨fun _ => hv _, fun _ => hv _, fun _ _ => rfl⟩,
    hp, hp', fun n _ => ⟨rfl, by linarith⟩, fun n hn => ?_⟩
  have hle := Finset.single_le_sum (f := fun k : ℕ => |(k : ℝ) ^ 2 - mu k| / sd k +
    |(1 / 2 : ℝ) ^ 2 - mu' k| / sd' k) (fun k _ => add_nonneg
      (div_nonneg (abs_nonneg _) (h0 k).le) (div_nonneg (abs_nonneg _) (h0' k).le)) hn
  have hA := div_nonneg (abs_nonneg ((n : ℝ) ^ 2 - mu n)) (h0 n).le
  have hB := div_nonneg (abs_nonneg ((1 / 2 : ℝ) ^ 2 - mu' n)) (h0' n).le
  simp only [confidenceWeight, Bool.false_eq_true, if_false]
  constructor
  · rw [← div_le_iff₀ (h0 n)]
    linarith
  · rw [← div_le_iff₀ (h0' n)]
    linarith

/-- Two inputs chosen in turn, for ever: the hypotheses of `C114_limit` hold with a large weight. -/
example : ∃ (h : HypDict) (X : (n : ℕ) → Inputs n 1) (x : ℕ → Inputs 1 1) (z : Inputs 2 1)
    (sd sd' a a' f : ℕ → ℝ) (δ : ℝ), Describes h GP_NOISE 2 (fun _ : Fin 1 => 3) ∧
    Successive "matern32" "matern32" X x ∧ (∀ n, ∃ j, item (x n) 0 = item z j) ∧
    item (x 0) 0 ≠ item (x 1) 0 ∧
    (∀ n, ∃ S, Gp.predictWithHyps (X n) (fun _ => 0) (x n) h "matern32" none =
        .ok (fun _ => 0, fun _ => sd n, S)) ∧
    (∀ n, 1 ≤ n → ucb [0, 0] [sd n, sd' n] (some (List.ofFn fun _ : Fin n => 0)) 1000 false =
      .ok [a n, a' n] ∧ a' n ≤ a n + δ) ∧ f 0 = 0 ∧ f 1 = 1 ∧
    ∀ n, 1 ≤ n → |f n - 0| ≤ 1000 * sd n ∧ |(0 : ℝ) - 0| ≤ 1000 * sd' n := by
  have hb : "matern32" ∈ baseNames := by simp [baseNames]
  have hd : Describes ⟨some (.flt (.fin GP_NOISE)), none, some (.flt (.fin 2)), some (.arr [.fin 3])⟩
      GP_NOISE 2 (fun _ : Fin 1 => 3) := ⟨rfl, rfl, .inl rfl, by intro; norm_num⟩
  have hv : ∀ {n : ℕ} (v : Fin n → Point 1), Suits "matern32" "matern32" (.vec v) :=
    fun v => ⟨hb, .inl ⟨rfl, _, rfl⟩⟩
  have key : ∀ (n : ℕ) (q : Fin n → Point 1) (p : Fin 1 → Point 1), ∃ t : ℝ,
      1 / 100000 ≤ t ^ 2 ∧ t ^ 2 ≤ 2 ^ 2 + 1 / 100000 ∧ 0 < t ∧ ∃ S, Gp.predictWithHyps
      (.vec q) (fun _ => 0) (.vec p)
      ⟨some (.flt (.fin GP_NOISE)), none, some (.flt (.fin 2)), some (.arr [.fin 3])⟩ "matern32" none =
        .ok (fun _ => 0, fun _ => t, S) := by
    intro n q p
    have h5 := predictWithHyps_ok (hv q) (hv p) hd (fun _ => 0) (prior := none) (μ := 0) (μs := 0)
      rfl rfl
    obtain ⟨m, t, S, h1, -, -, -, h2⟩ := C32_posterior_covariance
      (hv q) (hv p) hd (fun _ => 0) (prior := none) (μ := 0) (μs := 0) rfl rfl
    obtain ⟨m', t', S', h3, h4⟩ := C33_at_most_prior
      (hv q) (hv p) hd (fun _ => 0) (prior := none) (μ := 0) (μs := 0) rfl rfl
    rw [h1] at h3 h5
    simp only [Except.ok.injEq, Prod.mk.injEq] at h3 h5
    obtain ⟨-, -, rfl⟩ := h3
    refine ⟨t 0, ?_, ?_, (h2 0).2.2.2, S, h1.trans ?_⟩
    · rw [(h2 0).2.2.1]
      exact (h2 0).1
    · rw [(h2 0).2.2.1]
      exact (h4 0).2.1
    · rw [h5.1]
      congr 2
      · funext i
        have : ((fun _ : Fin n => (0 : ℝ)) - 0) = 0 := by
          funext
          simp
        simp [postMean, this]
      · congr 1
        funext i
        rw [Subsingleton.elim i 0]
  choose sd h1 h2 h3 hp using fun n : ℕ => key n (fun i _ => ((i % 2 : ℕ) : ℝ)) fun _ _ => ((n % 2 : ℕ) : ℝ)
  choose sd' h1' h2' h3' hp' using fun n : ℕ => key n (fun i _ => ((i % 2 : ℕ) : ℝ)) fun _ _ => 0
  refine ⟨_, _, _, .vec fun j _ => ((j : ℕ) : ℝ), sd, sd', _, _, fun n => ((n % 2 : ℕ) : ℝ), 3000, hd,
    ⟨fun _ => hv _, fun _ => hv _, fun _ _ => rfl⟩, fun n => ⟨⟨n % 2, Nat.mod_lt _ (by norm_num)⟩, rfl⟩,
    fun he => ?_, hp, fun n _ => ⟨rfl, ?_⟩, by norm_num, by norm_num, fun n _ => ⟨?_, ?_⟩⟩
  · simp only [item, Sigma.mk.injEq, heq_eq_eq, true_and] at he
    have := congrFun (congrFun he 0) 0
    norm_num at this
  · have := h2' n
    have : sd' n ≤ 3 := by nlinarith [h3' n]
    nlinarith [h3 n]
  · have h01 : ((n % 2 : ℕ) : ℝ) ≤ 1 := by
      exact_mod_cast Nat.le_of_lt_succ (Nat.mod_lt n (by norm_num))
    rw [sub_zero, abs_of_nonneg (Nat.cast_nonneg _)]
    refine h01.trans ?_
    by_contra hlt
    have hlt' : sd n < 1 / 1000 := by linarith
    have := h1 n
    nlinarith [h3 n]
  · rw [sub_zero, abs_zero]
    linarith [h3' n]

end Verif.Props
