import Verif.Lemmas.Normal
import Verif.Lemmas.Flt
import Mathlib.Analysis.Complex.ExponentialBounds

/-! # C41-C45: acquisition functions -/

namespace Verif.Props

open Verif.Acquisition Verif.Constants MeasureTheory ProbabilityTheory

open Set (Iio)

/-- The smallest response. -/
def IsBest (Y : List ℝ) (b : ℝ) : Prop := b ∈ Y ∧ ∀ y ∈ Y, b ≤ y

/-- Value `v` belongs to the test point with predicted mean `m` and deviation `s`: they stand
at the same place of the three vectors. -/
def At (ms ss vals : List ℝ) (m s v : ℝ) : Prop :=
  ∃ i : ℕ, ms[i]? = some m ∧ ss[i]? = some s ∧ vals[i]? = some v

theorem at_zipWith {f : ℝ → ℝ → ℝ} {ms ss : List ℝ} {m s v : ℝ}
    (h : At ms ss (List.zipWith f ms ss) m s v) : v = f m s := by
  obtain ⟨i, h1, h2, h3⟩ := h
  rw [List.getElem?_zipWith, h1, h2] at h3
  simpa using h3.symm

theorem pi_eq (ms ss Y : List ℝ) (j b : ℝ) (hl : ms.length = ss.length) (hb : IsBest Y b)
    (hs : ∀ s ∈ ss, 0 < s + j) :
    pi ms ss Y j = .ok (List.zipWith (fun m s => normCdf ((b - m) / (s + j))) ms ss) := by
  have h0 : (0 : ℝ) ∉ ss.map (· + j) := by
    intro h
    obtain ⟨s, hs', h⟩ := List.mem_map.1 h
    have := hs s hs'
    linarith
  simp [pi, pyAssert, hl, bind, Except.bind, npMin_ok.2 hb, guardDiv, h0, pure, Except.pure,
    List.map_zipWith]

theorem ei_eq (ms ss Y : List ℝ) (j b : ℝ) (hl : ms.length = ss.length) (hb : IsBest Y b)
    (hs : ∀ s ∈ ss, 0 < s + j) :
    ei ms ss Y j = .ok (List.zipWith (fun m s => (b - m) * normCdf ((b - m) / (s + j)) +
      s * normPdf ((b - m) / (s + j))) ms ss) := by
  have h0 : (0 : ℝ) ∉ ss.map (· + j) := by
    intro h
    obtain ⟨s, hs', h⟩ := List.mem_map.1 h
    have := hs s hs'
    linarith
  simp [ei, pyAssert, hl, bind, Except.bind, npMin_ok.2 hb, guardDiv, h0, pure, Except.pure]

theorem at_mem {ms ss vals : List ℝ} {m s v : ℝ} (h : At ms ss vals m s v) : s ∈ ss := by
  obtain ⟨i, _, h2, _⟩ := h
  exact List.mem_iff_getElem?.2 ⟨i, h2⟩

/-! ### C41 -/

/-- C41. Without jitter, probability of improvement is the probability that a normal variable
with the predicted mean and deviation falls below the best response. -/
theorem C41_probability (ms ss Y : List ℝ) (b : ℝ) (hl : ms.length = ss.length)
    (hb : IsBest Y b) (hs : ∀ s ∈ ss, 0 < s) :
    ∃ vals, pi ms ss Y 0 = .ok vals ∧ vals.length = ms.length ∧
      ∀ m s v, At ms ss vals m s v → v = (gaussianReal m (s ^ 2).toNNReal).real (Iio b) := by
  refine ⟨_, pi_eq ms ss Y 0 b hl hb (fun s h => by simpa using hs s h), by simp [hl], ?_⟩
  intro m s v h
  have hs' := hs s (at_mem h)
  rw [at_zipWith h, add_zero, ← prob_le_eq m s b hs']
  have hv : (s ^ 2).toNNReal ≠ 0 := by
    rw [Ne, Real.toNNReal_eq_zero]
    have := pow_pos hs' 2
    linarith
  have := nullSingletonClass_gaussianReal (μ := m) hv
  rw [measureReal_def, measureReal_def, measure_congr MeasureTheory.Iio_ae_eq_Iic]

/-- C41. With any jitter that keeps the divisors positive the values are probabilities, never
0 or 1 exactly, one per test point. -/
theorem C41_range (ms ss Y vals : List ℝ) (j b : ℝ) (hl : ms.length = ss.length)
    (hb : IsBest Y b) (hs : ∀ s ∈ ss, 0 < s + j) (h : pi ms ss Y j = .ok vals) :
    vals.length = ms.length ∧ ∀ v ∈ vals, 0 < v ∧ v < 1 := by
  rw [pi_eq ms ss Y j b hl hb hs, Except.ok.injEq] at h
  subst h
  refine ⟨by simp [hl], ?_⟩
  intro v hv
  obtain ⟨i, hi⟩ := List.mem_iff_getElem?.1 hv
  rw [List.getElem?_zipWith] at hi
  split at hi
  · rw [Option.some.injEq] at hi
    rw [← hi]
    exact ⟨normCdf_pos _, normCdf_lt_one _⟩
  · cases hi

/-- C41. Of two test points with the same deviation the one with the smaller mean scores
higher. -/
theorem C41_rank_mean (ms ss Y vals : List ℝ) (j b : ℝ) (hl : ms.length = ss.length)
    (hb : IsBest Y b) (hs : ∀ s ∈ ss, 0 < s + j) (h : pi ms ss Y j = .ok vals)
    (m m' s v v' : ℝ) (h1 : At ms ss vals m s v) (h2 : At ms ss vals m' s v') (hm : m < m') :
    v' < v := by
  rw [pi_eq ms ss Y j b hl hb hs, Except.ok.injEq] at h
  subst h
  have hs' := hs s (at_mem h1)
  rw [at_zipWith h1, at_zipWith h2]
  exact normCdf_strictMono (div_lt_div_of_pos_right (by linarith) hs')

/-- C41. A value exceeds one half exactly when the predicted mean is below the best
response. -/
theorem C41_half (ms ss Y vals : List ℝ) (j b : ℝ) (hl : ms.length = ss.length)
    (hb : IsBest Y b) (hs : ∀ s ∈ ss, 0 < s + j) (h : pi ms ss Y j = .ok vals)
    (m s v : ℝ) (h1 : At ms ss vals m s v) : 1 / 2 < v ↔ m < b := by
  rw [pi_eq ms ss Y j b hl hb hs, Except.ok.injEq] at h
  subst h
  have hs' := hs s (at_mem h1)
  have h0 : normCdf 0 = 1 / 2 := by
    have := normCdf_neg 0
    rw [neg_zero] at this
    linarith
  rw [at_zipWith h1, ← h0, normCdf_strictMono.lt_iff_lt, div_pos_iff_of_pos_right hs']
  exact sub_pos

/-- C41, C42. What makes `pi` and `ei` raise: vectors of unequal length, or no response
(positive divisors assumed). -/
theorem C41_fails_iff (ms ss Y : List ℝ) (j : ℝ) (hs : ∀ s ∈ ss, 0 < s + j) (e : PyErr) :
    (pi ms ss Y j = .error e ↔ (ms.length ≠ ss.length ∧ e = .assertion) ∨
      (ms.length = ss.length ∧ Y = [] ∧ e = .value)) ∧
    (ei ms ss Y j = .error e ↔ (ms.length ≠ ss.length ∧ e = .assertion) ∨
      (ms.length = ss.length ∧ Y = [] ∧ e = .value)) := by
  by_cases hl : ms.length = ss.length
  · by_cases hY : Y = []
    · subst hY
      constructor <;> simp [pi, ei, pyAssert, hl, bind, Except.bind, npMin, eq_comm]
    · obtain ⟨b, hb⟩ := npMin_exists hY
      have hb' : IsBest Y b := npMin_ok.1 hb
      rw [pi_eq ms ss Y j b hl hb' hs, ei_eq ms ss Y j b hl hb' hs]
      simp [hl, hY]
  · constructor <;> simp [pi, ei, pyAssert, hl, bind, Except.bind, eq_comm]

/-! ### C42 -/

/-- C42. Without jitter, expected improvement is the expectation of `max(best - y, 0)` for a
normal `y` with the predicted mean and deviation. -/
theorem C42_expectation (ms ss Y : List ℝ) (b : ℝ) (hl : ms.length = ss.length)
    (hb : IsBest Y b) (hs : ∀ s ∈ ss, 0 < s) :
    ∃ vals, ei ms ss Y 0 = .ok vals ∧ vals.length = ms.length ∧
      ∀ m s v, At ms ss vals m s v →
        v = ∫ y, max (b - y) 0 ∂(gaussianReal m (s ^ 2).toNNReal) := by
  refine ⟨_, ei_eq ms ss Y 0 b hl hb (fun s h => by simpa using hs s h), by simp [hl], ?_⟩
  intro m s v h
  rw [at_zipWith h, add_zero, expect_improve_eq m s b (hs s (at_mem h))]

/-- C42. It is positive, and larger than the improvement of the mean. -/
theorem C42_positive (ms ss Y vals : List ℝ) (b : ℝ) (hl : ms.length = ss.length)
    (hb : IsBest Y b) (hs : ∀ s ∈ ss, 0 < s) (h : ei ms ss Y 0 = .ok vals)
    (m s v : ℝ) (h1 : At ms ss vals m s v) : 0 < v ∧ b - m < v := by
  rw [ei_eq ms ss Y 0 b hl hb (fun s h => by simpa using hs s h), Except.ok.injEq] at h
  subst h
  have hs' := hs s (at_mem h1)
  have e1 : (b - m) = s * ((b - m) / s) := by field_simp
  have p1 := mul_pos hs' (psi_pos ((b - m) / s))
  have p2 := mul_pos hs' (psi_pos (-((b - m) / s)))
  rw [normCdf_neg, normPdf_neg] at p2
  rw [at_zipWith h1, add_zero]
  constructor
  · calc (0 : ℝ) < _ := p1
      _ = _ := by rw [mul_add, ← mul_assoc, ← e1]
  · have : s * (-((b - m) / s) * (1 - normCdf ((b - m) / s)) + normPdf ((b - m) / s)) =
        -(b - m) + (b - m) * normCdf ((b - m) / s) + s * normPdf ((b - m) / s) := by
      rw [mul_add, ← mul_assoc, mul_neg, ← e1]; ring
    rw [this] at p2
    linarith

/-- C42. Of two test points with the same deviation the one with the smaller mean scores
higher. -/
theorem C42_rank_mean (ms ss Y vals : List ℝ) (b : ℝ) (hl : ms.length = ss.length)
    (hb : IsBest Y b) (hs : ∀ s ∈ ss, 0 < s) (h : ei ms ss Y 0 = .ok vals)
    (m m' s v v' : ℝ) (h1 : At ms ss vals m s v) (h2 : At ms ss vals m' s v') (hm : m < m') :
    v' < v := by
  rw [ei_eq ms ss Y 0 b hl hb (fun s h => by simpa using hs s h), Except.ok.injEq] at h
  subst h
  have hs' := hs s (at_mem h1)
  rw [at_zipWith h1, at_zipWith h2, add_zero]
  have e : ∀ m, (b - m) * normCdf ((b - m) / s) + s * normPdf ((b - m) / s) =
      s * ((b - m) / s * normCdf ((b - m) / s) + normPdf ((b - m) / s)) := by
    intro m; field_simp
  rw [e, e]
  apply mul_lt_mul_of_pos_left _ hs'
  have hz : (b - m') / s < (b - m) / s := div_lt_div_of_pos_right (by linarith) hs'
  have := psi_tangent ((b - m') / s) ((b - m) / s)
  have hp := normCdf_pos ((b - m') / s)
  nlinarith

/-- C42. Of two test points with the same mean the one with the larger deviation scores
higher. -/
theorem C42_rank_std (ms ss Y vals : List ℝ) (b : ℝ) (hl : ms.length = ss.length)
    (hb : IsBest Y b) (hs : ∀ s ∈ ss, 0 < s) (h : ei ms ss Y 0 = .ok vals)
    (m s s' v v' : ℝ) (h1 : At ms ss vals m s v) (h2 : At ms ss vals m s' v') (hlt : s < s') :
    v < v' := by
  rw [ei_eq ms ss Y 0 b hl hb (fun s h => by simpa using hs s h), Except.ok.injEq] at h
  subst h
  have hs1 := hs s (at_mem h1)
  have hs2 := hs s' (at_mem h2)
  rw [at_zipWith h1, at_zipWith h2, add_zero, add_zero]
  have t := mul_le_mul_of_nonneg_left (psi_tangent ((b - m) / s) ((b - m) / s')) hs2.le
  have e1 : s' * ((b - m) / s' * normCdf ((b - m) / s) + normPdf ((b - m) / s)) =
      (b - m) * normCdf ((b - m) / s) + s' * normPdf ((b - m) / s) := by field_simp
  have e2 : s' * ((b - m) / s' * normCdf ((b - m) / s') + normPdf ((b - m) / s')) =
      (b - m) * normCdf ((b - m) / s') + s' * normPdf ((b - m) / s') := by field_simp
  rw [e1, e2] at t
  have := mul_lt_mul_of_pos_right hlt (normPdf_pos ((b - m) / s))
  linarith

/-! ### C43 -/

/-- C43 is violated: with the default jitter a test point with deviation 0 and a mean just
above the best response gets a negative expected improvement. -/
theorem C43_negative_value : ∃ ms ss Y vals : List ℝ, (∀ s ∈ ss, 0 ≤ s) ∧
    ei ms ss Y = .ok vals ∧ ∃ v ∈ vals, v < 0 := by
  refine ⟨[1e-5], [0], [0], _, by simp, ei_eq _ _ _ JITTER_ACQ 0 rfl ⟨by simp, by simp⟩ ?_, _,
    List.mem_singleton.2 rfl, ?_⟩
  · intro s hs
    simp only [List.mem_singleton] at hs
    subst hs
    norm_num [JITTER_ACQ]
  · have := normCdf_pos ((0 - 1e-5) / (0 + JITTER_ACQ))
    nlinarith

/-- C43 (what does hold). With jitter `j >= 0` and deviations `>= 0` a value is never below
`-j * pdf(0)`, never below `best - mean - j * pdf(0)`, and not negative once the mean does not
exceed the best response. Missing: non-negativity in general, refuted by
`C43_negative_value`. -/
theorem C43_lower_bounds_partial (ms ss Y vals : List ℝ) (j b : ℝ) (hl : ms.length = ss.length)
    (hb : IsBest Y b) (hj : 0 ≤ j) (hs : ∀ s ∈ ss, 0 ≤ s ∧ 0 < s + j)
    (h : ei ms ss Y j = .ok vals) (m s v : ℝ) (h1 : At ms ss vals m s v) :
    -(j * (Real.sqrt (2 * Real.pi))⁻¹) ≤ v ∧ b - m - j * (Real.sqrt (2 * Real.pi))⁻¹ ≤ v ∧
      (m ≤ b → 0 ≤ v) := by
  rw [ei_eq ms ss Y j b hl hb (fun s h => (hs s h).2), Except.ok.injEq] at h
  subst h
  obtain ⟨hs0, hs'⟩ := hs s (at_mem h1)
  have key : (s + j) * ((b - m) / (s + j)) = b - m := by field_simp
  have hv := at_zipWith h1
  set z := (b - m) / (s + j) with hz
  have hpdf : normPdf z ≤ (Real.sqrt (2 * Real.pi))⁻¹ := by
    rw [normPdf_eq]
    apply mul_le_of_le_one_right (by positivity)
    rw [Real.exp_le_one_iff]
    have := sq_nonneg z
    linarith
  have hjp : j * normPdf z ≤ j * (Real.sqrt (2 * Real.pi))⁻¹ := mul_le_mul_of_nonneg_left hpdf hj
  have p1 := mul_pos hs' (psi_pos z)
  have p2 := mul_pos hs' (psi_pos (-z))
  rw [normCdf_neg, normPdf_neg] at p2
  refine ⟨?_, ?_, ?_⟩
  · have : (s + j) * (z * normCdf z + normPdf z) = v + j * normPdf z := by
      rw [hv, mul_add, ← mul_assoc, key]; ring
    linarith
  · have : (s + j) * (-z * (1 - normCdf z) + normPdf z) = v - (b - m) + j * normPdf z := by
      rw [hv, mul_add, ← mul_assoc, mul_neg, key]; ring
    linarith
  · intro hmb
    rw [hv]
    have h1 := mul_nonneg (sub_nonneg.2 hmb) (normCdf_nonneg z)
    have h2 := mul_nonneg hs0 (normPdf_pos z).le
    linarith

/-! ### C44 -/

/-- C44. `ucb` scores each test point by `-mean + k * std`, with the same `k` for all points
of the call: `kappa`, or `kappa * log(n + 1)` when `n` responses are passed and the schedule
is on. -/
theorem C44_ucb (ms ss : List ℝ) (Y : Option (List ℝ)) (kappa : ℝ) (inc : Bool)
    (hl : ms.length = ss.length) :
    ∃ vals k, ucb ms ss Y kappa inc = .ok vals ∧ vals.length = ms.length ∧
      (k = if inc = true ∧ Y.isSome then kappa * Real.log ((Y.getD []).length + 1) else kappa) ∧
      ∀ m s v, At ms ss vals m s v → v = -m + k * s := by
  obtain ⟨k, hk, hu⟩ : ∃ k, (k = if inc = true ∧ Y.isSome then
        kappa * Real.log ((Y.getD []).length + 1) else kappa) ∧
      ucb ms ss Y kappa inc = .ok (List.zipWith (fun m s => -m + k * s) ms ss) := by
    cases inc <;> cases Y <;>
      simp [ucb, pyAssert, hl, bind, Except.bind, pure, Except.pure]
  exact ⟨_, k, hu, by simp [hl], hk,
    fun m s v h => at_zipWith (f := fun m s => -m + k * s) h⟩

/-- C44. The schedule grows with the number of responses, and is positive once there is one
(for positive `kappa`), so larger deviations and smaller means score higher. -/
theorem C44_ucb_ranks (ms ss Y vals : List ℝ) (kappa : ℝ) (hk : 0 < kappa) (hY : Y ≠ [])
    (h : ucb ms ss (some Y) kappa true = .ok vals) (m s v m' s' v' : ℝ)
    (h1 : At ms ss vals m s v) (h2 : At ms ss vals m' s' v') :
    (m ≤ m' → s' < s → v' < v) ∧ (m < m' → s' ≤ s → v' < v) := by
  by_cases hl : ms.length = ss.length
  · simp only [ucb, pyAssert, hl, if_true, bind, Except.bind, pure, Except.pure,
      Except.ok.injEq] at h
    subst h
    rw [at_zipWith h1, at_zipWith h2]
    have hlen : (1 : ℝ) < Y.length + 1 := by
      have : 0 < Y.length := List.length_pos_iff.2 hY
      have : (0 : ℝ) < Y.length := by exact_mod_cast this
      linarith
    have hp : 0 < kappa * Real.log (Y.length + 1) := mul_pos hk (Real.log_pos hlen)
    constructor
    · intro hm hs
      have := mul_lt_mul_of_pos_left hs hp
      linarith
    · intro hm hs
      have := mul_le_mul_of_nonneg_left hs hp.le
      linarith
  · simp [ucb, pyAssert, hl, bind, Except.bind] at h

/-- C44. `ucb` refuses vectors of unequal length and nothing else. -/
theorem C44_ucb_fails_iff (ms ss : List ℝ) (Y : Option (List ℝ)) (kappa : ℝ) (inc : Bool)
    (e : PyErr) :
    ucb ms ss Y kappa inc = .error e ↔ ms.length ≠ ss.length ∧ e = .assertion := by
  by_cases hl : ms.length = ss.length <;>
    simp [ucb, pyAssert, hl, bind, Except.bind, pure, Except.pure, eq_comm]

/-- C44. The pure strategies keep the order of the test points and rank by the mean alone
(smaller is better) and by the deviation alone (larger is better). -/
theorem C44_pure (ms ss : List ℝ) :
    (∃ vals, pureExploit ms = .ok vals ∧ vals.length = ms.length ∧
      ∀ (i j : ℕ) m m' v v', ms[i]? = some m → ms[j]? = some m' → vals[i]? = some v →
        vals[j]? = some v' → (v' < v ↔ m < m')) ∧
    (∃ vals, pureExplore ss = .ok vals ∧ vals.length = ss.length ∧
      ∀ (i j : ℕ) s s' v v', ss[i]? = some s → ss[j]? = some s' → vals[i]? = some v →
        vals[j]? = some v' → (v' < v ↔ s' < s)) := by
  constructor
  · refine ⟨_, rfl, by simp, ?_⟩
    intro i j m m' v v' h1 h2 h3 h4
    rw [List.getElem?_map, h1] at h3
    rw [List.getElem?_map, h2] at h4
    simp only [Option.map_some, Option.some.injEq] at h3 h4
    rw [← h3, ← h4]
    exact neg_lt_neg_iff
  · refine ⟨_, rfl, rfl, ?_⟩
    intro i j s s' v v' h1 h2 h3 h4
    rw [h1] at h3
    rw [h2] at h4
    rw [Option.some.injEq] at h3 h4
    rw [h3, h4]

/-! ### C45 -/

/-- The discount of augmented expected improvement. -/
noncomputable def discount (noise s : ℝ) : ℝ := 1 - noise / Real.sqrt (s ^ 2 + noise ^ 2)

/-- C45. Augmented expected improvement is expected improvement times `discount`, point by
point, whenever both are defined. -/
theorem C45_product (ms ss Y : List ℝ) (noise j b : ℝ) (hl : ms.length = ss.length)
    (hb : IsBest Y b) (hs : ∀ s ∈ ss, 0 < s + j) (hn : ∀ s ∈ ss, s ^ 2 + noise ^ 2 ≠ 0) :
    ∃ eis vals, ei ms ss Y j = .ok eis ∧ aei ms ss Y noise j = .ok vals ∧
      vals.length = ms.length ∧ eis.length = ms.length ∧
      ∀ (i : ℕ) s e v, ss[i]? = some s → eis[i]? = some e → vals[i]? = some v →
        v = e * discount noise s := by
  have h0 : (0 : ℝ) ∉ ss.map (· + j) := by
    intro h
    obtain ⟨s, hs', h⟩ := List.mem_map.1 h
    have := hs s hs'
    linarith
  have h1 : (0 : ℝ) ∉ ss.map (fun s => Real.sqrt (s ^ 2 + noise ^ 2)) := by
    intro h
    obtain ⟨s, hs', h⟩ := List.mem_map.1 h
    rw [Real.sqrt_eq_zero (by positivity)] at h
    exact hn s hs' h
  apply Exists.intro
  apply Exists.intro
  apply And.intro (ei_eq ms ss Y j b hl hb hs)
  apply And.intro
  · simp only [aei, pyAssert, hl, if_true, bind, Except.bind, npMin_ok.2 hb, guardDiv, h0, h1,
      if_false, pure, Except.pure]
    rfl
  · refine ⟨by simp [hl], by simp [hl], ?_⟩
    intro i s e v hi he hv
    rw [List.getElem?_zipWith, hi] at he hv
    rcases hm : ms[i]? with _ | m
    · rw [hm] at he; simp at he
    · rw [hm] at he hv
      simp only [Option.some.injEq] at he hv
      rw [← he, ← hv]
      rfl

/-- C45. For noise levels `>= 0` the discount lies in `[0, 1]`; it is 1 without noise, positive
where the deviation is not 0, 0 where the deviation is 0, and it falls with the noise and
rises with the deviation. -/
theorem C45_discount (noise s : ℝ) (hn : 0 ≤ noise) (hs : 0 ≤ s) (h0 : s ^ 2 + noise ^ 2 ≠ 0) :
    0 ≤ discount noise s ∧ discount noise s ≤ 1 ∧ (noise = 0 → discount noise s = 1) ∧
    (0 < noise → discount noise s < 1) ∧ (0 < s → 0 < discount noise s) ∧
    (s = 0 → discount noise s = 0) ∧
    (∀ noise', noise ≤ noise' → discount noise' s ≤ discount noise s) ∧
    (∀ s', s ≤ s' → discount noise s ≤ discount noise s') := by
  have hpos : 0 < s ^ 2 + noise ^ 2 := lt_of_le_of_ne (by positivity) (Ne.symm h0)
  have hq := Real.sqrt_pos.2 hpos
  have hle : noise ≤ Real.sqrt (s ^ 2 + noise ^ 2) :=
    Real.le_sqrt_of_sq_le (by nlinarith [sq_nonneg s])
  have hdiv1 : noise / Real.sqrt (s ^ 2 + noise ^ 2) ≤ 1 := (div_le_one hq).2 hle
  have hdiv0 : 0 ≤ noise / Real.sqrt (s ^ 2 + noise ^ 2) := div_nonneg hn hq.le
  refine ⟨by unfold discount; linarith, by unfold discount; linarith, ?_, ?_, ?_, ?_, ?_, ?_⟩
  · rintro rfl; simp [discount]
  · intro h
    have := div_pos h hq
    unfold discount; linarith
  · intro h
    have : noise < Real.sqrt (s ^ 2 + noise ^ 2) := Real.lt_sqrt_of_sq_lt (by nlinarith)
    have := (div_lt_one hq).2 this
    unfold discount; linarith
  · rintro rfl
    have hnn : noise ≠ 0 := by rintro rfl; simp at h0
    simp [discount, Real.sqrt_sq hn, hnn]
  · intro noise' h
    have hp' : 0 < s ^ 2 + noise' ^ 2 := by nlinarith
    have hq' := Real.sqrt_pos.2 hp'
    unfold discount
    apply sub_le_sub_left
    rw [div_le_div_iff₀ hq hq']
    apply le_of_sq_le_sq
    · rw [mul_pow, mul_pow, Real.sq_sqrt hp'.le, Real.sq_sqrt hpos.le]
      have : noise ^ 2 ≤ noise' ^ 2 := pow_le_pow_left₀ hn h 2
      nlinarith [sq_nonneg s]
    · exact mul_nonneg (hn.trans h) hq.le
  · intro s' h
    unfold discount
    apply sub_le_sub_left
    apply div_le_div_of_nonneg_left hn hq
    apply Real.sqrt_le_sqrt
    have : s ^ 2 ≤ s' ^ 2 := pow_le_pow_left₀ hs h 2
    linarith

/-- C45. Augmenting never increases the magnitude. -/
theorem C45_abs_le (ms ss Y eis vals : List ℝ) (noise j b : ℝ) (hl : ms.length = ss.length)
    (hb : IsBest Y b) (hs : ∀ s ∈ ss, 0 ≤ s ∧ 0 < s + j) (hn : 0 ≤ noise)
    (hne : ∀ s ∈ ss, s ^ 2 + noise ^ 2 ≠ 0)
    (h1 : ei ms ss Y j = .ok eis) (h2 : aei ms ss Y noise j = .ok vals)
    (i : ℕ) (e v : ℝ) (he : eis[i]? = some e) (hv : vals[i]? = some v) : |v| ≤ |e| := by
  obtain ⟨eis', vals', g1, g2, g3, g4, g5⟩ :=
    C45_product ms ss Y noise j b hl hb (fun s h => (hs s h).2) hne
  rw [h1, Except.ok.injEq] at g1
  rw [h2, Except.ok.injEq] at g2
  subst g1 g2
  have hi : i < ss.length := by
    rw [← hl, ← g4]
    exact (List.getElem?_eq_some_iff.1 he).1
  have hsi : ss[i]? = some ss[i] := List.getElem?_eq_getElem hi
  have hm : ss[i] ∈ ss := List.getElem_mem hi
  rw [g5 i _ e v hsi he hv, abs_mul]
  obtain ⟨d0, d1, _⟩ := C45_discount noise ss[i] hn (hs _ hm).1 (hne _ hm)
  rw [abs_of_nonneg d0]
  exact mul_le_of_le_one_right (abs_nonneg e) d1

/-! ### Concrete cases -/

/-- C41-C45: two test points, three responses, the default jitter. -/
example : ([1, 2] : List ℝ).length = ([1 / 2, 0] : List ℝ).length ∧ IsBest [3, 1, 2] 1 ∧
    (∀ s ∈ ([1 / 2, 0] : List ℝ), 0 ≤ s ∧ 0 < s + JITTER_ACQ) ∧
    (∀ s ∈ ([1 / 2, 0] : List ℝ), s ^ 2 + (1e-2 : ℝ) ^ 2 ≠ 0) ∧
    At [1, 2] [1 / 2, 0] [5, 6] 2 0 6 := by
  refine ⟨rfl, ⟨by simp, by intro y hy; fin_cases hy <;> norm_num⟩, ?_, ?_, ⟨1, rfl, rfl, rfl⟩⟩
  · intro s hs
    fin_cases hs <;> norm_num [JITTER_ACQ]
  · intro s hs
    fin_cases hs <;> norm_num

/-- C42: two points with the same deviation and different means. -/
example : ∃ vals v v', ei [0, 1] [1, 1] [0, 2] 0 = .ok vals ∧ At [0, 1] [1, 1] vals 0 1 v ∧
    At [0, 1] [1, 1] vals 1 1 v' := by
  have h := ei_eq [0, 1] [1, 1] [0, 2] 0 0 rfl
    ⟨by simp, by intro y hy; fin_cases hy <;> norm_num⟩
    (by intro s hs; fin_cases hs <;> norm_num)
  exact ⟨_, _, _, h, ⟨0, rfl, rfl, rfl⟩, ⟨1, rfl, rfl, rfl⟩⟩

end Verif.Props
