import Verif.Props.Acquisition
import Verif.Lemmas.Mills

/-! C80: probability and expectation of improvement with the jitter the code adds to the deviation. -/

namespace Verif.Props

open Verif.Acquisition Verif.Constants Verif.Lemmas MeasureTheory ProbabilityTheory

open Set (Iio Ici Iic)

/-- C80: with a jitter `j`, probability of improvement is the probability for the deviation
`s + j`. -/
theorem C80_pi (ms ss Y vals : List ℝ) (j b : ℝ) (hl : ms.length = ss.length) (hb : IsBest Y b)
    (hs : ∀ s ∈ ss, 0 < s + j) (h : pi ms ss Y j = .ok vals) (m s v : ℝ)
    (h1 : At ms ss vals m s v) :
    v = (gaussianReal m ((s + j) ^ 2).toNNReal).real (Iio b) := by
  rw [pi_eq ms ss Y j b hl hb hs, Except.ok.injEq] at h
  subst h
  have hs' := hs s (at_mem h1)
  rw [at_zipWith h1, ← prob_le_eq m (s + j) b hs']
  have hv : ((s + j) ^ 2).toNNReal ≠ 0 := by
    rw [Ne, Real.toNNReal_eq_zero]
    have := pow_pos hs' 2
    linarith
  have := nullSingletonClass_gaussianReal (μ := m) hv
  exact measureReal_congr Iio_ae_eq_Iic.symm

theorem pdf_le (z : ℝ) : normPdf z ≤ (√(2 * Real.pi))⁻¹ := by
  rw [normPdf_eq]
  have h1 : Real.exp (-z ^ 2 / 2) ≤ 1 := Real.exp_le_one_iff.2 (by nlinarith [sq_nonneg z])
  have h2 : 0 ≤ (√(2 * Real.pi))⁻¹ := by positivity
  nlinarith

/-- Expected improvement grows with the deviation, at a rate of at most `(2 * pi) ** -0.5`. -/
private theorem improve_lipschitz (c : ℝ) {s s' : ℝ} (hs : 0 < s) (hss : s ≤ s') :
    c * normCdf (c / s) + s * normPdf (c / s) ≤ c * normCdf (c / s') + s' * normPdf (c / s') ∧
    c * normCdf (c / s') + s' * normPdf (c / s') ≤
      c * normCdf (c / s) + s * normPdf (c / s) + (s' - s) * (√(2 * Real.pi))⁻¹ := by
  have hs' : 0 < s' := hs.trans_le hss
  have t1 := mul_le_mul_of_nonneg_left (psi_tangent (c / s) (c / s')) hs'.le
  have t2 := mul_le_mul_of_nonneg_left (psi_tangent (c / s') (c / s)) hs.le
  have e1 : ∀ x y : ℝ, s' * (c / s' * x + y) = c * x + s' * y := by
    intro x y; field_simp
  have e2 : ∀ x y : ℝ, s * (c / s * x + y) = c * x + s * y := by
    intro x y; field_simp
  rw [e1, e1] at t1
  rw [e2, e2] at t2
  have p1 := normPdf_pos (c / s)
  have p2 := pdf_le (c / s')
  constructor
  · nlinarith
  · nlinarith

/-- C80: with a jitter `j`, the value is the expectation of the improvement for the deviation `s + j`
minus `j` times a density, and differs from the expectation of the improvement for the deviation `s`
by at most `j / sqrt (2 pi)`. -/
theorem C80_ei (ms ss Y vals : List ℝ) (j b : ℝ) (hl : ms.length = ss.length) (hb : IsBest Y b)
    (hj : 0 ≤ j) (hs : ∀ s ∈ ss, 0 < s) (h : ei ms ss Y j = .ok vals) (m s v : ℝ)
    (h1 : At ms ss vals m s v) :
    v = ∫ y, max (b - y) 0 ∂(gaussianReal m ((s + j) ^ 2).toNNReal) -
        j * gaussianPDFReal 0 1 ((b - m) / (s + j)) ∧
    |v - ∫ y, max (b - y) 0 ∂(gaussianReal m (s ^ 2).toNNReal)| ≤ j * (√(2 * Real.pi))⁻¹ := by
  rw [ei_eq ms ss Y j b hl hb (fun s h => by linarith [hs s h]), Except.ok.injEq] at h
  subst h
  have hs' := hs s (at_mem h1)
  have hsj : 0 < s + j := by linarith
  rw [at_zipWith h1, expect_improve_eq m (s + j) b hsj, expect_improve_eq m s b hs']
  obtain ⟨l1, l2⟩ := improve_lipschitz (b - m) hs' (show s ≤ s + j by linarith)
  have p1 := normPdf_pos ((b - m) / (s + j))
  have p2 := pdf_le ((b - m) / (s + j))
  refine ⟨?_, ?_⟩
  · show _ = _ - j * normPdf _
    ring
  · rw [abs_le]
    have := mul_le_mul_of_nonneg_left p2 hj
    have := mul_nonneg hj p1.le
    constructor <;> nlinarith

private theorem hasDeriv_mean (b s j : ℝ) (hsj : 0 < s + j) (m : ℝ) :
    HasDerivAt (fun m => (b - m) * normCdf ((b - m) / (s + j)) + s * normPdf ((b - m) / (s + j)))
      (-normCdf ((b - m) / (s + j)) -
        (b - m) / (s + j) * normPdf ((b - m) / (s + j)) * (j / (s + j))) m := by
  have h0 : HasDerivAt (fun m => b - m) (-1) m := by
    simpa using (hasDerivAt_id m).const_sub b
  have h1 : HasDerivAt (fun m => (b - m) / (s + j)) (-1 / (s + j)) m := h0.div_const _
  have h2 := (hasDerivAt_normCdf ((b - m) / (s + j))).comp m h1
  have h3 := (hasDerivAt_normPdf ((b - m) / (s + j))).comp m h1
  have h4 := (h0.mul h2).add (h3.const_mul s)
  refine h4.congr_deriv ?_
  simp only [Function.comp]
  field_simp
  ring

private theorem hasDeriv_std (c j s : ℝ) (hsj : 0 < s + j) :
    HasDerivAt (fun s => c * normCdf (c / (s + j)) + s * normPdf (c / (s + j)))
      (normPdf (c / (s + j)) * (1 - (c / (s + j)) ^ 2 * (j / (s + j)))) s := by
  have h0 : HasDerivAt (fun s => s + j) 1 s := by
    simpa using (hasDerivAt_id s).add_const j
  have h1 : HasDerivAt (fun s => c / (s + j)) ((0 * (s + j) - c * 1) / (s + j) ^ 2) s :=
    (hasDerivAt_const s c).div h0 hsj.ne'
  have h2 := (hasDerivAt_normCdf (c / (s + j))).comp s h1
  have h3 := (hasDerivAt_normPdf (c / (s + j))).comp s h1
  have h4 := (h2.const_mul c).add ((hasDerivAt_id s).mul h3)
  refine h4.congr_deriv ?_
  simp only [Function.comp, id_eq]
  field_simp
  ring

/-- C80: with jitter, a lower mean still gives a larger value, as long as the higher mean is at most
the best response or exceeds it by no more than `sqrt (s / j)` deviations. -/
theorem C80_rank_mean (ms ss Y vals : List ℝ) (j b : ℝ) (hl : ms.length = ss.length)
    (hb : IsBest Y b) (hj : 0 ≤ j) (hs : ∀ s ∈ ss, 0 ≤ s ∧ 0 < s + j)
    (h : ei ms ss Y j = .ok vals) (m m' s v v' : ℝ) (h1 : At ms ss vals m s v)
    (h2 : At ms ss vals m' s v') (hm : m < m')
    (hfar : m' ≤ b ∨ (m' - b) ^ 2 * j ≤ (s + j) ^ 2 * s) : v' < v := by
  rw [ei_eq ms ss Y j b hl hb (fun s h => (hs s h).2), Except.ok.injEq] at h
  subst h
  obtain ⟨hs0, hs'⟩ := hs s (at_mem h1)
  rw [at_zipWith h1, at_zipWith h2]
  have hanti := strictAntiOn_of_deriv_neg (convex_Iic m')
    (f := fun m => (b - m) * normCdf ((b - m) / (s + j)) + s * normPdf ((b - m) / (s + j)))
    (fun x _ => (hasDeriv_mean b s j hs' x).continuousAt.continuousWithinAt) fun x hx => ?_
  · exact hanti hm.le (Set.mem_Iic.2 le_rfl) hm
  rw [interior_Iic] at hx
  have hx : x < m' := hx
  rw [(hasDeriv_mean b s j hs' x).deriv]
  have p0 := normCdf_pos ((b - x) / (s + j))
  have p1 := normPdf_pos ((b - x) / (s + j))
  have q : 0 ≤ j / (s + j) := by positivity
  rcases le_or_gt x b with hxb | hxb
  · have : 0 ≤ (b - x) / (s + j) * normPdf ((b - x) / (s + j)) * (j / (s + j)) := by
      have : 0 ≤ b - x := by linarith
      positivity
    linarith
  · rcases hfar with hf | hf
    · linarith
    set y := (x - b) / (s + j) with hy
    have hy0 : 0 < y := div_pos (by linarith) hs'
    have e : (b - x) / (s + j) = -y := by rw [hy, ← neg_div]; ring
    have ml := mills_lower hy0.le
    rw [e, normPdf_neg]
    have h3 : y ^ 2 * j ≤ s := by
      have h4 : (x - b) ^ 2 * j ≤ (s + j) ^ 2 * s := by
        refine le_trans (mul_le_mul_of_nonneg_right ?_ hj) hf
        exact pow_le_pow_left₀ (by linarith) (by linarith) 2
      rw [hy, div_pow, div_mul_eq_mul_div, div_le_iff₀ (by positivity)]
      linarith
    have h5 : y * normPdf y * (j / (s + j)) < normCdf (-y) := by
      rw [mul_div_assoc', div_lt_iff₀ hs']
      have h6 : (1 + y ^ 2) * j ≤ s + j := by nlinarith
      have pc := normCdf_pos (-y)
      rcases hj.eq_or_lt with rfl | hj'
      · simp only [mul_zero, add_zero] at hs' ⊢
        positivity
      · have := mul_lt_mul_of_pos_right ml hj'
        nlinarith
    linarith

/-- C80: with jitter, a larger deviation still gives a larger value, as long as
`(best - mean)² j ≤ (s + j)³`. -/
theorem C80_rank_std (ms ss Y vals : List ℝ) (j b : ℝ) (hl : ms.length = ss.length)
    (hb : IsBest Y b) (hj : 0 ≤ j) (hs : ∀ s ∈ ss, 0 ≤ s ∧ 0 < s + j)
    (h : ei ms ss Y j = .ok vals) (m s s' v v' : ℝ) (h1 : At ms ss vals m s v)
    (h2 : At ms ss vals m s' v') (hss : s < s') (hnear : (b - m) ^ 2 * j ≤ (s + j) ^ 3) : v < v' := by
  rw [ei_eq ms ss Y j b hl hb (fun s h => (hs s h).2), Except.ok.injEq] at h
  subst h
  obtain ⟨hs0, hs'⟩ := hs s (at_mem h1)
  rw [at_zipWith h1, at_zipWith h2]
  have hmono := strictMonoOn_of_deriv_pos (convex_Ici s)
    (f := fun s => (b - m) * normCdf ((b - m) / (s + j)) + s * normPdf ((b - m) / (s + j)))
    (fun x hx => (hasDeriv_std (b - m) j x
      (lt_of_lt_of_le hs' (by have : s ≤ x := hx; linarith))).continuousAt.continuousWithinAt)
    fun x hx => ?_
  · exact hmono (Set.mem_Ici.2 le_rfl) hss.le hss
  rw [interior_Ici] at hx
  have hx : s < x := hx
  have hxj : 0 < x + j := by linarith
  rw [(hasDeriv_std (b - m) j x hxj).deriv]
  refine mul_pos (normPdf_pos _) ?_
  rw [sub_pos, div_pow, div_mul_div_comm, div_lt_one (by positivity)]
  calc (b - m) ^ 2 * j ≤ (s + j) ^ 3 := hnear
    _ < (x + j) ^ 3 := by gcongr
    _ = (x + j) ^ 2 * (x + j) := by ring

/-- C80: the sign of the value for a mean above the best response, by their distance `x` in units of
`s + j`: positive as long as `x² ≤ s / j - 2`, negative once `x² ≥ s / j`. -/
theorem C80_sign (ms ss Y vals : List ℝ) (j b : ℝ) (hl : ms.length = ss.length)
    (hb : IsBest Y b) (hj : 0 < j) (hs : ∀ s ∈ ss, 0 ≤ s)
    (h : ei ms ss Y j = .ok vals) (m s v x : ℝ) (h1 : At ms ss vals m s v) (hx : 0 < x)
    (hm : m = b + x * (s + j)) :
    (x ^ 2 ≤ s / j - 2 → 0 < v) ∧ (s / j ≤ x ^ 2 → v < 0) := by
  rw [ei_eq ms ss Y j b hl hb (fun s h => by linarith [hs s h]), Except.ok.injEq] at h
  subst h
  have hs0 := hs s (at_mem h1)
  have hsj : 0 < s + j := by linarith
  rw [at_zipWith h1]
  have e1 : b - m = -x * (s + j) := by rw [hm]; ring
  have e2 : (b - m) / (s + j) = -x := by rw [e1]; field_simp
  rw [e2, e1, normPdf_neg]
  have mu := mills_upper hx
  have ml := mills_lower hx.le
  have pp := normPdf_pos x
  constructor
  · intro hh
    have h2 : j * (x ^ 2 + 2) ≤ s := by
      have : (x ^ 2 + 2) ≤ s / j := by linarith
      rwa [le_div_iff₀ hj, mul_comm] at this
    have h3 : 0 < (x ^ 2 + 3) * (-x * (s + j) * normCdf (-x) + s * normPdf x) := by
      have : (s + j) * (x * (x ^ 2 + 3) * normCdf (-x)) < (s + j) * ((x ^ 2 + 2) * normPdf x) :=
        mul_lt_mul_of_pos_left mu hsj
      have : 0 ≤ (s - j * (x ^ 2 + 2)) * normPdf x := mul_nonneg (by linarith) pp.le
      nlinarith
    exact (mul_pos_iff_of_pos_left (by positivity)).1 h3
  · intro hh
    have h2 : s ≤ j * x ^ 2 := by
      rwa [div_le_iff₀ hj, mul_comm] at hh
    have h3 : (1 + x ^ 2) * (-x * (s + j) * normCdf (-x) + s * normPdf x) < 0 := by
      have : (s + j) * x * (x * normPdf x) < (s + j) * x * ((1 + x ^ 2) * normCdf (-x)) :=
        mul_lt_mul_of_pos_left ml (by positivity)
      have : (s - j * x ^ 2) * normPdf x ≤ 0 := mul_nonpos_of_nonpos_of_nonneg (by linarith) pp.le
      nlinarith
    by_contra hc
    have := mul_nonneg (show 0 ≤ 1 + x ^ 2 by positivity) (not_lt.1 hc)
    linarith

/-- C80: beyond that the ranking is lost, for every deviation: some two test points with the same
deviation are ranked the wrong way round. -/
theorem C80_rank_violated (j b s : ℝ) (hj : 0 < j) (hs : 0 ≤ s) (Y : List ℝ) (hb : IsBest Y b) :
    ∃ m m' v v', m < m' ∧ ei [m, m'] [s, s] Y j = .ok [v, v'] ∧ v < v' := by
  have hsj : 0 < s + j := by linarith
  set x := √(s / j) + 1 with hx
  have hx0 : 0 < x := by positivity
  have hx2 : s / j ≤ x ^ 2 := by
    have h1 : √(s / j) ^ 2 = s / j := Real.sq_sqrt (by positivity)
    have := Real.sqrt_nonneg (s / j)
    nlinarith
  set val : ℝ → ℝ := fun m => (b - m) * normCdf ((b - m) / (s + j)) +
    s * normPdf ((b - m) / (s + j)) with hval
  have hneg : val (b + x * (s + j)) < 0 := by
    have h1 := ei_eq [b + x * (s + j)] [s] Y j b rfl hb (by simpa using hsj)
    exact (C80_sign [b + x * (s + j)] [s] Y _ j b rfl hb hj (by simpa using hs) h1 _ s _ x
      ⟨0, rfl, rfl, rfl⟩ hx0 rfl).2 hx2
  have hlim : ∀ᶠ y in Filter.atTop, j * normPdf y < -val (b + x * (s + j)) := by
    have := tendsto_normPdf_atTop.const_mul j
    rw [mul_zero] at this
    exact this.eventually_lt_const (by linarith)
  obtain ⟨y, hy, hyx⟩ := (hlim.and (Filter.eventually_gt_atTop x)).exists
  refine ⟨b + x * (s + j), b + y * (s + j), val (b + x * (s + j)), val (b + y * (s + j)), ?_,
    ei_eq _ _ Y j b rfl hb (by simpa using hsj), ?_⟩
  · nlinarith
  · have e1 : b - (b + y * (s + j)) = -y * (s + j) := by ring
    have e2 : (b - (b + y * (s + j))) / (s + j) = -y := by rw [e1]; field_simp
    have : val (b + y * (s + j)) = -y * (s + j) * normCdf (-y) + s * normPdf y := by
      simp only [hval]
      rw [e2, e1, normPdf_neg]
    rw [this]
    have hp := psi_pos (-y)
    rw [normPdf_neg] at hp
    nlinarith

/-- A concrete case: the incumbent 0, means 1 and 2, deviation 1, and the default jitter. -/
example : ∃ v v', ei [1, 2] [1, 1] [3, 0] JITTER_ACQ = .ok [v, v'] ∧ v' < v := by
  have hb : IsBest [3, 0] 0 := by simp [IsBest]
  have hj : (0 : ℝ) < JITTER_ACQ := by norm_num [JITTER_ACQ]
  have h := ei_eq [1, 2] [1, 1] [3, 0] JITTER_ACQ 0 rfl hb (by simp; linarith)
  refine ⟨_, _, h, ?_⟩
  refine C80_rank_mean [1, 2] [1, 1] [3, 0] _ JITTER_ACQ 0 rfl hb hj.le (by simp; linarith) h 1 2 1 _ _
    ⟨0, rfl, rfl, rfl⟩ ⟨1, rfl, rfl, rfl⟩ (by norm_num) (Or.inr ?_)
  norm_num [JITTER_ACQ]

end Verif.Props
