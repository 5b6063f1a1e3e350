import Verif.Lemmas.RoundedAcquisition
import Verif.Props.AcquisitionJitter

/-! # C131: acquisition functions in double precision -/

namespace Verif.Props

open Verif.Acquisition Verif.Constants Verif.Lemmas Verif.Spec MeasureTheory ProbabilityTheory

open Set (Iio)

variable {fl cdf pdf lg : ℝ → ℝ} {η : ℝ}

/-- Every number of a list is a double. -/
def Doubles (l : List ℝ) : Prop := ∀ x ∈ l, x ∈ Double

theorem at_mem_mean {ms ss vals : List ℝ} {m s v : ℝ} (h : At ms ss vals m s v) : m ∈ ms := by
  obtain ⟨i, h1, _, _⟩ := h
  exact List.mem_iff_getElem?.2 ⟨i, h1⟩

theorem rounded_guard (hf : Nearest fl) {ss : List ℝ} {j : ℝ} (hj : j ∈ Double) (dss : Doubles ss)
    (hs : ∀ s ∈ ss, 0 < s + j) : guardDiv (ss.map fun s => fl (s + j)) = .ok () := by
  have h0 : (0 : ℝ) ∉ ss.map fun s => fl (s + j) := by
    intro h
    obtain ⟨s, hs', h⟩ := List.mem_map.1 h
    have zero : (0 : ℝ) ∈ Double := by simpa using double_nat (show 0 < 2 ^ 53 by norm_num)
    have := (valZ_error hf zero hj zero (dss s hs') (hs s hs')).1
    linarith
  rw [guardDiv, if_neg h0]

theorem rounded_pi_eq (hf : Nearest fl) {ms ss Y : List ℝ} {j b : ℝ} (hj : j ∈ Double)
    (dss : Doubles ss) (hl : ms.length = ss.length) (hb : IsBest Y b) (hs : ∀ s ∈ ss, 0 < s + j) :
    RoundedAcquisition.pi fl cdf ms ss Y j =
      .ok (List.zipWith (fun m s => cdf (RoundedAcquisition.valZ fl b j m s)) ms ss) := by
  simp [RoundedAcquisition.pi, pyAssert, hl, bind, Except.bind, npMin_ok.2 hb,
    rounded_guard hf hj dss hs, pure, Except.pure, List.map_zipWith]

theorem rounded_ei_eq (hf : Nearest fl) {ms ss Y : List ℝ} {j b : ℝ} (hj : j ∈ Double)
    (dss : Doubles ss) (hl : ms.length = ss.length) (hb : IsBest Y b) (hs : ∀ s ∈ ss, 0 < s + j) :
    RoundedAcquisition.ei fl cdf pdf ms ss Y j =
      .ok (List.zipWith (fun m s => fl (fl (fl (b - m) * cdf (RoundedAcquisition.valZ fl b j m s)) +
        fl (s * pdf (RoundedAcquisition.valZ fl b j m s)))) ms ss) := by
  simp [RoundedAcquisition.ei, pyAssert, hl, bind, Except.bind, npMin_ok.2 hb,
    rounded_guard hf hj dss hs, pure, Except.pure]

/-- C131: in double precision, probability of improvement is a number in `[0, 1]` and differs from the
probability by no more than the error of the distribution function plus three units of rounding, whatever
the predictions, responses and jitter are. -/
theorem C131_pi (hf : Nearest fl) (hc : CdfWithin η cdf) (ms ss Y : List ℝ) (j b : ℝ)
    (dms : Doubles ms) (dss : Doubles ss) (dY : Doubles Y) (hj : j ∈ Double)
    (hl : ms.length = ss.length) (hb : IsBest Y b) (hs : ∀ s ∈ ss, 0 < s + j) :
    ∃ vals, RoundedAcquisition.pi fl cdf ms ss Y j = .ok vals ∧ vals.length = ms.length ∧
      ∀ m s v, At ms ss vals m s v → 0 ≤ v ∧ v ≤ 1 ∧
        |v - (gaussianReal m ((s + j) ^ 2).toNNReal).real (Iio b)| ≤ η + 3 / 2 ^ 53 := by
  refine ⟨_, rounded_pi_eq hf hj dss hl hb hs, by simp [hl], ?_⟩
  intro m s v h1
  have hs' := hs s (at_mem h1)
  have dm := dms m (at_mem_mean h1)
  have ds := dss s (at_mem h1)
  have e : normCdf ((b - m) / (s + j)) = (gaussianReal m ((s + j) ^ 2).toNNReal).real (Iio b) := by
    rw [← prob_le_eq m (s + j) b hs']
    have hv : ((s + j) ^ 2).toNNReal ≠ 0 := by
      rw [Ne, Real.toNNReal_eq_zero]
      have := pow_pos hs' 2
      linarith
    have := nullSingletonClass_gaussianReal (μ := m) hv
    exact measureReal_congr MeasureTheory.Iio_ae_eq_Iic.symm
  rw [at_zipWith h1, ← e]
  refine ⟨hc.nonneg _, hc.le_one _, ?_⟩
  have := cdf_at_error hf hc (dY b hb.1) hj dm ds hs'
  linarith

/-- C131: the computed probabilities of improvement never reverse the order of the means: of two test
points with the same deviation, the one with the smaller mean gets at least the value of the other. -/
theorem C131_pi_order (hf : Nearest fl) (hmono : Monotone cdf) (ms ss Y vals : List ℝ) (j b : ℝ)
    (dss : Doubles ss) (hj : j ∈ Double) (hl : ms.length = ss.length) (hb : IsBest Y b)
    (hs : ∀ s ∈ ss, 0 < s + j) (h : RoundedAcquisition.pi fl cdf ms ss Y j = .ok vals)
    (m m' s v v' : ℝ) (h1 : At ms ss vals m s v) (h2 : At ms ss vals m' s v') (hm : m ≤ m') :
    v' ≤ v := by
  rw [rounded_pi_eq hf hj dss hl hb hs, Except.ok.injEq] at h
  subst h
  rw [at_zipWith h1, at_zipWith h2]
  apply hmono
  have zero : (0 : ℝ) ∈ Double := by simpa using double_nat (show 0 < 2 ^ 53 by norm_num)
  have hp := (valZ_error hf zero hj zero (dss s (at_mem h1)) (hs s (at_mem h1))).1
  exact fl_mono hf (div_le_div_of_nonneg_right (fl_mono hf (by linarith)) hp.le)

/-- C131: in double precision, expected improvement differs from the value without rounding by no more
than `η + 8 * 2 ** -53` times the distance of the mean to the best response plus the deviation, plus
`2 ** -1073`, where `η` is the error of the distribution function and of the density. -/
theorem C131_ei (hf : Nearest fl) (hη : 0 ≤ η) (hη1 : η ≤ 1 / 2) (hc : CdfWithin η cdf)
    (hd : PdfWithin η pdf) (ms ss Y vals : List ℝ) (j b : ℝ) (dms : Doubles ms) (dss : Doubles ss)
    (dY : Doubles Y) (hj : j ∈ Double) (hl : ms.length = ss.length) (hb : IsBest Y b)
    (hs : ∀ s ∈ ss, 0 < s + j) (h : ei ms ss Y j = .ok vals) :
    ∃ vals', RoundedAcquisition.ei fl cdf pdf ms ss Y j = .ok vals' ∧ vals'.length = ms.length ∧
      ∀ m s v v', At ms ss vals m s v → At ms ss vals' m s v' →
        |v' - v| ≤ (η + 8 / 2 ^ 53) * (|b - m| + |s|) + (2 : ℝ) ^ (-1073 : ℤ) := by
  rw [ei_eq ms ss Y j b hl hb hs, Except.ok.injEq] at h
  subst h
  refine ⟨_, rounded_ei_eq hf hj dss hl hb hs, by simp [hl], ?_⟩
  intro m s v v' h1 h2
  rw [at_zipWith h1, at_zipWith h2]
  have := ei_error hf hη hη1 hc hd (dY b hb.1) hj (dms m (at_mem_mean h1)) (dss s (at_mem h1))
    (hs s (at_mem h1))
  rw [show (8 : ℝ) / 2 ^ 53 = 8 * (1 / 2 ^ 53) by norm_num]
  exact this

/-- C131: computed expected improvement against the expectation itself. -/
theorem C131_ei_expectation (hf : Nearest fl) (hη : 0 ≤ η) (hη1 : η ≤ 1 / 2) (hc : CdfWithin η cdf)
    (hd : PdfWithin η pdf) (ms ss Y : List ℝ) (j b : ℝ) (dms : Doubles ms) (dss : Doubles ss)
    (dY : Doubles Y) (hj : j ∈ Double) (hj0 : 0 ≤ j) (hl : ms.length = ss.length) (hb : IsBest Y b)
    (hs : ∀ s ∈ ss, 0 < s) :
    ∃ vals', RoundedAcquisition.ei fl cdf pdf ms ss Y j = .ok vals' ∧ vals'.length = ms.length ∧
      ∀ m s v', At ms ss vals' m s v' →
        |v' - ∫ y, max (b - y) 0 ∂(gaussianReal m (s ^ 2).toNNReal)| ≤ j * (√(2 * Real.pi))⁻¹ +
          ((η + 8 / 2 ^ 53) * (|b - m| + s) + (2 : ℝ) ^ (-1073 : ℤ)) := by
  have hs' : ∀ s ∈ ss, 0 < s + j := fun s h => by linarith [hs s h]
  have heq := ei_eq ms ss Y j b hl hb hs'
  obtain ⟨vals', h1, h2, h3⟩ := C131_ei hf hη hη1 hc hd ms ss Y _ j b dms dss dY hj hl hb hs' heq
  refine ⟨vals', h1, h2, fun m s v' hv => ?_⟩
  obtain ⟨i, i1, i2, i3⟩ := hv
  have hat : At ms ss (List.zipWith (fun m s => (b - m) * normCdf ((b - m) / (s + j)) +
      s * normPdf ((b - m) / (s + j))) ms ss) m s ((b - m) * normCdf ((b - m) / (s + j)) +
      s * normPdf ((b - m) / (s + j))) :=
    ⟨i, i1, i2, by simp [List.getElem?_zipWith, i1, i2]⟩
  have e1 := h3 m s _ v' hat ⟨i, i1, i2, i3⟩
  have e2 := (C80_ei ms ss Y _ j b hl hb hj0 hs heq m s _ hat).2
  rw [abs_of_pos (hs s (at_mem hat))] at e1
  beta_reduce at e1 e2
  refine (abs_sub_le _ ((b - m) * normCdf ((b - m) / (s + j)) + s * normPdf ((b - m) / (s + j)))
    _).trans ?_
  linarith

/-- C131: the test point with the largest computed expected improvement has an exact value within twice
the error of the largest one. -/
theorem C131_ei_choice (hf : Nearest fl) (hη : 0 ≤ η) (hη1 : η ≤ 1 / 2) (hc : CdfWithin η cdf)
    (hd : PdfWithin η pdf) (ms ss Y vals vals' : List ℝ) (j b D : ℝ) (dms : Doubles ms)
    (dss : Doubles ss) (dY : Doubles Y) (hj : j ∈ Double) (hl : ms.length = ss.length)
    (hb : IsBest Y b) (hs : ∀ s ∈ ss, 0 < s + j)
    (hD : ∀ m s v, At ms ss vals m s v → |b - m| + |s| ≤ D) (h : ei ms ss Y j = .ok vals)
    (h' : RoundedAcquisition.ei fl cdf pdf ms ss Y j = .ok vals') (i : ℕ) (m s v v' : ℝ)
    (hm : ms[i]? = some m) (hsi : ss[i]? = some s) (hv : vals[i]? = some v) (hv' : vals'[i]? = some v')
    (hmax : ∀ w ∈ vals', w ≤ v') :
    ∀ w ∈ vals, w - 2 * ((η + 8 / 2 ^ 53) * D + (2 : ℝ) ^ (-1073 : ℤ)) ≤ v := by
  obtain ⟨vals'', k1, k2, k3⟩ := C131_ei hf hη hη1 hc hd ms ss Y vals j b dms dss dY hj hl hb hs h
  rw [h', Except.ok.injEq] at k1
  subst k1
  have hlen : vals.length = ms.length := by
    rw [ei_eq ms ss Y j b hl hb hs, Except.ok.injEq] at h
    simp [← h, hl]
  have bound : ∀ (i : ℕ) (m s v v' : ℝ), ms[i]? = some m → ss[i]? = some s → vals[i]? = some v →
      vals'[i]? = some v' → |v' - v| ≤ (η + 8 / 2 ^ 53) * D + (2 : ℝ) ^ (-1073 : ℤ) := by
    intro i m s v v' a1 a2 a3 a4
    have := k3 m s v v' ⟨i, a1, a2, a3⟩ ⟨i, a1, a2, a4⟩
    have hd := hD m s v ⟨i, a1, a2, a3⟩
    have := mul_le_mul_of_nonneg_left hd (show 0 ≤ η + 8 / 2 ^ 53 by positivity)
    linarith
  intro w hw
  obtain ⟨k, hk⟩ := List.mem_iff_getElem?.1 hw
  have hkl : k < vals.length := (List.getElem?_eq_some_iff.1 hk).1
  obtain ⟨m2, hm2⟩ : ∃ m2, ms[k]? = some m2 := ⟨_, List.getElem?_eq_getElem (by omega)⟩
  obtain ⟨s2, hs2⟩ : ∃ s2, ss[k]? = some s2 := ⟨_, List.getElem?_eq_getElem (by omega)⟩
  obtain ⟨w', hw'⟩ : ∃ w', vals'[k]? = some w' := ⟨_, List.getElem?_eq_getElem (by omega)⟩
  have b1 := abs_le.1 (bound k m2 s2 w w' hm2 hs2 hk hw')
  have b2 := abs_le.1 (bound i m s v v' hm hsi hv hv')
  have b3 := hmax w' (List.mem_iff_getElem?.2 ⟨k, hw'⟩)
  linarith [b1.1, b2.2]

/-- C131: errors of the predictions carry over: an error of the mean enters at most three halves times, and
an error of the deviation once. -/
theorem C131_ei_predictions (hf : Nearest fl) (hη : 0 ≤ η) (hη1 : η ≤ 1 / 2) (hc : CdfWithin η cdf)
    (hd : PdfWithin η pdf) (ms ss ms' ss' Y vals : List ℝ) (j b em es : ℝ) (dms : Doubles ms')
    (dss : Doubles ss') (dY : Doubles Y) (hj : j ∈ Double) (hj0 : 0 ≤ j)
    (hl : ms.length = ss.length) (hl' : ms'.length = ss'.length) (hlen : ms'.length = ms.length)
    (hb : IsBest Y b) (hs : ∀ s ∈ ss, 0 ≤ s ∧ 0 < s + j) (hs' : ∀ s ∈ ss', 0 ≤ s ∧ 0 < s + j)
    (hem : ∀ (i : ℕ) (m m' : ℝ), ms[i]? = some m → ms'[i]? = some m' → |m' - m| ≤ em)
    (hes : ∀ (i : ℕ) (s s' : ℝ), ss[i]? = some s → ss'[i]? = some s' → |s' - s| ≤ es)
    (h : ei ms ss Y j = .ok vals) :
    ∃ vals', RoundedAcquisition.ei fl cdf pdf ms' ss' Y j = .ok vals' ∧ vals'.length = ms.length ∧
      ∀ (i : ℕ) (m s v v' : ℝ), ms[i]? = some m → ss[i]? = some s → vals[i]? = some v → vals'[i]? = some v' →
        |v' - v| ≤ 3 / 2 * em + es +
          ((η + 8 / 2 ^ 53) * (|b - m| + s + em + es) + (2 : ℝ) ^ (-1073 : ℤ)) := by
  have heq := ei_eq ms' ss' Y j b hl' hb (fun s h => (hs' s h).2)
  rw [ei_eq ms ss Y j b hl hb (fun s h => (hs s h).2), Except.ok.injEq] at h
  subst h
  obtain ⟨vals', k1, k2, k3⟩ := C131_ei hf hη hη1 hc hd ms' ss' Y _ j b dms dss dY hj hl' hb
    (fun s h => (hs' s h).2) heq
  refine ⟨vals', k1, k2.trans hlen, ?_⟩
  intro i m s v v' a1 a2 a3 a4
  have hi : i < ms.length := (List.getElem?_eq_some_iff.1 a1).1
  obtain ⟨m', hm'⟩ : ∃ m', ms'[i]? = some m' := ⟨_, List.getElem?_eq_getElem (by omega)⟩
  obtain ⟨s', hs1⟩ : ∃ s', ss'[i]? = some s' := ⟨_, List.getElem?_eq_getElem (by omega)⟩
  have e1 := k3 m' s' _ v' ⟨i, hm', hs1, by rw [List.getElem?_zipWith, hm', hs1]⟩ ⟨i, hm', hs1, a4⟩
  have ev : v = (b - m) * normCdf ((b - m) / (s + j)) + s * normPdf ((b - m) / (s + j)) :=
    at_zipWith (ms := ms) (ss := ss) (f := fun m s => (b - m) * normCdf ((b - m) / (s + j)) +
      s * normPdf ((b - m) / (s + j))) ⟨i, a1, a2, a3⟩
  obtain ⟨p1, p2⟩ := hs s (List.mem_iff_getElem?.2 ⟨i, a2⟩)
  obtain ⟨p3, p4⟩ := hs' s' (List.mem_iff_getElem?.2 ⟨i, hs1⟩)
  have e2 := ei_slope_mean (b := b) p3 hj0 p4 m m'
  have e3 := ei_slope_std (c := b - m) hj0 p1 p3 p2 p4
  have e4 := hem i m m' a1 hm'
  have e5 := hes i s s' a2 hs1
  rw [ev]
  beta_reduce at e1
  have t1 := abs_sub_le v' ((b - m') * normCdf ((b - m') / (s' + j)) + s' * normPdf ((b - m') / (s' + j)))
    ((b - m) * normCdf ((b - m) / (s + j)) + s * normPdf ((b - m) / (s + j)))
  have t2 := abs_sub_le
    ((b - m') * normCdf ((b - m') / (s' + j)) + s' * normPdf ((b - m') / (s' + j)))
    ((b - m) * normCdf ((b - m) / (s' + j)) + s' * normPdf ((b - m) / (s' + j)))
    ((b - m) * normCdf ((b - m) / (s + j)) + s * normPdf ((b - m) / (s + j)))
  have t3 : |b - m'| + |s'| ≤ |b - m| + s + em + es := by
    have u1 := abs_sub_le b m m'
    rw [abs_sub_comm m m'] at u1
    rw [abs_of_nonneg p3]
    have u2 := (abs_le.1 e5).2
    linarith
  have t4 := mul_le_mul_of_nonneg_left t3 (show 0 ≤ η + 8 / 2 ^ 53 by positivity)
  linarith

/-- C131: the computed upper confidence bound. `κ` is the weight of the deviation without rounding. -/
theorem C131_ucb (hf : Nearest fl) (hη : 0 ≤ η) (hη1 : η ≤ 1 / 2) (hlg : LogWithin η lg)
    (ms ss : List ℝ) (Y : Option (List ℝ)) (kappa : ℝ) (inc : Bool) (dms : Doubles ms)
    (hY : ∀ y, Y = some y → y.length < 2 ^ 52) (hl : ms.length = ss.length) (κ : ℝ)
    (hκ : κ = if inc ∧ Y.isSome then kappa * Real.log (((Y.getD []).length : ℝ) + 1) else kappa) :
    ∃ vals, RoundedAcquisition.ucb fl lg ms ss Y kappa inc = .ok vals ∧ vals.length = ms.length ∧
      ∀ m s v, At ms ss vals m s v → |v - (-m + κ * s)| ≤
        (η + 6 / 2 ^ 53) * (|m| + |κ * s|) + (2 : ℝ) ^ (-1074 : ℤ) * (1 + |s|) := by
  have key : ∀ κ' : ℝ, |κ' - κ| ≤ (η + 2 * (1 / 2 ^ 53)) * |κ| + (2 : ℝ) ^ (-1075 : ℤ) →
      ∀ m s v, At ms ss (List.zipWith (fun m s => fl (-m + fl (κ' * s))) ms ss) m s v →
        |v - (-m + κ * s)| ≤
          (η + 6 / 2 ^ 53) * (|m| + |κ * s|) + (2 : ℝ) ^ (-1074 : ℤ) * (1 + |s|) := by
    intro κ' hk m s v h1
    rw [at_zipWith h1, show (6 : ℝ) / 2 ^ 53 = 6 * (1 / 2 ^ 53) by norm_num]
    exact ucb_error hf hη hη1 (dms m (at_mem_mean h1)) hk
  have exact_weight : |kappa - kappa| ≤ (η + 2 * (1 / 2 ^ 53)) * |kappa| + (2 : ℝ) ^ (-1075 : ℤ) := by
    rw [sub_self, abs_zero]
    positivity
  have hpy : pyAssert (ms.length = ss.length) = .ok () := by simp [pyAssert, hl]
  unfold RoundedAcquisition.ucb
  rw [hpy]
  rcases inc with _ | _
  · simp only [Bool.false_eq_true, false_and, if_false] at hκ
    subst hκ
    exact ⟨_, rfl, by simp [hl], key _ exact_weight⟩
  rcases Y with _ | y
  · simp only [Option.isSome_none, Bool.false_eq_true, and_false, if_false] at hκ
    subst hκ
    exact ⟨_, rfl, by simp [hl], key _ exact_weight⟩
  · simp only [Option.isSome_some, true_and, if_true, Option.getD_some] at hκ
    subst hκ
    exact ⟨_, rfl, by simp [hl], key _ (ucb_weight_error hf hη hη1 hlg kappa (hY y rfl))⟩

/-- C131: the computed upper confidence bound never reverses the order of the means, nor, for a weight that
is not negative, of the deviations. -/
theorem C131_ucb_order (hf : Nearest fl) (ms ss vals : List ℝ) (kappa : ℝ) (hk : 0 ≤ kappa)
    (Y : Option (List ℝ)) (inc : Bool) (hlg : ∀ x, 1 ≤ x → 0 ≤ lg x)
    (h : RoundedAcquisition.ucb fl lg ms ss Y kappa inc = .ok vals) (m m' s s' v v' : ℝ)
    (h1 : At ms ss vals m s v) (h2 : At ms ss vals m' s' v') (hm : m ≤ m') (hs : s' ≤ s) : v' ≤ v := by
  have key : ∀ κ' : ℝ, 0 ≤ κ' → List.zipWith (fun m s => fl (-m + fl (κ' * s))) ms ss = vals →
      v' ≤ v := by
    intro κ' hk' e
    subst e
    rw [at_zipWith h1, at_zipWith h2]
    have := fl_mono hf (mul_le_mul_of_nonneg_left hs hk')
    exact fl_mono hf (by linarith)
  have hfl1 : ∀ n : ℕ, 1 ≤ fl ((n : ℝ) + 1) := fun n =>
    le_fl_of_le hf (by simpa using double_nat (show 1 < 2 ^ 53 by norm_num))
      (by linarith [Nat.cast_nonneg (α := ℝ) n])
  by_cases hl : ms.length = ss.length
  · have hpy : pyAssert (ms.length = ss.length) = .ok () := by simp [pyAssert, hl]
    unfold RoundedAcquisition.ucb at h
    rw [hpy] at h
    rcases inc with _ | _
    · exact key _ hk (Except.ok.inj h)
    rcases Y with _ | y
    · exact key _ hk (Except.ok.inj h)
    · exact key _ (fl_nonneg hf (mul_nonneg hk (hlg _ (hfl1 _)))) (Except.ok.inj h)
  · simp [RoundedAcquisition.ucb, pyAssert, hl, bind, Except.bind] at h

/-- C131: the computed augmented expected improvement, for a noise that is not tiny. -/
theorem C131_aei (hf : Nearest fl) (hη : 0 ≤ η) (hη1 : η ≤ 1 / 2) (hc : CdfWithin η cdf)
    (hd : PdfWithin η pdf) (ms ss Y vals : List ℝ) (noise j b : ℝ) (dms : Doubles ms)
    (dss : Doubles ss) (dY : Doubles Y) (hj : j ∈ Double) (hl : ms.length = ss.length)
    (hb : IsBest Y b) (hs : ∀ s ∈ ss, 0 < s + j) (hn : (2 : ℝ) ^ (-400 : ℤ) ≤ noise)
    (h : aei ms ss Y noise j = .ok vals) :
    ∃ vals', RoundedAcquisition.aei fl cdf pdf ms ss Y noise j = .ok vals' ∧
      vals'.length = ms.length ∧ ∀ m s v v', At ms ss vals m s v → At ms ss vals' m s v' →
        |v' - v| ≤ (η + 32 / 2 ^ 53) * (|b - m| + |s|) + (2 : ℝ) ^ (-1072 : ℤ) := by
  have hn0 : 0 < noise := lt_of_lt_of_le (by positivity) hn
  have g1 : guardDiv (ss.map (· + j)) = .ok () := by
    have h0 : (0 : ℝ) ∉ ss.map (· + j) := by
      intro h
      obtain ⟨s, hs', h⟩ := List.mem_map.1 h
      have := hs s hs'
      linarith
    rw [guardDiv, if_neg h0]
  have g2 : guardDiv (ss.map (fun s => √(s ^ 2 + noise ^ 2))) = .ok () := by
    have h0 : (0 : ℝ) ∉ ss.map (fun s => √(s ^ 2 + noise ^ 2)) := by
      intro h
      obtain ⟨s, _, h⟩ := List.mem_map.1 h
      have : 0 < √(s ^ 2 + noise ^ 2) := by positivity
      linarith
    rw [guardDiv, if_neg h0]
  have g3 : guardDiv (ss.map fun s => fl √(fl (fl (s ^ 2) + fl (noise ^ 2)))) = .ok () := by
    have h0 : (0 : ℝ) ∉ ss.map fun s => fl √(fl (fl (s ^ 2) + fl (noise ^ 2))) := by
      intro h
      obtain ⟨s, _, h⟩ := List.mem_map.1 h
      have := (root_error hf (s := s) hn).1
      linarith
    rw [guardDiv, if_neg h0]
  have hpy : pyAssert (ms.length = ss.length) = .ok () := by simp [pyAssert, hl]
  rw [aei, hpy, npMin_ok.2 hb] at h
  simp only [bind, Except.bind, g1, g2, pure, Except.pure, Except.ok.injEq] at h
  subst h
  refine ⟨List.zipWith (fun m s => fl (fl (fl (fl (b - m) * cdf (RoundedAcquisition.valZ fl b j m s)) +
      fl (s * pdf (RoundedAcquisition.valZ fl b j m s))) *
      fl (1 - fl (noise / fl √(fl (fl (s ^ 2) + fl (noise ^ 2))))))) ms ss, ?_, ?_,
    fun m s v v' h1 h2 => ?_⟩
  · rw [RoundedAcquisition.aei, hpy, npMin_ok.2 hb]
    simp only [bind, Except.bind, rounded_guard hf hj dss hs, g3, pure, Except.pure]
  · simp [hl]
  · rw [at_zipWith h1, at_zipWith h2, show (32 : ℝ) / 2 ^ 53 = 32 * (1 / 2 ^ 53) by norm_num]
    exact aei_error hf hη hη1 (by positivity)
      (ei_error hf hη hη1 hc hd (dY b hb.1) hj (dms m (at_mem_mean h1)) (dss s (at_mem h1))
        (hs s (at_mem h1)))
      (ei_value_le _ _ _) (discount_error hf hn) (discount_le hn0)

theorem exMeans_doubles : Doubles [0, 1 / 2] := by
  intro x hx
  fin_cases hx
  · simpa using double_nat (show 0 < 2 ^ 53 by norm_num)
  · exact ⟨1, -1, by norm_num, by norm_num, by norm_num⟩

theorem exDeviations_doubles : Doubles [1, 1 / 2] := by
  have one : (1 : ℝ) ∈ Double := by simpa using double_nat (show 1 < 2 ^ 53 by norm_num)
  intro x hx
  fin_cases hx
  · exact one
  · exact ⟨1, -1, by norm_num, by norm_num, by norm_num⟩

theorem exResponses_doubles : Doubles [1, 3] := by
  intro x hx
  fin_cases hx
  · simpa using double_nat (show 1 < 2 ^ 53 by norm_num)
  · simpa using double_nat (show 3 < 2 ^ 53 by norm_num)

theorem exBest : IsBest [1, 3] 1 := ⟨by simp, by
  intro y hy
  fin_cases hy <;> norm_num⟩

theorem exJitter_nonneg : 0 ≤ roundAway JITTER_ACQ :=
  fl_nonneg roundAway_nearest (by norm_num [JITTER_ACQ])

theorem exDeviations_pos : ∀ s ∈ [(1 : ℝ), 1 / 2], 0 < s + roundAway JITTER_ACQ := by
  have := exJitter_nonneg
  intro s hs
  fin_cases hs
  · show (0 : ℝ) < 1 + _
    linarith
  · show (0 : ℝ) < 1 / 2 + _
    linarith

/-- C131: two test points and two responses, with the default jitter and a library that rounds correctly:
probabilities of improvement are computed with an error of at most `5 * 2 ** -53`. -/
example : ∃ vals, RoundedAcquisition.pi roundAway (fun x => roundAway (normCdf x)) [0, 1 / 2] [1, 1 / 2]
    [1, 3] (roundAway JITTER_ACQ) = .ok vals ∧ vals.length = 2 ∧
      ∀ m s v, At [0, 1 / 2] [1, 1 / 2] vals m s v → |v -
        (gaussianReal m ((s + roundAway JITTER_ACQ) ^ 2).toNNReal).real (Iio 1)| ≤ 5 / 2 ^ 53 := by
  obtain ⟨vals, h1, h2, h3⟩ := C131_pi roundAway_nearest (cdfWithin_round roundAway_nearest) [0, 1 / 2]
    [1, 1 / 2] [1, 3] (roundAway JITTER_ACQ) 1 exMeans_doubles exDeviations_doubles exResponses_doubles
    (roundAway_nearest.mem _) rfl exBest exDeviations_pos
  refine ⟨vals, h1, h2, fun m s v hv => ((h3 m s v hv).2.2).trans ?_⟩
  norm_num

/-- C131: the same for the expected improvement, against the expectation. -/
example : ∃ vals, RoundedAcquisition.ei roundAway (fun x => roundAway (normCdf x))
    (fun x => roundAway (normPdf x)) [0, 1 / 2] [1, 1 / 2] [1, 3] (roundAway JITTER_ACQ) = .ok vals ∧
      vals.length = 2 ∧ ∀ m s v, At [0, 1 / 2] [1, 1 / 2] vals m s v →
        |v - ∫ y, max (1 - y) 0 ∂(gaussianReal m (s ^ 2).toNNReal)| ≤
          roundAway JITTER_ACQ * (√(2 * Real.pi))⁻¹ + ((1 / 2 ^ 52 + 8 / 2 ^ 53) * (|1 - m| + s) +
            (2 : ℝ) ^ (-1073 : ℤ)) := by
  obtain ⟨vals, h1, h2, h3⟩ := C131_ei_expectation roundAway_nearest (by norm_num) (by norm_num)
    (cdfWithin_round roundAway_nearest) (pdfWithin_round roundAway_nearest) [0, 1 / 2] [1, 1 / 2] [1, 3]
    (roundAway JITTER_ACQ) 1 exMeans_doubles exDeviations_doubles exResponses_doubles
    (roundAway_nearest.mem _) exJitter_nonneg rfl exBest (by
      intro s hs
      fin_cases hs <;> norm_num)
  exact ⟨vals, h1, h2, h3⟩

/-- C131: the same for the upper confidence bound, whose weight is `2 log 3` here, and for the augmented
expected improvement with noise `1/8`. -/
example : ∃ vals vals', RoundedAcquisition.ucb roundAway (fun x => roundAway (Real.log x)) [0, 1 / 2]
    [1, 1 / 2] (some [1, 3]) 2 true = .ok vals ∧ vals.length = 2 ∧
      (∀ m s v, At [0, 1 / 2] [1, 1 / 2] vals m s v → |v - (-m + 2 * Real.log 3 * s)| ≤
        (1 / 2 ^ 52 + 6 / 2 ^ 53) * (|m| + |2 * Real.log 3 * s|) + (2 : ℝ) ^ (-1074 : ℤ) * (1 + |s|)) ∧
    RoundedAcquisition.aei roundAway (fun x => roundAway (normCdf x)) (fun x => roundAway (normPdf x))
      [0, 1 / 2] [1, 1 / 2] [1, 3] (1 / 8) (roundAway JITTER_ACQ) = .ok vals' ∧ vals'.length = 2 := by
  obtain ⟨vals, h1, h2, h3⟩ := C131_ucb roundAway_nearest (by norm_num) (by norm_num)
    (logWithin_round roundAway_nearest) [0, 1 / 2] [1, 1 / 2] (some [1, 3]) 2 true exMeans_doubles
    (by rintro y ⟨⟩; simp) rfl (2 * Real.log 3) (by norm_num)
  have hn : (2 : ℝ) ^ (-400 : ℤ) ≤ 1 / 8 := by
    refine (zpow_le_zpow_right₀ (by norm_num) (show (-400 : ℤ) ≤ -3 by norm_num)).trans ?_
    norm_num
  obtain ⟨-, vals0, -, h0, -⟩ := C45_product [0, 1 / 2] [1, 1 / 2] [1, 3] (1 / 8) (roundAway JITTER_ACQ) 1 rfl
    exBest exDeviations_pos (fun s _ => by positivity)
  obtain ⟨vals', h4, h5, -⟩ := C131_aei roundAway_nearest (by norm_num) (by norm_num)
    (cdfWithin_round roundAway_nearest) (pdfWithin_round roundAway_nearest) [0, 1 / 2] [1, 1 / 2] [1, 3]
    vals0 (1 / 8) (roundAway JITTER_ACQ) 1 exMeans_doubles exDeviations_doubles exResponses_doubles
    (roundAway_nearest.mem _) rfl exBest exDeviations_pos hn h0
  exact ⟨vals, vals', h1, h2, h3, h4, h5⟩

end Verif.Props
