import Verif.Spec.RoundedValues
import Verif.Props.RoundedChoice
import Verif.Lemmas.Mills

/-! # Computed values of acquisition functions at one point (lemmas for C159 and C160) -/

namespace Verif.Lemmas

open Verif.Spec Verif.Rounded Verif.Constants Verif.UtilsBo Verif.Acquisition Verif.Props

variable {fl cdf pdf lg : ℝ → ℝ} {η : ℝ}

/-- The expected improvement with jitter is close to the one without, also for a deviation of zero. -/
theorem improvement_jitter {b m s j : ℝ} (hs : 0 ≤ s) (hj : 0 < j) :
    |(b - m) * normCdf ((b - m) / (s + j)) + s * normPdf ((b - m) / (s + j)) - meanImprovement b m s| ≤
      j * (√(2 * Real.pi))⁻¹ := by
  rcases hs.lt_or_eq with hs | rfl
  · have hB : IsBest [b] b := ⟨List.mem_singleton_self b, fun y hy => by rw [List.mem_singleton.1 hy]⟩
    have heq := ei_eq [m] [s] [b] j b rfl hB (by
      intro s' hs'
      rw [List.mem_singleton.1 hs']
      linarith)
    exact (C80_ei [m] [s] [b] _ j b rfl hB hj.le (by
      intro s' hs'
      rwa [List.mem_singleton.1 hs']) heq m s _ ⟨0, rfl, rfl, rfl⟩).2
  · have e0 : meanImprovement b m 0 = max (b - m) 0 := by
      simp [meanImprovement]
    have hphi : ∀ x : ℝ, 0 ≤ x → 0 ≤ x * normCdf (-x) ∧ x * normCdf (-x) ≤ (√(2 * Real.pi))⁻¹ := by
      intro x hx
      refine ⟨mul_nonneg hx (normCdf_nonneg _), ?_⟩
      rcases hx.lt_or_eq with hx | rfl
      · have h1 := mills_upper hx
        have h2 := normPdf_pos x
        have h3 : x * normCdf (-x) ≤ normPdf x := by
          have h4 : (x ^ 2 + 3) * (x * normCdf (-x)) ≤ (x ^ 2 + 3) * normPdf x := by nlinarith
          exact le_of_mul_le_mul_left h4 (by positivity)
        exact h3.trans (pdf_le x)
      · simp
    rw [e0, zero_add, zero_mul, add_zero]
    obtain ⟨x, hx⟩ : ∃ x, x = (b - m) / j := ⟨_, rfl⟩
    have hbm : b - m = j * x := by
      rw [hx]
      field_simp
    rw [← hx, hbm]
    rcases le_total 0 x with h0 | h0
    · rw [max_eq_left (mul_nonneg hj.le h0)]
      obtain ⟨p1, p2⟩ := hphi x h0
      have e1 : j * x * normCdf x - j * x = -(j * (x * normCdf (-x))) := by
        rw [normCdf_neg]
        ring
      rw [e1, abs_neg, abs_of_nonneg (mul_nonneg hj.le p1)]
      exact mul_le_mul_of_nonneg_left p2 hj.le
    · rw [max_eq_right (mul_nonpos_of_nonneg_of_nonpos hj.le h0)]
      obtain ⟨p1, p2⟩ := hphi (-x) (by linarith)
      rw [neg_neg] at p1 p2
      have e1 : j * x * normCdf x - 0 = -(j * (-x * normCdf x)) := by ring
      rw [e1, abs_neg, abs_of_nonneg (mul_nonneg hj.le p1)]
      exact mul_le_mul_of_nonneg_left p2 hj.le

theorem single {α : Type*} {p : α → Prop} {a : α} (h : p a) : ∀ x ∈ [a], p x := fun x hx => by
  rwa [List.mem_singleton.1 hx]

variable {Y : List ℝ} {b m s m' s' em es D : ℝ}

theorem value_ei (hf : Nearest fl) (hη : 0 ≤ η) (hη1 : η ≤ 1 / 2) (hc : CdfWithin η cdf)
    (hd : PdfWithin η pdf) (hY : Doubles Y) (hB : IsBest Y b) (d1 : m' ∈ Double) (d2 : s' ∈ Double)
    (hs' : 0 ≤ s') (hs : 0 ≤ s) (h3 : |m' - m| ≤ em) (h4 : |s' - s| ≤ es) (hD : |b - m| + s ≤ D) :
    ∃ v, RoundedAcquisition.ei fl cdf pdf [m'] [s'] Y (fl JITTER_ACQ) = .ok [v] ∧
      |v - meanImprovement b m s| ≤ 3 / 2 * em + es +
        ((η + 8 / 2 ^ 53) * (D + em + es) + (2 : ℝ) ^ (-1073 : ℤ)) + 1 / 200000 ∧
      |v| ≤ D + (3 / 2 * em + es + ((η + 8 / 2 ^ 53) * (D + em + es) + (2 : ℝ) ^ (-1073 : ℤ))) := by
  obtain ⟨hjd, hj0, -, hjb⟩ := jitter_double hf
  generalize fl JITTER_ACQ = j at *
  have heq := ei_eq [m] [s] Y j b rfl hB (single (by linarith))
  obtain ⟨vals, k1, k2, k3⟩ := C131_ei_predictions hf hη hη1 hc hd [m] [s] [m'] [s'] Y _ j b em es
    (single d1) (single d2) hY hjd hj0.le rfl rfl rfl hB (single ⟨hs, by linarith⟩)
    (single ⟨hs', by linarith⟩)
    (fun i m m' a1 a2 => by
      rcases i with _ | i
      · cases a1
        cases a2
        exact h3
      · simp at a1)
    (fun i m m' a1 a2 => by
      rcases i with _ | i
      · cases a1
        cases a2
        exact h4
      · simp at a1) heq
  obtain ⟨v, rfl⟩ := List.length_eq_one_iff.1 k2
  have e1 := k3 0 m s _ v rfl rfl rfl rfl
  have e2 := (improvement_jitter (b := b) (m := m) hs hj0).trans hjb
  have e5 := ei_value_le (b - m) s ((b - m) / (s + j))
  rw [abs_of_nonneg hs] at e5
  beta_reduce at e1
  have hη2 : 0 ≤ η + 8 / 2 ^ 53 := by positivity
  generalize (b - m) * normCdf ((b - m) / (s + j)) + s * normPdf ((b - m) / (s + j)) = A at *
  have e7 : |v - A| ≤ 3 / 2 * em + es + ((η + 8 / 2 ^ 53) * (D + em + es) + (2 : ℝ) ^ (-1073 : ℤ)) := by
    refine e1.trans (add_le_add le_rfl (add_le_add (mul_le_mul_of_nonneg_left ?_ hη2) le_rfl))
    linarith
  refine ⟨v, k1, (abs_sub_le _ A _).trans (add_le_add e7 e2), ?_⟩
  have := abs_sub_abs_le_abs_sub v A
  linarith

theorem value_pi {w : ℝ} (hf : Nearest fl) (hc : CdfWithin η cdf) (hY : Doubles Y) (hB : IsBest Y b)
    (d1 : m' ∈ Double) (d2 : s' ∈ Double) (hs' : 0 ≤ s') (h3 : |m' - m| ≤ em) (h4 : |s' - s| ≤ es)
    (hw : w ≤ s) (hes : 2 * (es + 1 / 80000) ≤ w - es) :
    ∃ v, RoundedAcquisition.pi fl cdf [m'] [s'] Y (fl JITTER_ACQ) = .ok [v] ∧
      |v - improvementChance b m s| ≤
        4 / 5 * ((es + 1 / 80000) / (w - es)) + 2 / 5 * (em / (w - es)) + (η + 3 / 2 ^ 53) ∧ |v| ≤ 1 := by
  obtain ⟨hjd, hj0, hj1, -⟩ := jitter_double hf
  generalize fl JITTER_ACQ = j at *
  have hes0 : 0 ≤ es := (abs_nonneg _).trans h4
  have hwe : 0 < w - es := by linarith
  have hsj : 0 < s' + j := by linarith
  have k1 := rounded_pi_eq (cdf := cdf) hf (ms := [m']) (ss := [s']) hjd (single d2) rfl hB (single hsj)
  refine ⟨_, k1, ?_, ?_⟩
  · have e1 := cdf_at_error hf hc (hY b hB.1) hjd d1 d2 hsj
    have e2 := chance_near (b := b) hj0 (show 0 < s by linarith) hs' h3 h4 hw (by linarith)
    have e3 : (es + j) / (w - es) ≤ (es + 1 / 80000) / (w - es) :=
      div_le_div_of_nonneg_right (by linarith) hwe.le
    have e4 := abs_sub_le (cdf (RoundedAcquisition.valZ fl b j m' s'))
      (normCdf ((b - m') / (s' + j))) (improvementChance b m s)
    linarith
  · rw [abs_of_nonneg (hc.nonneg _)]
    exact hc.le_one _

theorem value_aei {σ : ℝ} (hf : Nearest fl) (hη : 0 ≤ η) (hη1 : η ≤ 1 / 2) (hc : CdfWithin η cdf)
    (hd : PdfWithin η pdf) (hY : Doubles Y) (hB : IsBest Y b) (hσ : (2 : ℝ) ^ (-400 : ℤ) ≤ σ)
    (d1 : m' ∈ Double) (d2 : s' ∈ Double)
    (hs' : 0 ≤ s') (hs : 0 ≤ s) (h3 : |m' - m| ≤ em) (h4 : |s' - s| ≤ es) (hD : |b - m| + s ≤ D)
    {Δ : ℝ} (hΔ : Δ = 3 / 2 * em + es + 1 / 200000 + (D + 1 / 200000) * (es / σ) +
        ((η + 32 / 2 ^ 53) * (D + em + es) + (2 : ℝ) ^ (-1072 : ℤ))) :
    ∃ v, RoundedAcquisition.aei fl cdf pdf [m'] [s'] Y σ (fl JITTER_ACQ) = .ok [v] ∧
      |v - meanImprovement b m s * (1 - σ / √(s ^ 2 + σ ^ 2))| ≤ Δ ∧ |v| ≤ D + 1 / 200000 + Δ := by
  have hσ0 : 0 < σ := lt_of_lt_of_le (by positivity) hσ
  obtain ⟨hjd, hj0, -, hjb⟩ := jitter_double hf
  generalize fl JITTER_ACQ = j at *
  have hsj : ∀ s ∈ [s'], 0 < s + j := single (by linarith)
  have e2 := (improvement_jitter (b := b) (m := m) hs hj0).trans hjb
  have heq' := ei_eq [m'] [s'] Y j b rfl hB hsj
  obtain ⟨eis, vals₀, p1, p2, p3, -, p4⟩ := C45_product [m'] [s'] Y σ j b rfl hB hsj
    (fun s _ => by positivity)
  obtain rfl := Except.ok.inj (heq'.symm.trans p1)
  obtain ⟨v₀, rfl⟩ := List.length_eq_one_iff.1 p3
  have p5 := p4 0 s' _ v₀ rfl rfl rfl
  beta_reduce at p5
  obtain ⟨vals, k1, k2, k3⟩ := C131_aei hf hη hη1 hc hd [m'] [s'] Y _ σ j b (single d1) (single d2) hY hjd
    rfl hB hsj hσ p2
  obtain ⟨v, rfl⟩ := List.length_eq_one_iff.1 k2
  have e1 := k3 m' s' v₀ v ⟨0, rfl, rfl, rfl⟩ ⟨0, rfl, rfl, rfl⟩
  have e3 := ei_slope_mean (b := b) (s := s') hs' hj0.le (by linarith) m m'
  have e4 := ei_slope_std (c := b - m) (s := s) (s' := s') hj0.le hs hs' (by linarith) (by linarith)
  have e5 := ei_value_le (b - m) s ((b - m) / (s + j))
  obtain ⟨g1, g2, g3⟩ := discount_near (s := s) (s' := s') hσ0
  obtain ⟨-, g4, g5⟩ := discount_near (s := s) (s' := s) hσ0
  obtain ⟨q1, q2⟩ := aei_total e1 p5 e3 e4 e5 e2 h3 h4 (g1.trans (div_le_div_of_nonneg_right h4 hσ0.le))
    g2 g3 g4 g5 hs hD hs' (by positivity) hΔ
  exact ⟨v, k1, q1, q2⟩

theorem value_ucb {κ : ℝ} (hf : Nearest fl) (hη : 0 ≤ η) (hη1 : η ≤ 1 / 2) (hlg : LogWithin η lg)
    (hn : Y.length < 2 ^ 52) (hκ : κ = 2 * Real.log (Y.length + 1)) (d1 : m' ∈ Double)
    (hs' : 0 ≤ s') (hs : 0 ≤ s) (h3 : |m' - m| ≤ em) (h4 : |s' - s| ≤ es) (hD : |m| + κ * s ≤ D)
    (hW : s ≤ D) {Δ : ℝ} (hΔ : Δ = em + κ * es + ((η + 6 / 2 ^ 53) * (D + em + κ * es) +
      (2 : ℝ) ^ (-1074 : ℤ) * (1 + D + es))) :
    ∃ v, RoundedAcquisition.ucb fl lg [m'] [s'] (some Y) = .ok [v] ∧
      |v - (-m + κ * s)| ≤ Δ ∧ |v| ≤ D + Δ := by
  have hκ0 : 0 ≤ κ := by
    rw [hκ]
    have := Real.log_nonneg (show (1 : ℝ) ≤ Y.length + 1 by linarith [Nat.cast_nonneg (α := ℝ) Y.length])
    positivity
  obtain ⟨vals, k1, k2, k3⟩ := C131_ucb hf hη hη1 hlg [m'] [s'] (some Y) 2 true
    (single d1) (by rintro y ⟨⟩; exact hn) rfl κ (by simpa using hκ)
  obtain ⟨v, rfl⟩ := List.length_eq_one_iff.1 k2
  have e1 := k3 m' s' v ⟨0, rfl, rfl, rfl⟩
  have e2 : |κ * s'| ≤ κ * s + κ * es := by
    rw [abs_mul, abs_of_nonneg hκ0, abs_of_nonneg hs', ← mul_add]
    exact mul_le_mul_of_nonneg_left (by linarith [(abs_le.1 h4).2]) hκ0
  have e3 : |m'| ≤ |m| + em := by
    have := abs_sub_abs_le_abs_sub m' m
    linarith
  have e4 : |s'| ≤ D + es := by
    rw [abs_of_nonneg hs']
    linarith [(abs_le.1 h4).2]
  have e5 : |-m' + κ * s' - (-m + κ * s)| ≤ em + κ * es := by
    have e : -m' + κ * s' - (-m + κ * s) = -(m' - m) + κ * (s' - s) := by ring
    rw [e]
    refine (abs_add_le _ _).trans (add_le_add ((abs_neg _).trans_le h3) ?_)
    rw [abs_mul, abs_of_nonneg hκ0]
    exact mul_le_mul_of_nonneg_left h4 hκ0
  have hη2 : 0 ≤ η + 6 / 2 ^ 53 := by positivity
  have e6 : |v - (-m + κ * s)| ≤ Δ := by
    have t1 : (η + 6 / 2 ^ 53) * (|m'| + |κ * s'|) ≤ (η + 6 / 2 ^ 53) * (D + em + κ * es) :=
      mul_le_mul_of_nonneg_left (by linarith) hη2
    have t2 : (2 : ℝ) ^ (-1074 : ℤ) * (1 + |s'|) ≤ (2 : ℝ) ^ (-1074 : ℤ) * (1 + D + es) :=
      mul_le_mul_of_nonneg_left (by linarith) (by positivity)
    have t3 := abs_sub_le v (-m' + κ * s') (-m + κ * s)
    rw [hΔ]
    linarith
  refine ⟨v, k1, e6, ?_⟩
  have e7 := abs_sub_abs_le_abs_sub v (-m + κ * s)
  have e8 : |-m + κ * s| ≤ |m| + κ * s := by
    refine (abs_add_le _ _).trans (add_le_add (abs_neg _).le ?_)
    rw [abs_of_nonneg (mul_nonneg hκ0 hs)]
  linarith

/-- Every acquisition function, at one point, from predictions that are off by at most `em` and `es`. -/
theorem value_near {acq : String} {noise : Option ℝ} {κ σ w : ℝ} (hacq : acq ∈ ALLOWED_BO_ACQ)
    (hf : Nearest fl) (hη : 0 ≤ η) (hη1 : η ≤ 1 / 2) (hc : CdfWithin η cdf) (hd : PdfWithin η pdf)
    (hlg : LogWithin η lg) (hY : Doubles Y) (hB : IsBest Y b) (hn : Y.length < 2 ^ 52)
    (hκ : κ = 2 * Real.log (Y.length + 1))
    (hnoise : acq = "aei" → noise = some σ ∧ (2 : ℝ) ^ (-400 : ℤ) ≤ σ)
    (hes : acq = "pi" → 2 * (es + 1 / 80000) ≤ w - es) :
    ∃ f, RoundedChoice.chooseFunAcquisition fl cdf pdf lg acq noise = .ok f ∧
      ∀ m s m' s', m' ∈ Double → s' ∈ Double → 0 ≤ s' → 0 ≤ s → |m' - m| ≤ em → |s' - s| ≤ es →
        |b - m| + s ≤ D → |m| + κ * s ≤ D → (acq = "pi" → w ≤ s) →
        ∃ v, f [m'] [s'] Y = .ok [v] ∧ |v - acqMeaning acq b κ σ m s| ≤ acqError acq η κ σ em es D w ∧
          |v| ≤ D + 1 + acqError acq η κ σ em es D w := by
  have hκ0 : 0 ≤ κ := by
    rw [hκ]
    have := Real.log_nonneg (show (1 : ℝ) ≤ Y.length + 1 by linarith [Nat.cast_nonneg (α := ℝ) Y.length])
    positivity
  simp only [ALLOWED_BO_ACQ, List.mem_cons, List.not_mem_nil, or_false] at hacq
  rcases hacq with rfl | rfl | rfl | rfl | rfl | rfl
  · refine ⟨fun m s Y => RoundedAcquisition.pi fl cdf m s Y (fl JITTER_ACQ), rfl,
      fun m s m' s' d1 d2 hs' hs h3 h4 hD hD' hw => ?_⟩
    obtain ⟨v, k1, k2, k3⟩ := value_pi hf hc hY hB d1 d2 hs' h3 h4 (hw rfl) (hes rfl)
    refine ⟨v, k1, k2, k3.trans ?_⟩
    have h5 := (abs_nonneg _).trans k2
    have h6 := abs_nonneg (b - m)
    have e : acqError "pi" η κ σ em es D w =
      4 / 5 * ((es + 1 / 80000) / (w - es)) + 2 / 5 * (em / (w - es)) + (η + 3 / 2 ^ 53) := rfl
    rw [e]
    linarith
  · refine ⟨fun m s Y => RoundedAcquisition.ei fl cdf pdf m s Y (fl JITTER_ACQ), rfl,
      fun m s m' s' d1 d2 hs' hs h3 h4 hD hD' hw => ?_⟩
    obtain ⟨v, k1, k2, k3⟩ := value_ei hf hη hη1 hc hd hY hB d1 d2 hs' hs h3 h4 hD
    have e : acqError "ei" η κ σ em es D w =
      3 / 2 * em + es + ((η + 8 / 2 ^ 53) * (D + em + es) + (2 : ℝ) ^ (-1073 : ℤ)) + 1 / 200000 := rfl
    refine ⟨v, k1, k2, k3.trans ?_⟩
    rw [e]
    linarith
  · refine ⟨fun m s Y => RoundedAcquisition.ucb fl lg m s (some Y), rfl,
      fun m s m' s' d1 d2 hs' hs h3 h4 hD hD' hw => ?_⟩
    obtain ⟨v, k1, k2, k3⟩ := value_ucb hf hη hη1 hlg hn hκ d1 hs' hs h3 h4 hD'
      (by linarith [abs_nonneg (b - m)]) (Δ := acqError "ucb" η κ σ em es D w) rfl
    exact ⟨v, k1, k2, k3.trans (by linarith)⟩
  · obtain ⟨rfl, hσ⟩ := hnoise rfl
    refine ⟨fun m s Y => RoundedAcquisition.aei fl cdf pdf m s Y σ (fl JITTER_ACQ), rfl,
      fun m s m' s' d1 d2 hs' hs h3 h4 hD hD' hw => ?_⟩
    obtain ⟨v, k1, k2, k3⟩ := value_aei hf hη hη1 hc hd hY hB hσ d1 d2 hs' hs h3 h4 hD
      (Δ := acqError "aei" η κ σ em es D w) rfl
    exact ⟨v, k1, k2, k3.trans (by linarith)⟩
  · refine ⟨fun m _ _ => Acquisition.pureExploit m, rfl,
      fun m s m' s' d1 d2 hs' hs h3 h4 hD hD' hw => ⟨-m', rfl, ?_, ?_⟩⟩
    · show |-m' - -m| ≤ em
      rwa [← neg_sub', abs_neg]
    · show |-m'| ≤ D + 1 + em
      have := abs_sub_abs_le_abs_sub m' m
      have := mul_nonneg hκ0 hs
      rw [abs_neg]
      linarith
  · refine ⟨fun _ s _ => Acquisition.pureExplore s, rfl,
      fun m s m' s' d1 d2 hs' hs h3 h4 hD hD' hw => ⟨s', rfl, h4, ?_⟩⟩
    show |s'| ≤ D + 1 + es
    have := abs_nonneg (b - m)
    rw [abs_of_nonneg hs']
    linarith [(abs_le.1 h4).2]

end Verif.Lemmas
