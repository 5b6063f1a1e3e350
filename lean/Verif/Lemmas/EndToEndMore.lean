import Verif.Lemmas.EndToEnd
import Verif.Props.WorstCase

/-! # Duplicates chosen by other acquisition functions (lemmas for C147) -/

namespace Verif.Lemmas

open Verif.Spec Verif.Covariance Verif.UtilsCovariance Verif.Acquisition Verif.Constants
  Verif.BoCommon Verif.Gp
open Matrix hiding gram

variable {n d : ℕ}

/-- The discount at the smallest deviation and the noise of the package is positive. -/
theorem discount_pos : (0 : ℝ) < 1 - 1 / 100 / √(1 / 100000 + (1 / 100) ^ 2) := by
  rw [sub_pos, div_lt_one (by positivity)]
  exact Real.lt_sqrt_of_sq_lt (by norm_num)

/-- When the best point by the augmented expected improvement is a duplicate of one evaluated, no
value in the region is much lower than the best response. -/
theorem duplicate_choice_augmented {base : String} (hb : base ∈ baseNames) {h : HypDict} {s : ℝ}
    {l : Fin d → ℝ} (hd : Describes h (1 / 100) s l) {prior : Gp.PriorMu d} {m f : Point d → ℝ}
    {B Λ smax lmin δ : ℝ} {D : Set (Point d)} (hm : PriorFunction prior m) (hΛ0 : 0 ≤ Λ)
    (hΛ : ∀ u v, |m u - m v| ≤ Λ * dist u v) (hl : 0 < lmin) (hδ : 0 ≤ δ) (hs : |s| ≤ smax)
    (hll : ∀ k, lmin ≤ |l k|)
    (hf : NormAtMostOn D base s l B (fun z => f z - m z))
    {x : Fin n → Point d} (hxD : ∀ i, x i ∈ D) {p : Point d} (hp : p ∈ D) {j : Fin n}
    (hj : √(∑ i, (p i - x j i) ^ 2) < 1e-8)
    (hch : ∀ z ∈ D, ∃ mu sd S v v', Gp.predictWithHyps (.vec x) (fun i => f (x i))
      (.vec ![p, z]) h base prior = .ok (mu, sd, S) ∧
      aei (List.ofFn mu) (List.ofFn sd) (List.ofFn fun i => f (x i)) (1 / 100) = .ok [v, v'] ∧
      v' ≤ v + δ) :
    ∃ i, ∀ z ∈ D, f (x i) ≤ f z + runErrorAugmented B Λ smax lmin δ := by
  have hP := normCdf_pos (-B)
  have hjit : (0 : ℝ) < JITTER_ACQ := by norm_num [JITTER_ACQ]
  have hroot : (0 : ℝ) < √(1 / 100000) := Real.sqrt_pos.2 (by norm_num)
  have hrootsq : √(1 / 100000 : ℝ) ^ 2 = 1 / 100000 := Real.sq_sqrt (by norm_num)
  have hσ : (0 : ℝ) ≤ 1 / 100 := by norm_num
  have hD0 := discount_pos
  obtain ⟨i, hbest, hall⟩ := duplicate_pair hb hd hm hΛ0 hΛ hl hs hll hf hxD hp hj
  refine ⟨i, fun z hz => ?_⟩
  obtain ⟨mu, sd, S, v, v', hpr, he, hle⟩ := hch z hz
  obtain ⟨s0, s1, u1, u2⟩ := hall z hz mu sd S hpr
  have hs1 : 0 < sd 1 := hroot.trans_le s1
  obtain ⟨eis, vals, q1, q2, -, -, q3⟩ := Props.C45_product (List.ofFn mu) (List.ofFn sd)
    (List.ofFn fun i : Fin n => f (x i)) (1 / 100) JITTER_ACQ _ (by simp) hbest (by
      intro t ht
      obtain ⟨k, rfl⟩ := List.mem_ofFn.1 ht
      fin_cases k
      · exact add_pos s0 hjit
      · exact add_pos hs1 hjit) (by
      intro t ht
      obtain ⟨k, rfl⟩ := List.mem_ofFn.1 ht
      fin_cases k
      · have := pow_pos s0 2
        positivity
      · have := pow_pos hs1 2
        positivity)
  rw [Props.ei_eq _ _ _ JITTER_ACQ _ (by simp) hbest (by
    intro t ht
    obtain ⟨k, rfl⟩ := List.mem_ofFn.1 ht
    fin_cases k
    · exact add_pos s0 hjit
    · exact add_pos hs1 hjit)] at q1
  rw [he] at q2
  simp only [Except.ok.injEq, List.ofFn_succ, List.ofFn_zero, List.zipWith_cons_cons,
    List.zipWith_nil_left, Fin.succ_zero_eq_one] at q1 q2
  subst q1 q2
  have r0 := q3 0 (sd 0) _ v (by simp [List.ofFn_succ]) rfl rfl
  have r1 := q3 1 (sd 1) _ v' (by simp [List.ofFn_succ]) rfl rfl
  set E0 := (f (x i) - mu 0) * normCdf ((f (x i) - mu 0) / (sd 0 + JITTER_ACQ)) +
        sd 0 * normPdf ((f (x i) - mu 0) / (sd 0 + JITTER_ACQ))
  set E1 := (f (x i) - mu 1) * normCdf ((f (x i) - mu 1) / (sd 1 + JITTER_ACQ)) +
        sd 1 * normPdf ((f (x i) - mu 1) / (sd 1 + JITTER_ACQ))
  obtain ⟨d1, d2, -⟩ := Props.C45_discount (1 / 100) (sd 0) hσ s0.le
    (by have := pow_pos s0 2; positivity)
  have d3 := (Props.C45_discount (1 / 100) _ hσ hroot.le (by positivity)).2.2.2.2.2.2.2 (sd 1) s1
  unfold runErrorAugmented
  set J := B * √(2 * duplicateGap smax lmin) + Λ * 1e-8 + B * duplicateDeviation smax lmin +
    √(1 / 100000 + duplicateDeviation smax lmin ^ 2) * (√(2 * Real.pi))⁻¹ with hJ
  have hJ0 : 0 ≤ J := by
    have a1 := mul_nonneg hf.1 (Real.sqrt_nonneg (2 * duplicateGap smax lmin))
    have a2 : 0 ≤ B * duplicateDeviation smax lmin := mul_nonneg hf.1 (Real.sqrt_nonneg _)
    have a3 : 0 ≤ Λ * 1e-8 := by positivity
    have a4 : 0 ≤ √(1 / 100000 + duplicateDeviation smax lmin ^ 2) * (√(2 * Real.pi))⁻¹ := by positivity
    linarith
  have hD1 : Props.discount (1 / 100) √(1 / 100000) = 1 - 1 / 100 / √(1 / 100000 + (1 / 100) ^ 2) := by
    rw [Props.discount, hrootsq]
  rw [hD1] at d3
  set D₁ := 1 - 1 / 100 / √(1 / 100000 + (1 / 100) ^ 2)
  have hv : v ≤ J := by
    rw [r0]
    rcases le_total 0 E0 with hE | hE
    · exact (mul_le_of_le_one_right hE d2).trans u1
    · exact (mul_nonpos_of_nonpos_of_nonneg hE d1).trans hJ0
  have hE1 : E1 ≤ (J + δ) / D₁ := by
    rcases le_total 0 E1 with hE | hE
    · rw [le_div_iff₀ hD0]
      have := mul_le_mul_of_nonneg_left d3 hE
      rw [r1] at hle
      linarith
    · exact hE.trans (by positivity)
  have key : (f (x i) - f z) * normCdf (-B) ≤ (J + δ) / D₁ + JITTER_ACQ * (√(2 * Real.pi))⁻¹ := by
    linarith
  have := (le_div_iff₀ hP).2 key
  linarith

/-- The error of C145 for the augmented expected improvement is at most that of C147. -/
theorem runErrorAugmented_ge {B Λ smax lmin δ : ℝ} (hB : 0 ≤ B) (hΛ : 0 ≤ Λ) :
    ((√(1 / 100000) * (√(2 * Real.pi))⁻¹ + δ) / (1 - 1 / 100 / √(1 / 100000 + (1 / 100) ^ 2)) +
      JITTER_ACQ * (√(2 * Real.pi))⁻¹) / normCdf (-B) ≤ runErrorAugmented B Λ smax lmin δ := by
  have hP := normCdf_pos (-B)
  unfold runErrorAugmented
  rw [div_le_div_iff_of_pos_right hP]
  refine add_le_add ((div_le_div_iff_of_pos_right discount_pos).2 ?_) le_rfl
  have h1 : √(1 / 100000) ≤ √(1 / 100000 + duplicateDeviation smax lmin ^ 2) :=
    Real.sqrt_le_sqrt (by linarith [sq_nonneg (duplicateDeviation smax lmin)])
  have h2 := mul_le_mul_of_nonneg_right h1 (show 0 ≤ (√(2 * Real.pi))⁻¹ by positivity)
  have h3 := mul_nonneg hB (Real.sqrt_nonneg (2 * duplicateGap smax lmin))
  have h4 := mul_nonneg hB (Real.sqrt_nonneg ((1 / 100) ^ 2 + 1 / 100000 + 2 * duplicateGap smax lmin))
  have h5 : 0 ≤ Λ * 1e-8 := by positivity
  change 0 ≤ B * duplicateDeviation smax lmin at h4
  linarith

theorem runErrorAugmented_nonneg {B Λ smax lmin δ : ℝ} (hB : 0 ≤ B) (hΛ : 0 ≤ Λ) (hδ : 0 ≤ δ) :
    0 ≤ runErrorAugmented B Λ smax lmin δ := by
  have hP := normCdf_pos (-B)
  have hD := discount_pos
  have hj : (0 : ℝ) < JITTER_ACQ := by norm_num [JITTER_ACQ]
  refine le_trans ?_ (runErrorAugmented_ge hB hΛ)
  positivity

/-- When the deviation at the most uncertain point is bounded, so are all deviations, and errors of
predicted means. -/
theorem explored_of_postCov {base : String} (hb : base ∈ baseNames) {h : HypDict} {s : ℝ}
    {l : Fin d → ℝ} (hd : Describes h (1 / 100) s l) {prior : Gp.PriorMu d} {m f : Point d → ℝ}
    {B V W δ : ℝ} {D : Set (Point d)} (hm : PriorFunction prior m)
    (hf : NormAtMostOn D base s l B (fun z => f z - m z))
    {x : Fin n → Point d} (hxD : ∀ i, x i ∈ D) {p z : Point d} (hz : z ∈ D)
    (hv : postCov base (1 / 100) s l (.vec x) (.vec fun _ : Fin 1 => p) 0 0 ≤ V)
    (hW : √V ≤ W) {mu sd : Fin 2 → ℝ} {S} {v v' : ℝ} (hpr : Gp.predictWithHyps (.vec x) (fun i => f (x i)) (.vec ![p, z])
      h base prior = .ok (mu, sd, S)) (he : pureExplore (List.ofFn sd) = .ok [v, v']) (hle : v' ≤ v + δ) :
    ∃ mu sd S, Gp.predictWithHyps (.vec x) (fun i => f (x i)) (.vec fun _ : Fin 1 => z) h base prior =
      .ok (mu, sd, S) ∧ sd 0 ≤ W + δ ∧ |f z - mu 0| ≤ B * √((W + δ) ^ 2 - 1 / 100000) := by
  have hprt := PriorFunction.total hm
  obtain ⟨h1, h2⟩ := predicted_sq hb hd hprt hpr 0
  obtain ⟨h3, h4⟩ := predicted_sq hb hd hprt hpr 1
  simp only [Matrix.cons_val_zero, Matrix.cons_val_one] at h2 h4
  obtain ⟨rfl, rfl⟩ : sd 0 = v ∧ sd 1 = v' := by
    simpa [pureExplore, List.ofFn_succ, pure, Except.pure] using he
  obtain ⟨μ, hμ⟩ := hprt n x
  obtain ⟨μ', hμ'⟩ := hprt 1 fun _ => z
  have hvs : ∀ {n : ℕ} (v : Fin n → Point d), Suits base base (.vec v) := fun v => ⟨hb, .inl ⟨rfl, _, rfl⟩⟩
  obtain ⟨mu', sd', S', hz1⟩ : ∃ mu' sd' S', Gp.predictWithHyps (.vec x) (fun i => f (x i))
      (.vec fun _ : Fin 1 => z) h base prior = .ok (mu', sd', S') :=
    ⟨_, _, _, predictWithHyps_ok (hvs x) (hvs fun _ : Fin 1 => z) hd (fun i => f (x i)) hμ hμ'⟩
  refine ⟨mu', sd', S', hz1, ?_⟩
  obtain ⟨h5, h6⟩ := predicted_sq hb hd hprt hz1 0
  have e1 := predicted_error_on hb hd hm hf hxD hz1 (i := 0) hz
  simp only [sub_self, ne_eq, OfNat.ofNat_ne_zero, not_false_eq_true, zero_pow,
    Finset.sum_const_zero, zero_div, add_zero, Real.sqrt_sq hf.1] at e1
  rw [← h4] at h6
  have h7 : sd' 0 = sd 1 := (sq_eq_sq₀ h5.le h3.le).1 h6
  have h8 : sd 0 ≤ √V := Real.le_sqrt_of_sq_le (by rw [h2]; exact hv)
  have h9 : sd' 0 ≤ W + δ := by rw [h7]; linarith
  refine ⟨h9, e1.trans (mul_le_mul_of_nonneg_left (Real.sqrt_le_sqrt ?_) hf.1)⟩
  have := pow_le_pow_left₀ h5.le h9 2
  linarith

end Verif.Lemmas
