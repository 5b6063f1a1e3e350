import Verif.Spec.EndToEnd
import Verif.Lemmas.ImproveRefit
import Verif.Lemmas.WrapperSteps
import Verif.Lemmas.Fit
import Verif.Lemmas.StepState
import Verif.Props.Objective
import Verif.Props.Acquisition

/-! # From the steps of a run to choices (lemmas for C146) -/

namespace Verif.Lemmas

open Verif.Spec Verif.Covariance Verif.UtilsCovariance Verif.Acquisition Verif.Constants
  Verif.BoCommon Verif.Gp
open Matrix hiding gram

variable {n d : ℕ}

/-! ### Duplicates -/

/-- Profiles fall at most quadratically. -/
theorem profile_quadratic (base : String) {r : ℝ} (hr : 0 ≤ r) : 1 - 5 * r ^ 2 ≤ profile base r := by
  have key : ∀ t : ℝ, 0 ≤ t → 1 - t ^ 2 ≤ (1 + t) * Real.exp (-t) := by
    intro t ht
    have := mul_le_mul_of_nonneg_left (Real.add_one_le_exp (-t)) (by linarith : 0 ≤ 1 + t)
    nlinarith
  have h3 : √3 ^ 2 = 3 := Real.sq_sqrt (by norm_num)
  have h5 : √5 ^ 2 = 5 := Real.sq_sqrt (by norm_num)
  unfold profile
  split_ifs
  · have := key (√3 * r) (by positivity)
    rw [mul_pow, h3] at this
    unfold m32Profile
    nlinarith [sq_nonneg r]
  · have := key (√5 * r) (by positivity)
    rw [mul_pow, h5] at this
    unfold m52Profile
    refine this.trans (mul_le_mul_of_nonneg_right ?_ (Real.exp_pos _).le)
    have : 0 ≤ 5 / 3 * r ^ 2 := by positivity
    linarith
  · have := Real.add_one_le_exp (-(r ^ 2 / 2))
    unfold seProfile
    nlinarith [sq_nonneg r]

/-- The covariance of points closer than the tolerance. -/
theorem kernel_duplicate (base : String) {smax lmin : ℝ} (hl : 0 < lmin) {s : ℝ} {l : Fin d → ℝ}
    (hs : |s| ≤ smax) (hll : ∀ k, lmin ≤ |l k|) {x y : Point d}
    (hxy : √(∑ i, (x i - y i) ^ 2) < 1e-8) :
    s ^ 2 - duplicateGap smax lmin ≤ kernel base s l x y := by
  have h1 : scaledDistance l x y ≤ 1e-8 / lmin := by
    have e : scaledDistance l x y ≤ √(∑ i, (x i - y i) ^ 2) / lmin := by
      rw [scaledDistance, show √(∑ i, (x i - y i) ^ 2) / lmin =
        √((∑ i, (x i - y i) ^ 2) / lmin ^ 2) by rw [Real.sqrt_div' _ (sq_nonneg _),
          Real.sqrt_sq hl.le]]
      refine Real.sqrt_le_sqrt ?_
      rw [Finset.sum_div]
      refine Finset.sum_le_sum fun k _ => ?_
      rw [div_pow]
      refine div_le_div_of_nonneg_left (sq_nonneg _) (by positivity) ?_
      rw [← sq_abs (l k)]
      exact pow_le_pow_left₀ hl.le (hll k) 2
    exact e.trans (div_le_div_of_nonneg_right hxy.le hl.le)
  have h0 : 0 ≤ scaledDistance l x y := Real.sqrt_nonneg _
  have h2 := profile_quadratic base h0
  have h3 := pow_le_pow_left₀ h0 h1 2
  have h4 : s ^ 2 ≤ smax ^ 2 := sq_le_sq' (by linarith [(abs_le.1 hs).1]) (abs_le.1 hs).2
  have h5 := mul_le_mul_of_nonneg_left h2 (sq_nonneg s)
  have h6 := mul_le_mul h4 h3 (sq_nonneg _) (sq_nonneg _)
  unfold duplicateGap kernel
  rw [mul_pow]
  linarith

/-- Expected improvements at a point where the deviation is bounded and no response is much better
than the value there, and at another. -/
theorem improve_pair {base : String} (hb : base ∈ baseNames) {h : HypDict} {σ s : ℝ}
    {l : Fin d → ℝ} (hd : Describes h σ s l) {prior : Gp.PriorMu d} {m f : Point d → ℝ} {B c v : ℝ}
    {D : Set (Point d)} (hm : PriorFunction prior m)
    (hf : NormAtMostOn D base s l B (fun z => f z - m z)) (hc : 0 ≤ c) (hv0 : 0 ≤ v)
    {x : Fin n → Point d} (hxD : ∀ i, x i ∈ D) {p z : Point d} (hp : p ∈ D) (hz : z ∈ D)
    (hv : postCov base σ s l (.vec x) (.vec fun _ : Fin 1 => p) 0 0 ≤ 1 / 100000 + v ^ 2)
    {b : ℝ} (hb1 : b ≤ f p + c) {mu sd S}
    (hpr : Gp.predictWithHyps (.vec x) (fun i => f (x i)) (.vec ![p, z]) h base
      prior = .ok (mu, sd, S)) :
    0 < sd 0 ∧ √(1 / 100000) ≤ sd 1 ∧
    (b - mu 0) * normCdf ((b - mu 0) / (sd 0 + JITTER_ACQ)) +
        sd 0 * normPdf ((b - mu 0) / (sd 0 + JITTER_ACQ)) ≤
      c + B * v + √(1 / 100000 + v ^ 2) * (√(2 * Real.pi))⁻¹ ∧
    (b - f z) * normCdf (-B) ≤ (b - mu 1) * normCdf ((b - mu 1) / (sd 1 + JITTER_ACQ)) +
        sd 1 * normPdf ((b - mu 1) / (sd 1 + JITTER_ACQ)) + JITTER_ACQ * (√(2 * Real.pi))⁻¹ := by
  have hprt := PriorFunction.total hm
  obtain ⟨h1, h2⟩ := predicted_sq hb hd hprt hpr 0
  obtain ⟨h3, h4⟩ := predicted_sq hb hd hprt hpr 1
  have e0 := predicted_error_on hb hd hm hf hxD hpr (i := 0) hp
  have e1 := predicted_error_on hb hd hm hf hxD hpr (i := 1) hz
  simp only [Matrix.cons_val_zero, Matrix.cons_val_one, sub_self, ne_eq, OfNat.ofNat_ne_zero,
    not_false_eq_true, zero_pow, Finset.sum_const_zero, zero_div, add_zero,
    Real.sqrt_sq hf.1] at h2 e0 e1 h4
  rw [← h2] at hv
  have h5 : sd 0 ≤ √(1 / 100000 + v ^ 2) := Real.le_sqrt_of_sq_le hv
  have h6 : √(sd 0 ^ 2 - 1 / 100000) ≤ v := by
    rw [Real.sqrt_le_left hv0]
    linarith
  have h7 : √(sd 1 ^ 2 - 1 / 100000) ≤ sd 1 := by
    rw [Real.sqrt_le_left h3.le]
    linarith
  have hge := postCov_diag_ge base σ s l (.vec x) (.vec fun _ : Fin 1 => z) 0
  rw [← h4] at hge
  refine ⟨h1, ?_, ?_, ?_⟩
  · rw [Real.sqrt_le_left h3.le]
    exact hge
  · refine (improve_le h1.le).trans ?_
    have a1 := mul_le_mul_of_nonneg_left h6 hf.1
    have a2 := (abs_le.1 e0).2
    have a3 : max (b - mu 0) 0 ≤ c + B * v :=
      max_le (by linarith) (by have := mul_nonneg hf.1 hv0; linarith)
    have a4 := mul_le_mul_of_nonneg_right h5 (show 0 ≤ (√(2 * Real.pi))⁻¹ by positivity)
    linarith
  · refine improve_gap h3.le (by norm_num [JITTER_ACQ]) ?_
    have a1 := mul_le_mul_of_nonneg_left h7 hf.1
    have a2 := (abs_le.1 e1).1
    linarith

/-- The deviation predicted at a duplicate of a point evaluated. -/
theorem duplicate_postCov {base : String} {s : ℝ} {l : Fin d → ℝ} {smax lmin : ℝ} (hl : 0 < lmin)
    (hs : |s| ≤ smax) (hll : ∀ k, lmin ≤ |l k|) {x : Fin n → Point d} {p : Point d} {j : Fin n}
    (hj : √(∑ i, (p i - x j i) ^ 2) < 1e-8) :
    postCov base (1 / 100) s l (.vec x) (.vec fun _ : Fin 1 => p) 0 0 ≤
      1 / 100000 + duplicateDeviation smax lmin ^ 2 := by
  have hε0 : 0 ≤ duplicateGap smax lmin := by unfold duplicateGap; positivity
  have hvsq : duplicateDeviation smax lmin ^ 2 = (1 / 100) ^ 2 + 1 / 100000 + 2 * duplicateGap smax lmin :=
    Real.sq_sqrt (by positivity)
  have hk := kernel_duplicate base hl hs hll hj
  have := postCov_near base (1 / 100) s l x p (A := {j}) ⟨j, by simp⟩ (ε := duplicateGap smax lmin) (by
    intro i hi
    rw [Finset.mem_singleton.1 hi, kernel_symm]
    exact hk)
  rw [Finset.card_singleton, Nat.cast_one, div_one] at this
  linarith

/-- Expected improvements at a duplicate of a point evaluated, and at another. -/
theorem duplicate_pair {base : String} (hb : base ∈ baseNames) {h : HypDict} {s : ℝ}
    {l : Fin d → ℝ} (hd : Describes h (1 / 100) s l) {prior : Gp.PriorMu d} {m f : Point d → ℝ}
    {B Λ smax lmin : ℝ} {D : Set (Point d)} (hm : PriorFunction prior m) (hΛ0 : 0 ≤ Λ)
    (hΛ : ∀ u v, |m u - m v| ≤ Λ * dist u v) (hl : 0 < lmin) (hs : |s| ≤ smax)
    (hll : ∀ k, lmin ≤ |l k|)
    (hf : NormAtMostOn D base s l B (fun z => f z - m z))
    {x : Fin n → Point d} (hxD : ∀ i, x i ∈ D) {p : Point d} (hp : p ∈ D) {j : Fin n}
    (hj : √(∑ i, (p i - x j i) ^ 2) < 1e-8) :
    ∃ i, Props.IsBest (List.ofFn fun i : Fin n => f (x i)) (f (x i)) ∧
      ∀ z ∈ D, ∀ mu sd S, Gp.predictWithHyps (.vec x) (fun i => f (x i)) (.vec ![p, z]) h base prior =
        .ok (mu, sd, S) →
      0 < sd 0 ∧ √(1 / 100000) ≤ sd 1 ∧
      (f (x i) - mu 0) * normCdf ((f (x i) - mu 0) / (sd 0 + JITTER_ACQ)) +
          sd 0 * normPdf ((f (x i) - mu 0) / (sd 0 + JITTER_ACQ)) ≤
        B * √(2 * duplicateGap smax lmin) + Λ * 1e-8 + B * duplicateDeviation smax lmin +
          √(1 / 100000 + duplicateDeviation smax lmin ^ 2) * (√(2 * Real.pi))⁻¹ ∧
      (f (x i) - f z) * normCdf (-B) ≤
        (f (x i) - mu 1) * normCdf ((f (x i) - mu 1) / (sd 1 + JITTER_ACQ)) +
          sd 1 * normPdf ((f (x i) - mu 1) / (sd 1 + JITTER_ACQ)) + JITTER_ACQ * (√(2 * Real.pi))⁻¹ := by
  set ε := duplicateGap smax lmin with hε
  have hε0 : 0 ≤ ε := by unfold duplicateGap at hε; rw [hε]; positivity
  have hv0 : 0 ≤ duplicateDeviation smax lmin := Real.sqrt_nonneg _
  have hk := kernel_duplicate base hl hs hll hj
  obtain ⟨i, -, hi⟩ := Finset.exists_min_image (Finset.univ : Finset (Fin n)) (fun i => f (x i))
    ⟨j, Finset.mem_univ _⟩
  have hbest : Props.IsBest (List.ofFn fun i : Fin n => f (x i)) (f (x i)) := by
    refine ⟨List.mem_ofFn.2 ⟨i, rfl⟩, fun y hy => ?_⟩
    obtain ⟨j, rfl⟩ := List.mem_ofFn.1 hy
    exact hi j (Finset.mem_univ j)
  have hclose : f (x i) ≤ f p + (B * √(2 * ε) + Λ * 1e-8) := by
    have a1 := hi j (Finset.mem_univ _)
    have a2 := hf.2 2 ![x j, p] (by intro i; fin_cases i <;> simp [hp, hxD]) ![1, -1]
    simp only [Fin.sum_univ_two, Matrix.cons_val_zero, Matrix.cons_val_one, one_mul, neg_mul,
      mul_one, mul_neg, neg_neg] at a2
    have a3 := kernel_symm base s l (x j) p
    have a4 := kernel_le base s l p p
    have a5 := kernel_le base s l (x j) (x j)
    have a6 : √(kernel base s l (x j) (x j) + -kernel base s l (x j) p +
        (-kernel base s l p (x j) + kernel base s l p p)) ≤ √(2 * ε) :=
      Real.sqrt_le_sqrt (by linarith)
    have a7 := mul_le_mul_of_nonneg_left a6 hf.1
    have a8 := hΛ (x j) p
    have a9 : dist (x j) p ≤ 1e-8 := by
      rw [dist_pi_le_iff (by norm_num)]
      intro k
      rw [Real.dist_eq, abs_sub_comm]
      refine le_trans ?_ hj.le
      rw [← Real.sqrt_sq_eq_abs]
      exact Real.sqrt_le_sqrt (Finset.single_le_sum (f := fun i => (p i - x j i) ^ 2)
        (fun i _ => sq_nonneg _) (Finset.mem_univ k))
    have a10 := mul_le_mul_of_nonneg_left a9 hΛ0
    have a11 := (abs_le.1 (a2.trans a7)).2
    have a12 := (abs_le.1 a8).2
    linarith
  exact ⟨i, hbest, fun z hz mu sd S hpr => improve_pair hb hd hm hf
    (add_nonneg (mul_nonneg hf.1 (Real.sqrt_nonneg _)) (mul_nonneg hΛ0 (by norm_num))) hv0 hxD hp hz
    (duplicate_postCov hl hs hll hj) hclose hpr⟩

/-- When the best point by expected improvement is a duplicate of one evaluated, no value in the region
is much lower than the best response. -/
theorem duplicate_choice {base : String} (hb : base ∈ baseNames) {h : HypDict} {s : ℝ}
    {l : Fin d → ℝ} (hd : Describes h (1 / 100) s l) {prior : Gp.PriorMu d} {m f : Point d → ℝ}
    {B Λ smax lmin δ : ℝ} {D : Set (Point d)} (hm : PriorFunction prior m) (hΛ0 : 0 ≤ Λ)
    (hΛ : ∀ u v, |m u - m v| ≤ Λ * dist u v) (hl : 0 < lmin) (hs : |s| ≤ smax)
    (hll : ∀ k, lmin ≤ |l k|)
    (hf : NormAtMostOn D base s l B (fun z => f z - m z))
    {x : Fin n → Point d} (hxD : ∀ i, x i ∈ D) {p : Point d} (hp : p ∈ D) {j : Fin n}
    (hj : √(∑ i, (p i - x j i) ^ 2) < 1e-8)
    (hch : ∀ z ∈ D, ∃ mu sd S v v', Gp.predictWithHyps (.vec x) (fun i => f (x i))
      (.vec ![p, z]) h base prior = .ok (mu, sd, S) ∧
      ei (List.ofFn mu) (List.ofFn sd) (List.ofFn fun i => f (x i)) = .ok [v, v'] ∧ v' ≤ v + δ) :
    ∃ i, ∀ z ∈ D, f (x i) ≤ f z + runError B Λ smax lmin δ := by
  have hP := normCdf_pos (-B)
  have hjit : (0 : ℝ) < JITTER_ACQ := by norm_num [JITTER_ACQ]
  have hroot : (0 : ℝ) < √(1 / 100000) := Real.sqrt_pos.2 (by norm_num)
  obtain ⟨i, hbest, hall⟩ := duplicate_pair hb hd hm hΛ0 hΛ hl hs hll hf hxD hp hj
  refine ⟨i, fun z hz => ?_⟩
  obtain ⟨mu, sd, S, w, w', hpr, he, hle⟩ := hch z hz
  obtain ⟨s0, s1, u1, u2⟩ := hall z hz mu sd S hpr
  rw [Props.ei_eq _ _ _ JITTER_ACQ _ (by simp) hbest (by
    intro t ht
    obtain ⟨k, rfl⟩ := List.mem_ofFn.1 ht
    fin_cases k
    · exact add_pos s0 hjit
    · exact add_pos (hroot.trans_le s1) hjit)] at he
  simp only [Except.ok.injEq, List.ofFn_succ, List.ofFn_zero, List.zipWith_cons_cons,
    List.zipWith_nil_left, List.cons.injEq, and_true, Fin.succ_zero_eq_one] at he
  obtain ⟨rfl, rfl⟩ := he
  have key : (f (x i) - f z) * normCdf (-B) ≤
      B * √(2 * duplicateGap smax lmin) + Λ * 1e-8 + B * duplicateDeviation smax lmin +
      (√(1 / 100000 + duplicateDeviation smax lmin ^ 2) + JITTER_ACQ) * (√(2 * Real.pi))⁻¹ + δ := by
    linarith
  have := (le_div_iff₀ hP).2 key
  unfold runError
  linarith

/-- The error of C145 is at most that of C146. -/
theorem runError_ge {B Λ smax lmin δ : ℝ} (hB : 0 ≤ B) (hΛ : 0 ≤ Λ) :
    ((√(1 / 100000) + JITTER_ACQ) * (√(2 * Real.pi))⁻¹ + δ) / normCdf (-B) ≤
      runError B Λ smax lmin δ := by
  have hP := normCdf_pos (-B)
  unfold runError
  rw [div_le_div_iff_of_pos_right hP]
  have h1 : √(1 / 100000) ≤ √(1 / 100000 + duplicateDeviation smax lmin ^ 2) :=
    Real.sqrt_le_sqrt (by linarith [sq_nonneg (duplicateDeviation smax lmin)])
  have h2 := mul_le_mul_of_nonneg_right (add_le_add_left h1 JITTER_ACQ)
    (show 0 ≤ (√(2 * Real.pi))⁻¹ by positivity)
  have h3 := mul_nonneg hB (Real.sqrt_nonneg (2 * duplicateGap smax lmin))
  have h4 := mul_nonneg hB (Real.sqrt_nonneg ((1 / 100) ^ 2 + 1 / 100000 + 2 * duplicateGap smax lmin))
  have h5 : 0 ≤ Λ * 1e-8 := by positivity
  change 0 ≤ B * duplicateDeviation smax lmin at h4
  linarith

/-! ### Fits -/

/-- The fit of a minimiser that keeps to `H`. -/
theorem fit_in {H : Set (ℝ × (Fin d → ℝ))} (hH : ∀ p ∈ H, ∀ k, p.2 k ≠ 0) {ard : Bool}
    {mn : Minimize} (hmn : FitsIn H ard mn) {name : String} (hb : name ∈ baseNames)
    {X : Fin n → Point d} {Y : Fin n → ℝ} {prior : PriorMu d} {method ms : String}
    {K P : Matrix (Fin n) (Fin n) ℝ} {h : HypDict}
    (hf : getOptimizedKernel mn (.vec X) Y prior name method ms ard true = .ok (K, P, h)) :
    ∃ s, ∃ l : Fin d → ℝ, (s, l) ∈ H ∧ Describes h (1 / 100) s l ∧
      K = noisyGram name (1 / 100) s l (.vec X) ∧ P = (noisyGram name (1 / 100) s l (.vec X))⁻¹ := by
  obtain ⟨μ, h0, v0, mt, bounds, jac, v, w, ug, -, -, -, -, h4, h5, h6⟩ := gpFit_trace hf
  obtain ⟨s, l, hsl, hv⟩ := hmn _ _ _ _ _ _ h4
  have hg : GP_NOISE = 1 / 100 := by norm_num [GP_NOISE]
  have hd : Describes h (1 / 100) s l := by
    rw [← hg]
    rcases hv with ⟨rfl, rfl⟩ | ⟨rfl, a, ha, rfl⟩
    · have := Props.restore_vec hb true GP_NOISE s (List.ofFn l)
      simp only [Props.hypVector, if_true, List.nil_append, List.map_cons, List.map_ofFn] at this
      have e : (Flt.fin ∘ l) = fun k => Flt.fin (l k) := rfl
      rw [e] at this
      have := (Except.ok.inj (h5.symm.trans this))
      subst this
      exact ⟨rfl, rfl, .inl rfl, hH _ hsl⟩
    · have := Props.restore_vec_iso hb true GP_NOISE s a
      simp only [Props.hypVector, if_true, List.nil_append, List.map_cons, List.map_nil] at this
      have := (Except.ok.inj (h5.symm.trans this))
      subst this
      obtain ⟨_, _, _, hd'⟩ := getKernelInverse_describes h6
      have ha0 : a ≠ 0 := by
        rcases hd'.lengthscales with h | ⟨b, hb0, -, h⟩
        · simp at h
        · simp only [Option.some.injEq, HVal.flt.injEq, Flt.fin.injEq] at h
          rwa [h]
      exact ⟨rfl, rfl, .inr ⟨a, ha0, ha, rfl⟩, hH _ hsl⟩
  have h7 := getKernelInverse_ok (vec_suits hb X) hd true
  rw [h6] at h7
  simp only [Except.ok.injEq, Prod.mk.injEq] at h7
  exact ⟨s, l, hsl, hd, h7.1, h7.2.1⟩

/-- Outside the mode 'converged' a fit is one of `get_optimized_kernel`. -/
theorem fitSurrogate_from {bo : BoWGp.BOwGP d} {o : Oracles d} {X : Inputs n d} {Y : Fin n → ℝ}
    {mlm : String} (hmlm : mlm ≠ "converged") {st r : BoWGp.GpState × ℕ} {fit : Fit n}
    (h : BoWGp.fitSurrogate bo o X Y mlm st = (r, .ok (some fit))) :
    ∃ method, getOptimizedKernel o.fitHyps X Y bo.prior_mu bo.str_cov method
      bo.str_modelselection_method bo.use_ard true = .ok fit := by
  unfold BoWGp.fitSurrogate at h
  split at h
  · obtain ⟨f, s1, a, h'⟩ := OptM.bind_ok h
    obtain ⟨a1, -⟩ := lift_ok a
    have : f = fit := Option.some.inj (Except.ok.inj (Prod.mk.inj h').2)
    subst this
    exact ⟨_, a1⟩
  split at h
  · obtain ⟨μ, s1, a, h'⟩ := OptM.bind_ok h
    clear h a
    obtain ⟨h, -⟩ := lift_ok h'
    clear h'
    unfold BoWGp.combinedFit at h
    simp only [List.foldlM_cons, List.foldlM_nil] at h
    obtain ⟨best, k1, he⟩ := py_bind_ok h
    obtain ⟨b1, h1, k2⟩ := py_bind_ok k1
    obtain ⟨b2, h2, k3⟩ := py_bind_ok k2
    obtain rfl := Except.ok.inj k3
    obtain ⟨f1, g1, h1⟩ := py_bind_ok h1
    obtain ⟨y1, -, h1⟩ := py_bind_ok h1
    obtain ⟨f2, g2, h2⟩ := py_bind_ok h2
    obtain ⟨y2, -, h2⟩ := py_bind_ok h2
    have he := Except.ok.inj he
    split at h2
    · obtain rfl := Except.ok.inj h2
      obtain rfl := Option.some.inj he
      exact ⟨_, g2⟩
    · obtain rfl := Except.ok.inj h2
      split at h1
      · obtain rfl := Except.ok.inj h1
        obtain rfl := Option.some.inj he
        exact ⟨_, g1⟩
      · obtain rfl := Except.ok.inj h1
        cases he
  · obtain ⟨h', -⟩ := lift_ok h
    cases h'

/-! ### Candidates -/

theorem acq_candidates {bo : BaseBo.BaseBO d} {o : Oracles d} {f : Point d → Py Flt}
    {sm : String} {ns : ℤ} {p : Point d} {pts : List (Point d)}
    (h : optimizeAcq bo o f sm ns = .ok (p, pts)) :
    candidates bo o f sm ns = .ok pts ∧ pts ≠ [] := by
  unfold optimizeAcq at h
  obtain ⟨pts', h1, h⟩ := py_bind_ok h
  obtain ⟨_, h2, h⟩ := py_bind_ok h
  obtain ⟨_, -, h⟩ := py_bind_ok h
  obtain ⟨_, -, h⟩ := py_bind_ok h
  obtain ⟨-, rfl⟩ := Prod.mk.inj (Except.ok.inj h)
  exact ⟨h1, pyAssert_ok h2⟩

theorem mapM_of_mem {α β : Type} {g : α → Py β} : ∀ {l : List α} {r : List β},
    l.mapM g = .ok r → ∀ a ∈ l, ∃ b ∈ r, g a = .ok b
  | [], _, _, a, ha => by simp at ha
  | x :: t, r, h, a, ha => by
    rw [List.mapM_cons] at h
    obtain ⟨b, h1, h⟩ := py_bind_ok h
    obtain ⟨s, h2, h⟩ := py_bind_ok h
    obtain rfl := Except.ok.inj h
    rcases List.mem_cons.1 ha with rfl | ha
    · exact ⟨b, by simp, h1⟩
    · obtain ⟨c, hc, hc'⟩ := mapM_of_mem h2 a ha
      exact ⟨c, by simp [hc], hc'⟩

/-- Global optimisers: one of the candidates is low. -/
theorem candidates_low {bo : BaseBo.BaseBO d} {o : Oracles d} {sm : String} {ns : ℤ} {δ : ℝ}
    (ho : FindsLow o bo.range_X sm ns δ) {f : Point d → Py Flt} {g : Point d → ℝ}
    (hg : Continuous g) (hfg : ∀ q, f q = .ok (.fin (g q))) {pts : List (Point d)}
    (h : candidates bo o f sm ns = .ok pts) (hne : pts ≠ []) :
    ∃ q ∈ pts, LowWithin bo.range_X δ g q := by
  unfold candidates at h
  split at h
  · obtain ⟨starts, h1, h⟩ := py_bind_ok h
    obtain ⟨x0, hx0, hq⟩ := ho.lbfgsb f g hg hfg starts h1
    obtain ⟨q, hq1, hq2⟩ := mapM_of_mem h x0 hx0
    exact ⟨q, hq1, hq q hq2⟩
  split at h
  · obtain ⟨q, h1, h⟩ := py_bind_ok h
    obtain rfl := Except.ok.inj h
    exact ⟨q, by simp, ho.direct f g hg hfg q h1⟩
  split at h
  · obtain ⟨_, -, h⟩ := py_bind_ok h
    simp only at h
    split at h
    · obtain ⟨_, h1, -⟩ := py_bind_ok h
      cases h1
    obtain ⟨_, -, h⟩ := py_bind_ok h
    obtain ⟨q, h1, h⟩ := py_bind_ok h
    obtain rfl := Except.ok.inj h
    exact ⟨q, by simp, ho.cma f g hg hfg _ _ q h1⟩
  · obtain rfl := Except.ok.inj h
    exact absurd rfl hne

theorem mapM_from {α β : Type} {g : α → Py β} : ∀ {l : List α} {r : List β},
    l.mapM g = .ok r → ∀ b ∈ r, ∃ a ∈ l, g a = .ok b
  | [], _, h, b, hb => by
    obtain rfl := Except.ok.inj h
    simp at hb
  | x :: t, r, h, b, hb => by
    rw [List.mapM_cons] at h
    obtain ⟨c, h1, h⟩ := py_bind_ok h
    obtain ⟨s, h2, h⟩ := py_bind_ok h
    obtain rfl := Except.ok.inj h
    rcases List.mem_cons.1 hb with rfl | hb
    · exact ⟨x, by simp, h1⟩
    · obtain ⟨a, ha, ha'⟩ := mapM_from h2 b hb
      exact ⟨a, by simp [ha], ha'⟩

/-- Perfect optimisers: all of the candidates are low. -/
theorem candidates_lowest {bo : BaseBo.BaseBO d} {o : Oracles d} {sm : String} {ns : ℤ}
    (ho : FindsLowest o bo.range_X) {f : Point d → Py Flt} {g : Point d → ℝ}
    (hg : Continuous g) (hfg : ∀ q, f q = .ok (.fin (g q))) {pts : List (Point d)}
    (h : candidates bo o f sm ns = .ok pts) : ∀ q ∈ pts, LowWithin bo.range_X 0 g q := by
  unfold candidates at h
  split at h
  · obtain ⟨starts, -, h⟩ := py_bind_ok h
    intro q hq
    obtain ⟨x0, -, hx⟩ := mapM_from h q hq
    exact ho.lbfgsb f g hg hfg x0 q hx
  split at h
  · obtain ⟨q, h1, h⟩ := py_bind_ok h
    obtain rfl := Except.ok.inj h
    intro q' hq'
    obtain rfl := List.mem_singleton.1 hq'
    exact ho.direct f g hg hfg _ h1
  split at h
  · obtain ⟨_, -, h⟩ := py_bind_ok h
    simp only at h
    split at h
    · obtain ⟨_, h1, -⟩ := py_bind_ok h
      cases h1
    obtain ⟨_, -, h⟩ := py_bind_ok h
    obtain ⟨q, h1, h⟩ := py_bind_ok h
    obtain rfl := Except.ok.inj h
    intro q' hq'
    obtain rfl := List.mem_singleton.1 hq'
    exact ho.cma f g hg hfg _ _ _ h1
  · obtain rfl := Except.ok.inj h
    intro q hq
    simp at hq

/-! ### Steps -/

/-- What a step of a Gaussian process minimises: a continuous function, minus ten times the score by
the acquisition function. -/
theorem gp_scores {bo : BoWGp.BOwGP d} (hcov : bo.str_cov ∈ baseNames)
    (hacq : bo.str_acq ∈ ALLOWED_BO_ACQ) {m : Point d → ℝ} (hm : PriorFunction bo.prior_mu m)
    (hmc : Continuous m) {H : Set (ℝ × (Fin d → ℝ))} (hH : ∀ p ∈ H, ∀ k, p.2 k ≠ 0) {o : Oracles d}
    (hfit : FitsIn H bo.use_ard o.fitHyps) {sm : String} {ns : ℤ} {clock : ℕ → ℝ} (hn : n ≠ 0)
    {X : Fin n → Point d} {Y : List ℝ} {mlm : String}
    {st r : BoWGp.GpState × ℕ} (hst : mlm = "converged" → FitsFrom H st.1) {p : Point d}
    {info : DictInfo n d}
    (h : BoWGp.optimize bo o clock (.vec X) Y sm ns mlm st = (r, .ok (p, info))) :
    InBox bo.range_X p ∧
    ∃ (Yt : Fin n → ℝ) (hy : HypDict) (s : ℝ) (l : Fin d → ℝ),
      (if bo.normalize_Y = true ∧ mlm ≠ "converged" then UtilsBo.normalizeMinMax Y else .ok Y) =
        .ok (List.ofFn Yt) ∧
      (s, l) ∈ H ∧ Describes hy (1 / 100) s l ∧
      r.1.historical_hyps = st.1.historical_hyps ++ [some hy] ∧
      ∃ fa, UtilsBo.chooseFunAcquisition bo.str_acq (some (1 / 100)) = .ok fa ∧
      ∃ (f : Point d → Py Flt) (g : Point d → ℝ), Continuous g ∧ (∀ q, f q = .ok (.fin (g q))) ∧
        candidates bo.toBaseBO o f sm ns = .ok info.next_points ∧ p ∈ info.next_points ∧
        (∀ q ∈ info.next_points, g p ≤ g q) ∧
        ∀ q z, ∃ mu sd S v v', predictWithHyps (.vec X) Yt (.vec ![q, z]) hy
          bo.str_cov bo.prior_mu = .ok (mu, sd, S) ∧
          fa (List.ofFn mu) (List.ofFn sd) (List.ofFn Yt) = .ok [v, v'] ∧ g q = -(10 * v) ∧
          g z = -(10 * v') := by
  obtain ⟨st, t⟩ := st
  obtain ⟨-, -, -, -, -, -, hnorm, Yt, st1, h2, h3, hr, h4, h5, -, h6, -⟩ := gp_optimize_ok h
  obtain ⟨-, hY⟩ := column_ok h2
  refine ⟨h5, ?_⟩
  cases hf : info.fit with
  | none => rw [hf] at h6; cases h6
  | some fit =>
  rw [hf] at h3 h4
  have hst1 : st1.historical_hyps = st.historical_hyps := by
    rcases fitSurrogate_cases bo o (.vec X) Yt mlm st (t + 2) with ⟨e, h⟩ | ⟨-, -, _, _, -, -, h⟩ |
      ⟨-, -, _, _, _, _, -, -, h⟩ | ⟨-, _, h⟩ <;> rw [h3] at h
    · cases (Prod.mk.inj h).2
    · rw [(Prod.mk.inj (Prod.mk.inj h).1).1]
    · rw [(Prod.mk.inj (Prod.mk.inj h).1).1]
    · rw [(Prod.mk.inj (Prod.mk.inj h).1).1]
  obtain ⟨K, P, hy⟩ := fit
  obtain ⟨s, l, hsl, hd, hK, hP⟩ : ∃ s, ∃ l : Fin d → ℝ, (s, l) ∈ H ∧ Describes hy (1 / 100) s l ∧
      K = noisyGram bo.str_cov (1 / 100) s l (.vec X) ∧
      P = (noisyGram bo.str_cov (1 / 100) s l (.vec X))⁻¹ := by
    rcases fitSurrogate_cases bo o (.vec X) Yt mlm st (t + 2) with ⟨e, h⟩ | ⟨-, -, fit, _, hk, -, h⟩ |
      ⟨hc, hopt, hy', K', P', w, hlast, hinv, h⟩ | ⟨hmlm, -⟩
    · rw [h3] at h
      cases (Prod.mk.inj h).2
    · rw [h3] at h
      obtain rfl := Option.some.inj (Except.ok.inj (Prod.mk.inj h).2)
      exact fit_in hH hfit hcov hk
    · rw [h3] at h
      obtain ⟨rfl, rfl, rfl⟩ : K = K' ∧ P = P' ∧ hy = hy' := by
        simpa using Option.some.inj (Except.ok.inj (Prod.mk.inj h).2)
      rcases hst hc with h' | ⟨hy', s, l, h', hsl, hd⟩
      · rw [hopt] at h'
        cases h'
      rw [hlast] at h'
      obtain rfl := Option.some.inj (Option.some.inj h')
      rw [getKernelInverse_ok (vec_suits hcov X) hd] at hinv
      obtain ⟨rfl, rfl, -⟩ : noisyGram bo.str_cov (1 / 100) s l (.vec X) = K ∧
          (noisyGram bo.str_cov (1 / 100) s l (.vec X))⁻¹ = P ∧ none = w := by
        simpa using Except.ok.inj hinv
      exact ⟨s, l, hsl, hd, rfl, rfl⟩
    · obtain ⟨method, hk⟩ := fitSurrogate_from hmlm h3
      exact fit_in hH hfit hcov hk
  have hYne : List.ofFn Yt ≠ [] := by simpa [List.ofFn_eq_nil_iff] using hn
  obtain ⟨a, hc, -, fa, hfa, hv⟩ := objective_of_post hacq (e := 1 / 100) (fun _ => by norm_num) hYne
    (m := meanAt bo.str_cov s l X P (fun i => Yt i - m (X i)) m)
    (s := fun x => √(max (varAt bo.str_cov s l X P x) 0)) (fun x => Real.sqrt_nonneg _)
  have hca : Continuous a := hc (continuous_meanAt _ _ _ _ _ _ hmc)
    (Real.continuous_sqrt.comp ((continuous_varAt ..).max continuous_const))
  have hpred : ∀ pts : List (Point d), ∃ S,
      predictWithCov (.vec X) Yt (.vec pts.get) K P hy bo.str_cov bo.prior_mu =
        .ok (fun j => meanAt bo.str_cov s l X P (fun i => Yt i - m (X i)) m (pts.get j),
          fun j => √(max (varAt bo.str_cov s l X P (pts.get j)) 0), S) := fun pts =>
    let ⟨S, _, hS⟩ := predictWithCov_at hcov X Yt pts.get K P hd hm
    ⟨S, hS⟩
  have hobj : ∀ q, onePoint (BoWGp.negAcquisition bo (.vec X) Yt (some (K, P, hy))) q =
      .ok (.fin (-a q)) := by
    intro q
    obtain ⟨S, hS⟩ := hpred [q]
    obtain ⟨v, e1, e2⟩ := hv [q]
    have hm := ofFn_get_map (meanAt bo.str_cov s l X P (fun i => Yt i - m (X i)) m) [q]
    have hsd := ofFn_get_map (fun x => √(max (varAt bo.str_cov s l X P x) 0)) [q]
    simp only [onePoint, BoWGp.negAcquisition, BoWGp.computeAcquisitions, BoWGp.computePosteriors,
      Gp.validateCommonArgs, noiseArg_describes hd, hfa, hS, hm, hsd, e1, e2, bind, Except.bind, pure,
      Except.pure, pyIndex]
    simp
  obtain ⟨hcand, -⟩ := acq_candidates h4
  obtain ⟨G, hG, k, hbest⟩ := optimizeAcq_ok h4
  have hbest' := firstLowest_of_firstBest (v := fun q => -a q)
    (fun q hq => (Except.ok.inj ((hG q hq).symm.trans (hobj q)))) hbest
  refine ⟨Yt, hy, s, l, ?_, hsl, hd, by rw [hr, hf, ← hst1]; rfl, fa, hfa, _, fun q => -a q, hca.neg,
    hobj, hcand, List.mem_of_getElem? hbest'.1, hbest'.2.1, fun p z => ?_⟩
  · rw [hY, ← hnorm]
  obtain ⟨S, hS⟩ := hpred [p, z]
  obtain ⟨v, e1, e2⟩ := hv [p, z]
  have hm' := ofFn_get_map (meanAt bo.str_cov s l X P (fun i => Yt i - m (X i)) m) [p, z]
  have hsd := ofFn_get_map (fun x => √(max (varAt bo.str_cov s l X P x) 0)) [p, z]
  have hget : ([p, z] : List (Point d)).get = ![p, z] := by
    funext i
    fin_cases i <;> rfl
  have hhy : predictWithHyps (.vec X) Yt (.vec ![p, z]) hy bo.str_cov bo.prior_mu =
      predictWithCov (.vec X) Yt (.vec ([p, z] : List (Point d)).get) K P hy bo.str_cov bo.prior_mu := by
    rw [hK, hP, hget]
    simp only [predictWithHyps, validateCommonArgs_suits (vec_suits hcov X) (vec_suits hcov ![p, z]),
      checkStrCov_suits2 (vec_suits hcov X) (vec_suits hcov ![p, z]),
      getKernelInverse_ok (vec_suits hcov X) hd, bind, Except.bind]
  obtain ⟨v1, v2, rfl⟩ : ∃ v1 v2, v = [v1, v2] := by
    have := congrArg List.length e2
    simp only [List.length_map, List.length_cons, List.length_nil] at this
    exact List.length_eq_two.1 this
  simp only [List.map_cons, List.map_nil, List.cons.injEq, and_true] at e2
  have h10 : MULTIPLIER_ACQ = 10 := by norm_num [MULTIPLIER_ACQ]
  rw [h10] at e2
  refine ⟨_, _, S, v1, v2, hhy.trans hS, ?_, by linarith [e2.1], by linarith [e2.2]⟩
  rw [← e1, ← hm', ← hsd]

/-- A statement about the rows of a list is one about the points it was made of. -/
theorem rows_of_ofFn {α : Type} (P : (n : ℕ) → (Fin n → α) → Prop) {L : List α} (h : P L.length L.get)
    {x : Fin n → α} (hL : L = List.ofFn x) : P n x := by
  have e : (⟨L.length, L.get⟩ : Σ n, Fin n → α) = ⟨n, x⟩ := by
    subst hL
    exact List.equivSigmaTuple.right_inv ⟨n, x⟩
  have : (fun q : Σ n, Fin n → α => P q.1 q.2) ⟨L.length, L.get⟩ := h
  rw [e] at this
  exact this

/-- Lists that grow by one entry at a time keep what they have. -/
theorem grows {α : Type} {g : ℕ → List α} {T : ℕ} (h : ∀ i < T, ∃ e, g (i + 1) = g i ++ [e]) :
    ∀ i ≤ T, (g T).take ((g 0).length + i) = g i := by
  have hlen : ∀ i ≤ T, (g i).length = (g 0).length + i := by
    intro i
    induction i with
    | zero => simp
    | succ i ih =>
      intro hi
      obtain ⟨e, he⟩ := h i hi
      rw [he, List.length_append, ih (by omega), List.length_singleton]
      omega
  have key : ∀ j i, i + j ≤ T → (g (i + j)).take ((g 0).length + i) = g i := by
    intro j
    induction j with
    | zero =>
      intro i hi
      rw [← hlen i (by omega)]
      exact List.take_length
    | succ j ih =>
      intro i hi
      obtain ⟨e, he⟩ := h (i + j) (by omega)
      rw [← add_assoc, he, List.take_append_of_le_length (by rw [hlen (i + j) (by omega)]; omega)]
      exact ih i (by omega)
  intro i hi
  obtain ⟨j, rfl⟩ := Nat.exists_eq_add_of_le hi
  exact key j i le_rfl

theorem grows_get {α : Type} {g : ℕ → List α} {T : ℕ} (h : ∀ i < T, ∃ e, g (i + 1) = g i ++ [e]) :
    ∀ i < T, ∀ e, g (i + 1) = g i ++ [e] → (g T)[(g 0).length + i]? = some e := by
  intro i hi e he
  have h1 := grows h i hi.le
  have h2 := grows h (i + 1) hi
  have hlen : (g (i + 1)).length ≤ (g T).length := by
    rw [← h2]
    simp
  have h3 : (g 0).length + i < (g T).length ∧ (g i).length = (g 0).length + i := by
    have e1 := congrArg List.length h1
    have e2 := congrArg List.length h2
    rw [he] at e2 hlen
    simp only [List.length_take, List.length_append, List.length_singleton] at e1 e2 hlen
    omega
  have h4 : ((g T).take ((g 0).length + (i + 1)))[(g 0).length + i]? = some e := by
    rw [h2, he, ← h3.2]
    simp
  rwa [List.getElem?_take_of_lt (by omega)] at h4

/-- The units of `inUnits` for responses. -/
theorem inUnits_eq {b : Bool} {v t : Fin n → ℝ} {lo hi : ℝ} (h1 : IsLeast (Set.range v) lo)
    (h2 : IsGreatest (Set.range v) hi)
    (h : (if b = true then UtilsBo.normalizeMinMax (List.ofFn v) else .ok (List.ofFn v)) =
      .ok (List.ofFn t)) (i : Fin n) : t i = inUnits b lo hi (v i) := by
  unfold inUnits
  split_ifs at h ⊢
  · exact normalized_eq h1 h2 h i
  · exact (congrFun (List.ofFn_injective (Except.ok.inj h)) i).symm

theorem inUnits_le {b : Bool} {lo hi u v c w : ℝ} (hlo : lo ≤ hi) (hw : hi - lo ≤ w) (hc : 0 ≤ c)
    (h : inUnits b lo hi u ≤ inUnits b lo hi v + c) : u ≤ v + max 1 (w / 10) * c := by
  unfold inUnits at h
  split_ifs at h
  · exact minMaxImage_le hlo hw hc h
  · have := mul_le_mul_of_nonneg_right (le_max_left 1 (w / 10)) hc
    linarith

theorem runError_nonneg {B Λ smax lmin δ : ℝ} (hB : 0 ≤ B) (hΛ : 0 ≤ Λ) (hδ : 0 ≤ δ) :
    0 ≤ runError B Λ smax lmin δ := by
  have hP := normCdf_pos (-B)
  have hj : (0 : ℝ) < JITTER_ACQ := by norm_num [JITTER_ACQ]
  refine le_trans ?_ (runError_ge hB hΛ)
  positivity

end Verif.Lemmas
