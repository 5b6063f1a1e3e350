import Verif.Lemmas.WorstCase
import Verif.Props.Exploration

/-! # Functions of bounded norm: errors of the mean and convergence of the choices (C123 to C125) -/

namespace Verif.Props

open Verif.Spec Verif.Covariance Verif.UtilsCovariance Verif.Lemmas Verif.Acquisition
  Verif.Constants
open Matrix hiding gram

/-- C123: a combination of kernel functions has exactly the norm of its coefficients. -/
theorem C123_norm {d k : ℕ} (base : String) (s : ℝ) (l : Fin d → ℝ) (y : Fin k → Point d)
    (a : Fin k → ℝ) (B : ℝ) :
    NormAtMost base s l B (fun z => ∑ j, a j * kernel base s l (y j) z) ↔
      √(∑ i, ∑ j, a i * kernel base s l (y i) (y j) * a j) ≤ B := by
  have h := normAtMost_expansion (base := base) (s := s) (l := l) y a
  constructor
  · intro hB
    have h1 := hB.2 k y a
    have hA : 0 ≤ ∑ i, ∑ j, a i * kernel base s l (y i) (y j) * a j := by
      have := (gram_posSemidef base s l (.vec y)).dotProduct_mulVec_nonneg a
      simpa only [star_trivial, dotProduct, mulVec, gram, item, itemKernel_one, Matrix.of_apply,
        Finset.mul_sum, mul_assoc] using this
    have e : ∑ i, a i * ∑ j, a j * kernel base s l (y j) (y i) =
        ∑ i, ∑ j, a i * kernel base s l (y i) (y j) * a j := by
      refine Finset.sum_congr rfl fun i _ => ?_
      rw [Finset.mul_sum]
      refine Finset.sum_congr rfl fun j _ => ?_
      rw [kernel_symm]
      ring
    rw [e, abs_of_nonneg hA] at h1
    rcases hA.eq_or_lt with h0 | h0
    · rw [← h0, Real.sqrt_zero]
      exact hB.1
    · have hs := Real.sqrt_pos.2 h0
      have h2 := Real.mul_self_sqrt hA
      nlinarith
  · intro hB
    refine ⟨(Real.sqrt_nonneg _).trans hB, fun n z c => (h.2 n z c).trans ?_⟩
    exact mul_le_mul_of_nonneg_right hB (Real.sqrt_nonneg _)

/-- C123: how far the predicted mean is from the function at most. The function differs from the
prior mean by a function of norm at most `B`, and the responses from the function by any errors. -/
theorem C123_error {n k d : ℕ} {base : String} (hb : base ∈ baseNames) {h : HypDict} {σ s : ℝ}
    {l : Fin d → ℝ} (hd : Describes h σ s l) {prior : Gp.PriorMu d} {m : Point d → ℝ}
    (hm : PriorFunction prior m) {f : Point d → ℝ} {B : ℝ}
    (hf : NormAtMost base s l B fun z => f z - m z) {x : Fin n → Point d} {Y : Fin n → ℝ}
    {p : Fin k → Point d} {mu sd S}
    (hp : Gp.predictWithHyps (.vec x) Y (.vec p) h base prior = .ok (mu, sd, S)) (i : Fin k) :
    |f (p i) - mu i| ≤ √(B ^ 2 + (∑ j, (Y j - f (x j)) ^ 2) / (σ ^ 2 + 1 / 100000)) *
      √(sd i ^ 2 - 1 / 100000) :=
  predicted_error hb hd hm hf hp i

/-- C123: the bound is attained, at every point, with every data inputs and every budget `R` for norm
and errors together. -/
theorem C123_sharp {n d : ℕ} {base : String} (hb : base ∈ baseNames) {h : HypDict} {σ s : ℝ}
    {l : Fin d → ℝ} (hd : Describes h σ s l) (x : Fin n → Point d) (z : Point d) {R : ℝ}
    (hR : 0 ≤ R) :
    ∃ (f : Point d → ℝ) (Y : Fin n → ℝ) (B : ℝ) (mu sd : Fin 1 → ℝ) (S : Matrix (Fin 1) (Fin 1) ℝ),
      NormAtMost base s l B f ∧
      B ^ 2 + (∑ j, (Y j - f (x j)) ^ 2) / (σ ^ 2 + 1 / 100000) = R ^ 2 ∧
      Gp.predictWithHyps (.vec x) Y (.vec fun _ : Fin 1 => z) h base none = .ok (mu, sd, S) ∧
      f z - mu 0 = R * √(sd 0 ^ 2 - 1 / 100000) := by
  have hτ : (0 : ℝ) < σ ^ 2 + 1 / 100000 := by positivity
  have hv : ∀ {n : ℕ} (v : Fin n → Point d), Suits base base (.vec v) :=
    fun v => ⟨hb, .inl ⟨rfl, _, rfl⟩⟩
  have hm : PriorFunction (none : Gp.PriorMu d) fun _ => 0 := fun n X => rfl
  set V := postCov base σ s l (.vec x) (.vec fun _ : Fin 1 => z) 0 0 - 1 / 100000 with hV
  have hV0 : 0 ≤ V := by
    have := postCov_diag_ge base σ s l (.vec x) (.vec fun _ : Fin 1 => z) 0
    linarith
  set w := weights base σ s l x z with hw
  have hgap := gap_weights (base := base) (σ := σ) (s := s) (l := l) x z
  rw [← hw, ← hV] at hgap
  rcases hV0.eq_or_lt with h0 | hpos
  · refine ⟨fun _ => 0, fun _ => 0, R, _, _, _, ⟨hR, fun n z c => ?_⟩, by simp,
      predictWithHyps_ok (hv x) (hv _) hd _ (μ := 0) (μs := 0) rfl rfl, ?_⟩
    · simp only [mul_zero, Finset.sum_const_zero, abs_zero]
      exact mul_nonneg hR (Real.sqrt_nonneg _)
    · have hp := predictWithHyps_ok (hv x) (hv fun _ : Fin 1 => z) hd (fun _ => 0)
        (prior := none) (μ := 0) (μs := 0) rfl rfl
      rw [predicted_mean hb hd hm hp 0, (predicted_sq hb hd (PriorFunction.total hm) hp 0).2, ← hV,
        ← h0]
      simp
  -- the extremal function and errors
  set t := R / √V with ht
  have hsV := Real.sqrt_pos.2 hpos
  have hVV := Real.sq_sqrt hV0
  let f : Point d → ℝ := fun u => t * (kernel base s l z u - ∑ i, w i * kernel base s l (x i) u)
  let Y : Fin n → ℝ := fun i => f (x i) - t * (σ ^ 2 + 1 / 100000) * w i
  have ht0 : 0 ≤ t := div_nonneg hR hsV.le
  have hgn := gapSq_nonneg (base := base) (s := s) (l := l) x z w
  have hp := predictWithHyps_ok (hv x) (hv fun _ : Fin 1 => z) hd Y (prior := none) (μ := 0)
    (μs := 0) rfl rfl
  have hfz : ∀ u, f u = t * (kernel base s l z u - ∑ i, w i * kernel base s l (x i) u) := fun u => rfl
  refine ⟨f, Y, t * √(gapSq base s l x z w), _, _, _, ?_, ?_, hp, ?_⟩
  · have h1 := normAtMost_expansion (base := base) (s := s) (l := l)
      (Fin.cons z x : Fin (n + 1) → Point d) (Fin.cons 1 fun i => -w i)
    rw [form_cons] at h1
    refine ⟨by positivity, fun n' z' c => ?_⟩
    have h2 := mul_le_mul_of_nonneg_left (h1.2 n' z' c) ht0
    rw [← abs_of_nonneg ht0, ← abs_mul, abs_of_nonneg ht0, ← mul_assoc] at h2
    refine le_trans (le_of_eq ?_) h2
    congr 1
    rw [Finset.mul_sum]
    refine Finset.sum_congr rfl fun i _ => ?_
    rw [hfz]
    simp only [Fin.sum_univ_succ, Fin.cons_zero, Fin.cons_succ, one_mul, neg_mul,
      Finset.sum_neg_distrib]
    ring
  · have e1 : ∑ j, (Y j - f (x j)) ^ 2 = t ^ 2 * (σ ^ 2 + 1 / 100000) ^ 2 * ∑ j, w j ^ 2 := by
      rw [Finset.mul_sum]
      refine Finset.sum_congr rfl fun j _ => ?_
      simp only [Y]
      ring
    rw [e1, mul_pow, Real.sq_sqrt hgn]
    have e2 : t ^ 2 * (σ ^ 2 + 1 / 100000) ^ 2 * (∑ j, w j ^ 2) / (σ ^ 2 + 1 / 100000) =
        t ^ 2 * ((σ ^ 2 + 1 / 100000) * ∑ j, w j ^ 2) := by
      field_simp
    rw [e2, ← mul_add, hgap, ht, div_pow, hVV]
    field_simp
  · rw [predicted_mean hb hd hm hp 0, (predicted_sq hb hd (PriorFunction.total hm) hp 0).2, ← hw, ← hV]
    have e1 : ∑ j, w j * (Y j - 0) = t * (∑ i, w i * kernel base s l (x i) z -
        ∑ i, ∑ j, w i * kernel base s l (x i) (x j) * w j -
        (σ ^ 2 + 1 / 100000) * ∑ j, w j ^ 2) := by
      simp only [Y, hfz, sub_zero]
      have a1 : ∀ j, w j * (t * (kernel base s l z (x j) - ∑ i, w i * kernel base s l (x i) (x j)) -
          t * (σ ^ 2 + 1 / 100000) * w j) = t * (w j * kernel base s l (x j) z) -
          t * (∑ i, w j * kernel base s l (x j) (x i) * w i) -
          t * ((σ ^ 2 + 1 / 100000) * w j ^ 2) := by
        intro j
        rw [kernel_symm base s l z (x j)]
        have : ∑ i, w j * kernel base s l (x j) (x i) * w i =
            w j * ∑ i, w i * kernel base s l (x i) (x j) := by
          rw [Finset.mul_sum]
          refine Finset.sum_congr rfl fun i _ => ?_
          rw [kernel_symm base s l (x i) (x j)]
          ring
        rw [this]
        ring
      rw [Finset.sum_congr rfl fun j _ => a1 j]
      simp only [Finset.sum_sub_distrib, ← Finset.mul_sum]
      ring
    have e2 : f z - (0 + ∑ j, w j * (Y j - 0)) = t * V := by
      rw [e1, hfz, ← hgap, gapSq]
      ring
    have e3 : t * V = R * √V := by
      rw [ht, div_mul_eq_mul_div, div_eq_iff hsV.ne', mul_assoc, Real.mul_self_sqrt hV0]
    exact e2.trans e3

/-- C124: pure exploration learns the function. There is a number of choices, depending on the
region, the kernel, the bound `R` for norm and errors, and `η > 0` alone, after which the predicted
mean is within `η` of the function everywhere in the region. -/
theorem C124_explore {d : ℕ} {base : String} (hb : base ∈ baseNames) {h : HypDict} {σ s : ℝ}
    {l : Fin d → ℝ} (hd : Describes h σ s l) {C : Set (Point d)} (hC : Bornology.IsBounded C)
    {R : ℝ} (hR : 0 ≤ R) {η : ℝ} (hη : 0 < η) :
    ∃ M : ℕ, ∀ (prior : Gp.PriorMu d) (m f : Point d → ℝ) (B : ℝ) (x : ℕ → Point d) (Y : ℕ → ℝ)
      (n₀ : ℕ), PriorFunction prior m → NormAtMost base s l B (fun z => f z - m z) →
      (∀ n, n₀ ≤ n → n < n₀ + M → x n ∈ C ∧
        ChosenBy (fun _ sd _ => pureExplore sd) C x Y h base prior 0 n) →
      ∀ T ≥ n₀ + M,
        B ^ 2 + (∑ j : Fin T, (Y j - f (x j)) ^ 2) / (σ ^ 2 + 1 / 100000) ≤ R ^ 2 →
        ∀ z ∈ C, ∀ mu sd S, Gp.predictWithHyps (.vec fun i : Fin T => x i) (fun i => Y i)
          (.vec fun _ : Fin 1 => z) h base prior = .ok (mu, sd, S) → |f z - mu 0| ≤ η := by
  obtain ⟨M, hM⟩ := exists_small base σ s l hC (η := (η / (R + 1)) ^ 2) (by positivity) one_pos
  refine ⟨M, fun prior m f B x Y n₀ hm hf hx T hT hB z hz mu sd S hp => ?_⟩
  obtain ⟨n, hn1, hn2, -, hn3⟩ := hM x n₀ fun n hn hn' => (hx n hn hn').1
  have hnT : n ≤ T := by omega
  have hpr := PriorFunction.total hm
  have h1 := predicted_error hb hd hm hf hp 0
  rw [(predicted_sq hb hd hpr hp 0).2] at h1
  have hmono := postCov_mono (base := base) hb hd (x := fun i : Fin n => x i)
    (x' := fun i : Fin T => x i) (e := Fin.castLE hnT) (Fin.castLE_injective hnT) (fun i => rfl) z
  have hs := explored_step hb hd hpr (hx n hn1 hn2).2 hz
  rw [add_zero] at hs
  have hge := postCov_diag_ge base σ s l (.vec fun i : Fin n => x i) (.vec fun _ : Fin 1 => x n) 0
  have hs' := (Real.sqrt_le_sqrt_iff (by linarith)).1 hs
  refine h1.trans ?_
  have h2 : √(postCov base σ s l (.vec fun i : Fin T => x i) (.vec fun _ : Fin 1 => z) 0 0 -
      1 / 100000) ≤ η / (R + 1) := by
    rw [Real.sqrt_le_left (by positivity)]
    linarith
  have h3 : √(B ^ 2 + (∑ j : Fin T, (Y j - f (x j)) ^ 2) / (σ ^ 2 + 1 / 100000)) ≤ R := by
    rw [Real.sqrt_le_left hR]
    exact hB
  refine (mul_le_mul h3 h2 (Real.sqrt_nonneg _) hR).trans ?_
  rw [mul_div_assoc', div_le_iff₀ (by positivity)]
  nlinarith

/-- C124: the upper confidence bound finds the best value of the region. There is a number of
choices, depending on the region, the kernel, the weight and `η > 0` alone, among which, when the
weight is at least the bound for norm and errors and every choice scores at most `δ` less than any
point of the region, one has a value at most `δ`, the weight times the root of the jitter, and `η`
above the values everywhere in the region. -/
theorem C124_ucb {d : ℕ} {base : String} (hb : base ∈ baseNames) {h : HypDict} {σ s : ℝ}
    {l : Fin d → ℝ} (hd : Describes h σ s l) {C : Set (Point d)} (hC : Bornology.IsBounded C)
    {kappa : ℝ} (hk : 0 ≤ kappa) {η : ℝ} (hη : 0 < η) :
    ∃ M : ℕ, ∀ (prior : Gp.PriorMu d) (m f : Point d → ℝ) (B δ : ℝ) (x : ℕ → Point d) (Y : ℕ → ℝ)
      (n₀ : ℕ), PriorFunction prior m → NormAtMost base s l B (fun z => f z - m z) →
      (∀ n, n₀ ≤ n → n < n₀ + M → x n ∈ C ∧
        ChosenBy (fun mu sd Y => ucb mu sd (some Y) kappa false) C x Y h base prior δ n ∧
        B ^ 2 + (∑ j : Fin n, (Y j - f (x j)) ^ 2) / (σ ^ 2 + 1 / 100000) ≤ kappa ^ 2) →
      ∃ n, n₀ ≤ n ∧ n < n₀ + M ∧ ∀ z ∈ C, f (x n) ≤ f z + δ + kappa * √(1 / 100000) + η := by
  obtain ⟨M, hM⟩ := exists_small base σ s l hC (η := (η / (2 * kappa + 1)) ^ 2) (by positivity) one_pos
  refine ⟨M, fun prior m f B δ x Y n₀ hm hf hx => ?_⟩
  obtain ⟨n, hn1, hn2, -, hn3⟩ := hM x n₀ fun n hn hn' => (hx n hn hn').1
  refine ⟨n, hn1, hn2, fun z hz => ?_⟩
  obtain ⟨-, hch, hB⟩ := hx n hn1 hn2
  obtain ⟨mu, sd, S, v, v', hp, hu1, hu2⟩ := hch z hz
  have hpr := PriorFunction.total hm
  have hRk : √(B ^ 2 + (∑ j : Fin n, (Y j - f (x j)) ^ 2) / (σ ^ 2 + 1 / 100000)) ≤ kappa := by
    rw [Real.sqrt_le_left hk]
    exact hB
  have herr : ∀ i, |f ((![x n, z] : Fin 2 → Point d) i) - mu i| ≤ kappa * √(sd i ^ 2 - 1 / 100000) :=
    fun i => (predicted_error hb hd hm hf hp i).trans
      (mul_le_mul_of_nonneg_right hRk (Real.sqrt_nonneg _))
  have e0 := herr 0
  have e1 := herr 1
  simp only [Matrix.cons_val_zero, Matrix.cons_val_one] at e0 e1
  obtain ⟨h1, h2⟩ := predicted_sq hb hd hpr hp 0
  obtain ⟨h3, h4⟩ := predicted_sq hb hd hpr hp 1
  simp only [Matrix.cons_val_zero] at h2
  rw [← h2] at hn3
  simp only [ucb, pyAssert, List.length_ofFn, if_true, bind, Except.bind, pure, Except.pure,
    Except.ok.injEq, List.ofFn_succ, List.ofFn_zero, List.zipWith_cons_cons, List.zipWith_nil_left,
    List.cons.injEq, and_true] at hu1
  obtain ⟨rfl, rfl⟩ := hu1
  set t := η / (2 * kappa + 1) with ht
  have ht0 : 0 < t := by positivity
  have h5 : sd 0 ≤ √(1 / 100000) + t := by
    refine abs_le_of_sq_le_sq' ?_ (by positivity) |>.2
    rw [add_sq, Real.sq_sqrt (by norm_num)]
    have := mul_nonneg (mul_nonneg zero_le_two (Real.sqrt_nonneg (1 / 100000))) ht0.le
    linarith
  have h6 : √(sd 0 ^ 2 - 1 / 100000) ≤ t := by
    rw [Real.sqrt_le_left ht0.le]
    linarith
  have h7 : √(sd 1 ^ 2 - 1 / 100000) ≤ sd 1 := by
    rw [Real.sqrt_le_left h3.le]
    linarith
  have h8 : 2 * kappa * t ≤ η := by
    rw [ht, mul_div_assoc', div_le_iff₀ (by linarith)]
    nlinarith
  have a1 := mul_le_mul_of_nonneg_left h5 hk
  have a2 := mul_le_mul_of_nonneg_left h6 hk
  have a3 := mul_le_mul_of_nonneg_left h7 hk
  have b1 := (abs_le.1 e0).2
  have b2 := (abs_le.1 e1).1
  simp only [Fin.succ_zero_eq_one] at hu2
  linarith

/-- What one choice by expected improvement says when the deviation is small there and a response
nearby is known. -/
private theorem improve_step {d : ℕ} {base : String} (hb : base ∈ baseNames) {h : HypDict} {σ s : ℝ}
    {l : Fin d → ℝ} (hd : Describes h σ s l) {prior : Gp.PriorMu d} {m f : Point d → ℝ} {B θ : ℝ}
    (hm : PriorFunction prior m) (hf : NormAtMost base s l B (fun z => f z - m z)) (hθ : 0 ≤ θ)
    {x : ℕ → Point d} {n : ℕ} (hv : postCov base σ s l (.vec fun i : Fin n => x i)
      (.vec fun _ : Fin 1 => x n) 0 0 ≤ 1 / 100000 + θ ^ 2)
    {b : ℝ} (hb1 : b ≤ f (x n) + 2 * θ) {z : Point d} {mu sd S}
    (hp : Gp.predictWithHyps (.vec fun i : Fin n => x i) (fun i => f (x i)) (.vec ![x n, z]) h base
      prior = .ok (mu, sd, S)) :
    0 < sd 0 ∧ √(1 / 100000) ≤ sd 1 ∧
    (b - mu 0) * normCdf ((b - mu 0) / (sd 0 + JITTER_ACQ)) +
        sd 0 * normPdf ((b - mu 0) / (sd 0 + JITTER_ACQ)) ≤
      √(1 / 100000) * (√(2 * Real.pi))⁻¹ + (B + 3) * θ ∧
    (b - f z) * normCdf (-B) ≤ (b - mu 1) * normCdf ((b - mu 1) / (sd 1 + JITTER_ACQ)) +
        sd 1 * normPdf ((b - mu 1) / (sd 1 + JITTER_ACQ)) + JITTER_ACQ * (√(2 * Real.pi))⁻¹ := by
  have hpr := PriorFunction.total hm
  obtain ⟨h1, h2⟩ := predicted_sq hb hd hpr hp 0
  obtain ⟨h3, h4⟩ := predicted_sq hb hd hpr hp 1
  have e0 := predicted_error hb hd hm hf hp 0
  have e1 := predicted_error hb hd hm hf hp 1
  simp only [Matrix.cons_val_zero, Matrix.cons_val_one, sub_self, ne_eq, OfNat.ofNat_ne_zero,
    not_false_eq_true, zero_pow, Finset.sum_const_zero, zero_div, add_zero,
    Real.sqrt_sq hf.1] at h2 e0 e1 h4
  have hge := postCov_diag_ge base σ s l (.vec fun i : Fin n => x i) (.vec fun _ : Fin 1 => z) 0
  rw [← h4] at hge
  rw [← h2] at hv
  have h5 : sd 0 ≤ √(1 / 100000) + θ := by
    refine abs_le_of_sq_le_sq' ?_ (by positivity) |>.2
    rw [add_sq, Real.sq_sqrt (by norm_num)]
    have := mul_nonneg (mul_nonneg zero_le_two (Real.sqrt_nonneg (1 / 100000))) hθ
    linarith
  have h6 : √(sd 0 ^ 2 - 1 / 100000) ≤ θ := by
    rw [Real.sqrt_le_left hθ]
    linarith
  have h7 : √(sd 1 ^ 2 - 1 / 100000) ≤ sd 1 := by
    rw [Real.sqrt_le_left h3.le]
    linarith
  refine ⟨h1, ?_, ?_, ?_⟩
  · rw [Real.sqrt_le_left h3.le]
    exact hge
  · refine (improve_le h1.le).trans ?_
    have a1 := mul_le_mul_of_nonneg_left h6 hf.1
    have a2 := (abs_le.1 e0).2
    have a3 : max (b - mu 0) 0 ≤ 2 * θ + B * θ :=
      max_le (by linarith) (by have := mul_nonneg hf.1 hθ; linarith)
    have a4 := mul_le_mul_of_nonneg_right h5 (show 0 ≤ (√(2 * Real.pi))⁻¹ by positivity)
    have a5 := mul_le_mul_of_nonneg_left pdf_zero_le_one hθ
    linarith
  · refine improve_gap h3.le (by norm_num [JITTER_ACQ]) ?_
    have a1 := mul_le_mul_of_nonneg_left h7 hf.1
    have a2 := (abs_le.1 e1).1
    linarith

/-- C125: expected improvement finds the best value of the region, up to the jitters. There is a
number of choices, depending on the region, the kernel, the prior mean, the bound `B` of the norm and
`η > 0` alone, after which, when every choice scores at most `δ` less by `ei` than any point of the
region and the responses are exact, the best response exceeds the values everywhere in the region by
at most the jitter terms and `δ`, divided by the normal probability of `B` deviations, and `η`. -/
theorem C125_ei {d : ℕ} {base : String} (hb : base ∈ baseNames) {h : HypDict} {σ s : ℝ}
    {l : Fin d → ℝ} (hd : Describes h σ s l) {C : Set (Point d)} (hC : Bornology.IsBounded C)
    {prior : Gp.PriorMu d} {m : Point d → ℝ} (hm : PriorFunction prior m) (hmc : Continuous m)
    {B : ℝ} (hB : 0 ≤ B) {η : ℝ} (hη : 0 < η) :
    ∃ M : ℕ, ∀ (f : Point d → ℝ) (δ : ℝ) (x : ℕ → Point d) (n₀ : ℕ),
      NormAtMost base s l B (fun z => f z - m z) →
      (∀ n, n₀ ≤ n → n < n₀ + M → x n ∈ C ∧
        ChosenBy (fun mu sd Y => ei mu sd Y) C x (fun i => f (x i)) h base prior δ n) →
      ∃ i, i < n₀ + M ∧ ∀ z ∈ C, f (x i) ≤ f z +
        ((√(1 / 100000) + JITTER_ACQ) * (√(2 * Real.pi))⁻¹ + δ) / normCdf (-B) + η := by
  have hP := normCdf_pos (-B)
  set θ := η * normCdf (-B) / (B + 3) with hθ
  have hθ0 : 0 < θ := by positivity
  obtain ⟨ρ, hρ, hnear⟩ := norm_near (base := base) (s := s) (l := l) hθ0 hB
  obtain ⟨ρ', hρ', hmnear⟩ := Metric.uniformContinuousOn_iff.1
    ((hC.isCompact_closure.uniformContinuousOn_of_continuous hmc.continuousOn).mono subset_closure)
    θ hθ0
  obtain ⟨M, hM⟩ := exists_small base σ s l hC (η := θ ^ 2) (by positivity) (lt_min hρ hρ')
  refine ⟨M, fun f δ x n₀ hf hx => ?_⟩
  obtain ⟨n, hn1, hn2, ⟨i₀, hi₀', hi₀, hdist⟩, hn3⟩ := hM x n₀ fun n hn hn' => (hx n hn hn').1
  obtain ⟨hxn, hch⟩ := hx n hn1 hn2
  -- the best of the responses so far
  obtain ⟨i, -, hi⟩ := Finset.exists_min_image (Finset.univ : Finset (Fin n)) (fun i => f (x i))
    ⟨⟨i₀, hi₀⟩, Finset.mem_univ _⟩
  have hbest : IsBest (List.ofFn fun i : Fin n => f (x i)) (f (x i)) := by
    refine ⟨List.mem_ofFn.2 ⟨i, rfl⟩, fun y hy => ?_⟩
    obtain ⟨j, rfl⟩ := List.mem_ofFn.1 hy
    exact hi j (Finset.mem_univ j)
  have hclose : f (x i) ≤ f (x n) + 2 * θ := by
    have a1 := hi ⟨i₀, hi₀⟩ (Finset.mem_univ _)
    have a2 := (abs_le.1 (hnear _ hf (x i₀) (x n) (hdist.le.trans (min_le_left _ _)))).2
    have a3 := hmnear _ (hx i₀ hi₀' (by omega)).1 _ hxn (hdist.trans_le (min_le_right _ _))
    rw [Real.dist_eq] at a3
    have a4 := (abs_lt.1 a3).2
    linarith
  refine ⟨i, by omega, fun z hz => ?_⟩
  obtain ⟨mu, sd, S, v, v', hp, he, hle⟩ := hch z hz
  beta_reduce at he
  obtain ⟨s0, s1, u1, u2⟩ := improve_step hb hd hm hf hθ0.le hn3 hclose hp
  have hj : (0 : ℝ) < JITTER_ACQ := by norm_num [JITTER_ACQ]
  have hs1 : 0 < sd 1 := lt_of_lt_of_le (Real.sqrt_pos.2 (by norm_num)) s1
  rw [ei_eq _ _ _ JITTER_ACQ _ (by simp) hbest (by
    intro t ht
    obtain ⟨k, rfl⟩ := List.mem_ofFn.1 ht
    fin_cases k
    · exact add_pos s0 hj
    · exact add_pos hs1 hj)] at he
  simp only [Except.ok.injEq, List.ofFn_succ, List.ofFn_zero, List.zipWith_cons_cons,
    List.zipWith_nil_left, List.cons.injEq, and_true, Fin.succ_zero_eq_one] at he
  obtain ⟨rfl, rfl⟩ := he
  have key : (f (x i) - f z) * normCdf (-B) ≤
      (√(1 / 100000) + JITTER_ACQ) * (√(2 * Real.pi))⁻¹ + δ + (B + 3) * θ := by
    linarith
  have e3 : (B + 3) * θ = η * normCdf (-B) := by
    rw [hθ]
    field_simp
  rw [e3] at key
  have := (le_div_iff₀ hP).2 key
  rw [add_div, mul_div_assoc η, div_self hP.ne', mul_one] at this
  linarith

/-- C125: the same for the augmented expected improvement, whose discount at the smallest deviation
the code predicts divides the error once more. -/
theorem C125_aei {d : ℕ} {base : String} (hb : base ∈ baseNames) {h : HypDict} {σ s : ℝ}
    {l : Fin d → ℝ} (hd : Describes h σ s l) {C : Set (Point d)} (hC : Bornology.IsBounded C)
    {prior : Gp.PriorMu d} {m : Point d → ℝ} (hm : PriorFunction prior m) (hmc : Continuous m)
    {B : ℝ} (hB : 0 ≤ B) {noise : ℝ} (hno : 0 ≤ noise) {η : ℝ} (hη : 0 < η) :
    ∃ M : ℕ, ∀ (f : Point d → ℝ) (δ : ℝ) (x : ℕ → Point d) (n₀ : ℕ), 0 ≤ δ →
      NormAtMost base s l B (fun z => f z - m z) →
      (∀ n, n₀ ≤ n → n < n₀ + M → x n ∈ C ∧
        ChosenBy (fun mu sd Y => aei mu sd Y noise) C x (fun i => f (x i)) h base prior δ n) →
      ∃ i, i < n₀ + M ∧ ∀ z ∈ C, f (x i) ≤ f z +
        ((√(1 / 100000) * (√(2 * Real.pi))⁻¹ + δ) / (1 - noise / √(1 / 100000 + noise ^ 2)) +
          JITTER_ACQ * (√(2 * Real.pi))⁻¹) / normCdf (-B) + η := by
  have hP := normCdf_pos (-B)
  have hj : (0 : ℝ) < JITTER_ACQ := by norm_num [JITTER_ACQ]
  have hroot : (0 : ℝ) < √(1 / 100000) := Real.sqrt_pos.2 (by norm_num)
  have hrootsq : √(1 / 100000 : ℝ) ^ 2 = 1 / 100000 := Real.sq_sqrt (by norm_num)
  set D := 1 - noise / √(1 / 100000 + noise ^ 2) with hD
  have hDd : D = discount noise √(1 / 100000) := by rw [discount, hrootsq]
  have hD0 : 0 < D := by
    rw [hDd]
    exact (C45_discount noise _ hno hroot.le (by positivity)).2.2.2.2.1 hroot
  set θ := η * normCdf (-B) * D / (B + 3) with hθ
  have hθ0 : 0 < θ := by positivity
  obtain ⟨ρ, hρ, hnear⟩ := norm_near (base := base) (s := s) (l := l) hθ0 hB
  obtain ⟨ρ', hρ', hmnear⟩ := Metric.uniformContinuousOn_iff.1
    ((hC.isCompact_closure.uniformContinuousOn_of_continuous hmc.continuousOn).mono subset_closure)
    θ hθ0
  obtain ⟨M, hM⟩ := exists_small base σ s l hC (η := θ ^ 2) (by positivity) (lt_min hρ hρ')
  refine ⟨M, fun f δ x n₀ hδ hf hx => ?_⟩
  obtain ⟨n, hn1, hn2, ⟨i₀, hi₀', hi₀, hdist⟩, hn3⟩ := hM x n₀ fun n hn hn' => (hx n hn hn').1
  obtain ⟨hxn, hch⟩ := hx n hn1 hn2
  obtain ⟨i, -, hi⟩ := Finset.exists_min_image (Finset.univ : Finset (Fin n)) (fun i => f (x i))
    ⟨⟨i₀, hi₀⟩, Finset.mem_univ _⟩
  have hbest : IsBest (List.ofFn fun i : Fin n => f (x i)) (f (x i)) := by
    refine ⟨List.mem_ofFn.2 ⟨i, rfl⟩, fun y hy => ?_⟩
    obtain ⟨j, rfl⟩ := List.mem_ofFn.1 hy
    exact hi j (Finset.mem_univ j)
  have hclose : f (x i) ≤ f (x n) + 2 * θ := by
    have a1 := hi ⟨i₀, hi₀⟩ (Finset.mem_univ _)
    have a2 := (abs_le.1 (hnear _ hf (x i₀) (x n) (hdist.le.trans (min_le_left _ _)))).2
    have a3 := hmnear _ (hx i₀ hi₀' (by omega)).1 _ hxn (hdist.trans_le (min_le_right _ _))
    rw [Real.dist_eq] at a3
    have a4 := (abs_lt.1 a3).2
    linarith
  refine ⟨i, by omega, fun z hz => ?_⟩
  obtain ⟨mu, sd, S, v, v', hp, he, hle⟩ := hch z hz
  beta_reduce at he
  obtain ⟨s0, s1, u1, u2⟩ := improve_step hb hd hm hf hθ0.le hn3 hclose hp
  have hs1 : 0 < sd 1 := lt_of_lt_of_le hroot s1
  obtain ⟨eis, vals, q1, q2, -, -, q3⟩ := C45_product (List.ofFn mu) (List.ofFn sd)
    (List.ofFn fun i : Fin n => f (x i)) noise JITTER_ACQ _ (by simp) hbest (by
      intro t ht
      obtain ⟨k, rfl⟩ := List.mem_ofFn.1 ht
      fin_cases k
      · exact add_pos s0 hj
      · exact add_pos hs1 hj) (by
      intro t ht
      obtain ⟨k, rfl⟩ := List.mem_ofFn.1 ht
      fin_cases k
      · have := pow_pos s0 2
        positivity
      · have := pow_pos hs1 2
        positivity)
  rw [ei_eq _ _ _ JITTER_ACQ _ (by simp) hbest (by
    intro t ht
    obtain ⟨k, rfl⟩ := List.mem_ofFn.1 ht
    fin_cases k
    · exact add_pos s0 hj
    · exact add_pos hs1 hj)] at q1
  rw [he] at q2
  simp only [Except.ok.injEq, List.ofFn_succ, List.ofFn_zero, List.zipWith_cons_cons,
    List.zipWith_nil_left, Fin.succ_zero_eq_one] at q1 q2
  subst q1 q2
  have r0 := q3 0 (sd 0) _ v (by simp [List.ofFn_succ]) rfl rfl
  have r1 := q3 1 (sd 1) _ v' (by simp [List.ofFn_succ]) rfl rfl
  set E0 := (f (x i) - mu 0) * normCdf ((f (x i) - mu 0) / (sd 0 + JITTER_ACQ)) +
        sd 0 * normPdf ((f (x i) - mu 0) / (sd 0 + JITTER_ACQ))
  set E1 := (f (x i) - mu 1) * normCdf ((f (x i) - mu 1) / (sd 1 + JITTER_ACQ)) +
        sd 1 * normPdf ((f (x i) - mu 1) / (sd 1 + JITTER_ACQ))
  obtain ⟨d1, d2, -⟩ := C45_discount noise (sd 0) hno s0.le (by have := pow_pos s0 2; positivity)
  have d3 := (C45_discount noise _ hno hroot.le (by positivity)).2.2.2.2.2.2.2 (sd 1) s1
  rw [← hDd] at d3
  set J := √(1 / 100000) * (√(2 * Real.pi))⁻¹ + (B + 3) * θ with hJ
  have hJ0 : 0 ≤ J := by positivity
  have hv : v ≤ J := by
    rw [r0]
    rcases le_total 0 E0 with hE | hE
    · exact (mul_le_of_le_one_right hE d2).trans u1
    · exact (mul_nonpos_of_nonpos_of_nonneg hE d1).trans hJ0
  have hE1 : E1 ≤ (J + δ) / D := by
    rcases le_total 0 E1 with hE | hE
    · rw [le_div_iff₀ hD0]
      have := mul_le_mul_of_nonneg_left d3 hE
      rw [r1] at hle
      linarith
    · exact hE.trans (by positivity)
  have e3 : (J + δ) / D = (√(1 / 100000) * (√(2 * Real.pi))⁻¹ + δ) / D + η * normCdf (-B) := by
    rw [hJ, hθ]
    field_simp
    ring
  rw [e3] at hE1
  have key : (f (x i) - f z) * normCdf (-B) ≤
      (√(1 / 100000) * (√(2 * Real.pi))⁻¹ + δ) / D + JITTER_ACQ * (√(2 * Real.pi))⁻¹ +
        η * normCdf (-B) := by
    linarith
  have := (le_div_iff₀ hP).2 key
  rw [add_div, mul_div_assoc η, div_self hP.ne', mul_one] at this
  linarith

/-- A kernel function, its values at three points, and the choices among them by each of the
acquisition functions: the hypotheses of C123 to C125 hold. -/
example : ∃ (h : HypDict) (C : Set (Point 1)) (f : Point 1 → ℝ),
    Describes h GP_NOISE 2 (fun _ : Fin 1 => 3) ∧ Bornology.IsBounded C ∧
    (∀ j : Fin 3, (fun _ => (j : ℝ)) ∈ C) ∧
    PriorFunction (none : Gp.PriorMu 1) (fun _ => 0) ∧ Continuous (fun _ : Point 1 => (0 : ℝ)) ∧
    NormAtMost "matern32" 2 (fun _ : Fin 1 => 3) 2 (fun z => f z - 0) ∧ f (fun _ => 0) = 4 ∧
    (∃ x : ℕ → Point 1, ∀ n, 1 ≤ n → x n ∈ C ∧
      ChosenBy (fun _ sd _ => pureExplore sd) C x (fun i => f (x i)) h "matern32" none 0 n) ∧
    (∃ x : ℕ → Point 1, ∀ n, 1 ≤ n → x n ∈ C ∧
      ChosenBy (fun mu sd Y => ucb mu sd (some Y) 3 false) C x (fun i => f (x i)) h "matern32" none
        0 n) ∧
    (∃ x : ℕ → Point 1, ∀ n, 1 ≤ n → x n ∈ C ∧
      ChosenBy (fun mu sd Y => ei mu sd Y) C x (fun i => f (x i)) h "matern32" none 0 n) ∧
    ∃ x : ℕ → Point 1, ∀ n, 1 ≤ n → x n ∈ C ∧
      ChosenBy (fun mu sd Y => aei mu sd Y GP_NOISE) C x (fun i => f (x i)) h "matern32" none 0 n := by
  have hb : "matern32" ∈ baseNames := by simp [baseNames]
  have hd : Describes ⟨some (.flt (.fin GP_NOISE)), none, some (.flt (.fin 2)), some (.arr [.fin 3])⟩
      GP_NOISE 2 (fun _ : Fin 1 => 3) := ⟨rfl, rfl, .inl rfl, by intro; norm_num⟩
  let f : Point 1 → ℝ := fun z => kernel "matern32" 2 (fun _ => 3) (fun _ => 0) z
  have hbest : ∀ Y : List ℝ, Y ≠ [] → ∃ b, IsBest Y b := by
    intro Y hY
    obtain ⟨b, hb, hmin⟩ := Finset.exists_min_image Y.toFinset id (by simpa using hY)
    exact ⟨b, List.mem_toFinset.1 hb, fun y hy => hmin y (List.mem_toFinset.2 hy)⟩
  choose! best hbest using hbest
  have hj : (0 : ℝ) < JITTER_ACQ := by norm_num [JITTER_ACQ]
  have hjs : ∀ t t' : ℝ, 0 < t → 0 < t' → ∀ s ∈ [t, t'], 0 < s + JITTER_ACQ := by
    intro t t' ht ht' s hs
    simp only [List.mem_cons, List.not_mem_nil, or_false] at hs
    rcases hs with rfl | rfl
    · exact add_pos ht hj
    · exact add_pos ht' hj
  have hC := Set.finite_range fun j : Fin 3 => fun _ : Fin 1 => (j : ℝ)
  have hne := Set.range_nonempty fun j : Fin 3 => fun _ : Fin 1 => (j : ℝ)
  obtain ⟨x1, -, h1⟩ := exists_chosen (base := "matern32") hb hd hC hne
    (acq := fun _ sd _ => pureExplore sd) (g := fun _ _ t => t)
    (fun _ _ _ _ _ _ _ _ => rfl) f (fun _ => 5)
  obtain ⟨x2, -, h2⟩ := exists_chosen (base := "matern32") hb hd hC hne
    (acq := fun mu sd Y => ucb mu sd (some Y) 3 false) (g := fun _ m t => -m + 3 * t)
    (fun _ _ _ _ _ _ _ _ => rfl) f (fun _ => 5)
  obtain ⟨x3, -, h3⟩ := exists_chosen (base := "matern32") hb hd hC hne
    (acq := fun mu sd Y => ei mu sd Y)
    (g := fun Y m t => (best Y - m) * normCdf ((best Y - m) / (t + JITTER_ACQ)) +
      t * normPdf ((best Y - m) / (t + JITTER_ACQ)))
    (fun Y m m' t t' hY ht ht' => ei_eq [m, m'] [t, t'] Y JITTER_ACQ _ rfl (hbest Y hY)
      (hjs t t' ht ht')) f (fun _ => 5)
  obtain ⟨x4, -, h4⟩ := exists_chosen (base := "matern32") hb hd hC hne
    (acq := fun mu sd Y => aei mu sd Y GP_NOISE)
    (g := fun Y m t => ((best Y - m) * normCdf ((best Y - m) / (t + JITTER_ACQ)) +
      t * normPdf ((best Y - m) / (t + JITTER_ACQ))) * discount GP_NOISE t)
    (fun Y m m' t t' hY ht ht' => by
      obtain ⟨eis, vals, q1, q2, q4, q5, q3⟩ := C45_product [m, m'] [t, t'] Y GP_NOISE JITTER_ACQ _ rfl
        (hbest Y hY) (hjs t t' ht ht') (by
          intro s hs
          simp only [List.mem_cons, List.not_mem_nil, or_false] at hs
          rcases hs with rfl | rfl <;> positivity)
      rw [ei_eq [m, m'] [t, t'] Y JITTER_ACQ _ rfl (hbest Y hY) (hjs t t' ht ht')] at q1
      simp only [Except.ok.injEq, List.zipWith_cons_cons, List.zipWith_nil_left] at q1
      subst q1
      obtain ⟨v, v', rfl⟩ := List.length_eq_two.1 q4
      have r0 := q3 0 t _ v rfl rfl rfl
      have r1 := q3 1 t' _ v' rfl rfl rfl
      beta_reduce
      rw [q2, r0, r1]) f (fun _ => 5)
  refine ⟨_, _, f, hd, hC.isBounded, fun j => ⟨j, rfl⟩, fun n X => rfl, continuous_const, ?_, ?_,
    ⟨x1, h1⟩, ⟨x2, h2⟩, ⟨x3, h3⟩, ⟨x4, h4⟩⟩
  · have := normAtMost_expansion (base := "matern32") (s := 2) (l := fun _ : Fin 1 => 3) (k := 1)
      (fun _ _ => 0) fun _ => 1
    have e : kernel "matern32" 2 (fun _ : Fin 1 => 3) (fun _ => 0) (fun _ => 0) = 2 * 2 := by
      norm_num [kernel, scaledDistance, profile, m32Profile]
    simpa [f, e] using this
  · norm_num [f, kernel, scaledDistance, profile, m32Profile]

end Verif.Props
