import Verif.Lemmas.ImproveRefit
import Verif.Props.WorstCase

/-! # Expected improvement when hyperparameters and normalisation change at every choice (C145) -/

namespace Verif.Props

open Verif.Spec Verif.Covariance Verif.UtilsCovariance Verif.Lemmas Verif.Acquisition
  Verif.Constants
open Matrix hiding gram

/-- C145: expected improvement, for hyperparameters, prior means and functions that are others at every
choice, as they are when hyperparameters are fitted and responses are normalised anew. Signals and
noises are bounded, lengthscales are bounded away from zero, the prior means have a common modulus of
continuity `ω`, and the functions less the prior means have norms of at most `B` on a set `D` that
holds all points. Among a number `M` of choices, which depends on the region and these bounds and
`η > 0` alone, there is one before which some response, in the units of that choice, exceeded the
values everywhere in the region by at most the jitter terms and the slack `δ`, divided by the normal
probability of `B` deviations, and `η`. -/
theorem C145_ei {d : ℕ} {base : String} (hb : base ∈ baseNames) {C : Set (Point d)}
    (hC : Bornology.IsBounded C) {ω : ℝ → ℝ} (hω : Filter.Tendsto ω (nhds 0) (nhds 0)) {B : ℝ}
    (hB : 0 ≤ B) {σmax smax lmin : ℝ} (hl : 0 < lmin) {η : ℝ} (hη : 0 < η) :
    ∃ M : ℕ, ∀ (h : ℕ → HypDict) (σ s : ℕ → ℝ) (l : ℕ → Fin d → ℝ) (prior : ℕ → Gp.PriorMu d)
      (m f : ℕ → Point d → ℝ) (D : Set (Point d)) (δ : ℝ) (x : ℕ → Point d) (n₀ : ℕ),
      C ⊆ D → (∀ n, x n ∈ D) →
      (∀ n, n₀ ≤ n → n < n₀ + M → Describes (h n) (σ n) (s n) (l n) ∧
        |σ n| ≤ σmax ∧ |s n| ≤ smax ∧ (∀ k, lmin ≤ |l n k|) ∧ PriorFunction (prior n) (m n) ∧
        (∀ u ∈ C, ∀ v ∈ C, |m n u - m n v| ≤ ω (dist u v)) ∧
        NormAtMostOn D base (s n) (l n) B (fun z => f n z - m n z) ∧ x n ∈ C ∧
        ChosenBy (fun mu sd Y => ei mu sd Y) C x (fun i => f n (x i)) (h n) base (prior n) δ n) →
      ∃ n, n₀ ≤ n ∧ n < n₀ + M ∧ ∃ i < n, ∀ z ∈ C, f n (x i) ≤ f n z +
        ((√(1 / 100000) + JITTER_ACQ) * (√(2 * Real.pi))⁻¹ + δ) / normCdf (-B) + η := by
  have hP := normCdf_pos (-B)
  have hj : (0 : ℝ) < JITTER_ACQ := by norm_num [JITTER_ACQ]
  set θ := η * normCdf (-B) / (B + 3) with hθ
  have hθ0 : 0 < θ := by positivity
  obtain ⟨ρ, hρ, hnear⟩ := norm_near_on base d (smax := smax) hl hB hθ0
  obtain ⟨ρ', hρ', hmnear⟩ := Metric.eventually_nhds_iff.1 (hω.eventually (gt_mem_nhds hθ0))
  obtain ⟨M, hM⟩ := exists_small_near base hC (σmax := σmax) (smax := smax) hl (η := θ ^ 2)
    (by positivity) (lt_min hρ hρ')
  refine ⟨M, fun h σ s l prior m f D δ x n₀ hCD hxD hx => ?_⟩
  obtain ⟨n, hn1, hn2, ⟨i₀, hi₀', hi₀, hdist⟩, hn3⟩ := hM σ s l x n₀ fun n a b => by
    obtain ⟨-, a1, a2, a3, -, -, -, a4, -⟩ := hx n a b
    exact ⟨a1, a2, a3, a4⟩
  obtain ⟨hd, -, hsn, hln, hm, hmω, hf, hxn, hch⟩ := hx n hn1 hn2
  -- the best of the responses so far
  obtain ⟨i, -, hi⟩ := Finset.exists_min_image (Finset.univ : Finset (Fin n)) (fun i => f n (x i))
    ⟨⟨i₀, hi₀⟩, Finset.mem_univ _⟩
  have hbest : IsBest (List.ofFn fun i : Fin n => f n (x i)) (f n (x i)) := by
    refine ⟨List.mem_ofFn.2 ⟨i, rfl⟩, fun y hy => ?_⟩
    obtain ⟨j, rfl⟩ := List.mem_ofFn.1 hy
    exact hi j (Finset.mem_univ j)
  have hclose : f n (x i) ≤ f n (x n) + 2 * θ := by
    have a1 := hi ⟨i₀, hi₀⟩ (Finset.mem_univ _)
    have a2 := (abs_le.1 (hnear _ _ hsn hln D _ hf (x i₀) (hxD i₀) (x n) (hxD n)
      (hdist.le.trans (min_le_left _ _)))).2
    have a3 := hmω (x i₀) (hx i₀ hi₀' (by omega)).2.2.2.2.2.2.2.1 (x n) hxn
    have a4 : ω (dist (x i₀) (x n)) < θ := hmnear (by
      rw [Real.dist_eq, sub_zero, abs_of_nonneg dist_nonneg]
      exact hdist.trans_le (min_le_right _ _))
    have a5 := (abs_le.1 a3).2
    linarith
  refine ⟨n, hn1, hn2, i, i.2, fun z hz => ?_⟩
  obtain ⟨mu, sd, S, v, v', hp, he, hle⟩ := hch z hz
  beta_reduce at he
  obtain ⟨s0, s1, u1, u2⟩ := improve_step_on hb hd hm hf hθ0.le hxD hn3 hclose (hCD hz) hp
  have hs1 : 0 < sd 1 := lt_of_lt_of_le (Real.sqrt_pos.2 (by norm_num)) s1
  rw [ei_eq _ _ _ JITTER_ACQ _ (by simp) hbest (by
    intro t ht
    obtain ⟨k, rfl⟩ := List.mem_ofFn.1 ht
    fin_cases k
    · exact add_pos s0 hj
    · exact add_pos hs1 hj)] at he
  simp only [Except.ok.injEq, List.ofFn_succ, List.ofFn_zero, List.zipWith_cons_cons,
    List.zipWith_nil_left, List.cons.injEq, and_true, Fin.succ_zero_eq_one] at he
  obtain ⟨rfl, rfl⟩ := he
  have key : (f n (x i) - f n z) * normCdf (-B) ≤
      (√(1 / 100000) + JITTER_ACQ) * (√(2 * Real.pi))⁻¹ + δ + (B + 3) * θ := by
    linarith
  have e3 : (B + 3) * θ = η * normCdf (-B) := by
    rw [hθ]
    field_simp
  rw [e3] at key
  have := (le_div_iff₀ hP).2 key
  rw [add_div, mul_div_assoc η, div_self hP.ne', mul_one] at this
  linarith

/-- C145: the same for the augmented expected improvement, with the noise of the hyperparameters of the
choice, as `bo_w_gp` passes it on. The discount at the smallest deviation the code predicts and the
largest noise divides the error once more. -/
theorem C145_aei {d : ℕ} {base : String} (hb : base ∈ baseNames) {C : Set (Point d)}
    (hC : Bornology.IsBounded C) {ω : ℝ → ℝ} (hω : Filter.Tendsto ω (nhds 0) (nhds 0)) {B : ℝ}
    (hB : 0 ≤ B) {σmax smax lmin : ℝ} (hσ : 0 ≤ σmax) (hl : 0 < lmin) {η : ℝ} (hη : 0 < η) :
    ∃ M : ℕ, ∀ (h : ℕ → HypDict) (σ s : ℕ → ℝ) (l : ℕ → Fin d → ℝ) (prior : ℕ → Gp.PriorMu d)
      (m f : ℕ → Point d → ℝ) (D : Set (Point d)) (δ : ℝ) (x : ℕ → Point d) (n₀ : ℕ), 0 ≤ δ →
      C ⊆ D → (∀ n, x n ∈ D) →
      (∀ n, n₀ ≤ n → n < n₀ + M → Describes (h n) (σ n) (s n) (l n) ∧
        (0 ≤ σ n ∧ σ n ≤ σmax) ∧ |s n| ≤ smax ∧ (∀ k, lmin ≤ |l n k|) ∧
        PriorFunction (prior n) (m n) ∧
        (∀ u ∈ C, ∀ v ∈ C, |m n u - m n v| ≤ ω (dist u v)) ∧
        NormAtMostOn D base (s n) (l n) B (fun z => f n z - m n z) ∧ x n ∈ C ∧
        ChosenBy (fun mu sd Y => aei mu sd Y (σ n)) C x (fun i => f n (x i)) (h n) base (prior n) δ
          n) →
      ∃ n, n₀ ≤ n ∧ n < n₀ + M ∧ ∃ i < n, ∀ z ∈ C, f n (x i) ≤ f n z +
        ((√(1 / 100000) * (√(2 * Real.pi))⁻¹ + δ) / (1 - σmax / √(1 / 100000 + σmax ^ 2)) +
          JITTER_ACQ * (√(2 * Real.pi))⁻¹) / normCdf (-B) + η := by
  have hP := normCdf_pos (-B)
  have hj : (0 : ℝ) < JITTER_ACQ := by norm_num [JITTER_ACQ]
  have hroot : (0 : ℝ) < √(1 / 100000) := Real.sqrt_pos.2 (by norm_num)
  have hrootsq : √(1 / 100000 : ℝ) ^ 2 = 1 / 100000 := Real.sq_sqrt (by norm_num)
  set D₁ := 1 - σmax / √(1 / 100000 + σmax ^ 2) with hD₁
  have hDd : D₁ = discount σmax √(1 / 100000) := by rw [discount, hrootsq]
  have hD0 : 0 < D₁ := by
    rw [hDd]
    exact (C45_discount σmax _ hσ hroot.le (by positivity)).2.2.2.2.1 hroot
  set θ := η * normCdf (-B) * D₁ / (B + 3) with hθ
  have hθ0 : 0 < θ := by positivity
  obtain ⟨ρ, hρ, hnear⟩ := norm_near_on base d (smax := smax) hl hB hθ0
  obtain ⟨ρ', hρ', hmnear⟩ := Metric.eventually_nhds_iff.1 (hω.eventually (gt_mem_nhds hθ0))
  obtain ⟨M, hM⟩ := exists_small_near base hC (σmax := σmax) (smax := smax) hl (η := θ ^ 2)
    (by positivity) (lt_min hρ hρ')
  refine ⟨M, fun h σ s l prior m f D δ x n₀ hδ hCD hxD hx => ?_⟩
  obtain ⟨n, hn1, hn2, ⟨i₀, hi₀', hi₀, hdist⟩, hn3⟩ := hM σ s l x n₀ fun n a b => by
    obtain ⟨-, a1, a2, a3, -, -, -, a4, -⟩ := hx n a b
    exact ⟨by rw [abs_of_nonneg a1.1]; exact a1.2, a2, a3, a4⟩
  obtain ⟨hd, hσn, hsn, hln, hm, hmω, hf, hxn, hch⟩ := hx n hn1 hn2
  -- the best of the responses so far
  obtain ⟨i, -, hi⟩ := Finset.exists_min_image (Finset.univ : Finset (Fin n)) (fun i => f n (x i))
    ⟨⟨i₀, hi₀⟩, Finset.mem_univ _⟩
  have hbest : IsBest (List.ofFn fun i : Fin n => f n (x i)) (f n (x i)) := by
    refine ⟨List.mem_ofFn.2 ⟨i, rfl⟩, fun y hy => ?_⟩
    obtain ⟨j, rfl⟩ := List.mem_ofFn.1 hy
    exact hi j (Finset.mem_univ j)
  have hclose : f n (x i) ≤ f n (x n) + 2 * θ := by
    have a1 := hi ⟨i₀, hi₀⟩ (Finset.mem_univ _)
    have a2 := (abs_le.1 (hnear _ _ hsn hln D _ hf (x i₀) (hxD i₀) (x n) (hxD n)
      (hdist.le.trans (min_le_left _ _)))).2
    have a3 := hmω (x i₀) (hx i₀ hi₀' (by omega)).2.2.2.2.2.2.2.1 (x n) hxn
    have a4 : ω (dist (x i₀) (x n)) < θ := hmnear (by
      rw [Real.dist_eq, sub_zero, abs_of_nonneg dist_nonneg]
      exact hdist.trans_le (min_le_right _ _))
    have a5 := (abs_le.1 a3).2
    linarith
  refine ⟨n, hn1, hn2, i, i.2, fun z hz => ?_⟩
  obtain ⟨mu, sd, S, v, v', hp, he, hle⟩ := hch z hz
  beta_reduce at he
  obtain ⟨s0, s1, u1, u2⟩ := improve_step_on hb hd hm hf hθ0.le hxD hn3 hclose (hCD hz) hp
  have hs1 : 0 < sd 1 := lt_of_lt_of_le hroot s1
  obtain ⟨eis, vals, q1, q2, -, -, q3⟩ := C45_product (List.ofFn mu) (List.ofFn sd)
    (List.ofFn fun i : Fin n => f n (x i)) (σ n) JITTER_ACQ _ (by simp) hbest (by
      intro t ht
      obtain ⟨k, rfl⟩ := List.mem_ofFn.1 ht
      fin_cases k
      · exact add_pos s0 hj
      · exact add_pos hs1 hj) (by
      intro t ht
      obtain ⟨k, rfl⟩ := List.mem_ofFn.1 ht
      fin_cases k
      · have := pow_pos s0 2
        positivity
      · have := pow_pos hs1 2
        positivity)
  rw [ei_eq _ _ _ JITTER_ACQ _ (by simp) hbest (by
    intro t ht
    obtain ⟨k, rfl⟩ := List.mem_ofFn.1 ht
    fin_cases k
    · exact add_pos s0 hj
    · exact add_pos hs1 hj)] at q1
  rw [he] at q2
  simp only [Except.ok.injEq, List.ofFn_succ, List.ofFn_zero, List.zipWith_cons_cons,
    List.zipWith_nil_left, Fin.succ_zero_eq_one] at q1 q2
  subst q1 q2
  have r0 := q3 0 (sd 0) _ v (by simp [List.ofFn_succ]) rfl rfl
  have r1 := q3 1 (sd 1) _ v' (by simp [List.ofFn_succ]) rfl rfl
  set E0 := (f n (x i) - mu 0) * normCdf ((f n (x i) - mu 0) / (sd 0 + JITTER_ACQ)) +
        sd 0 * normPdf ((f n (x i) - mu 0) / (sd 0 + JITTER_ACQ))
  set E1 := (f n (x i) - mu 1) * normCdf ((f n (x i) - mu 1) / (sd 1 + JITTER_ACQ)) +
        sd 1 * normPdf ((f n (x i) - mu 1) / (sd 1 + JITTER_ACQ))
  obtain ⟨d1, d2, -⟩ := C45_discount (σ n) (sd 0) hσn.1 s0.le (by have := pow_pos s0 2; positivity)
  have d3 := (C45_discount (σ n) _ hσn.1 hroot.le (by positivity)).2.2.2.2.2.2.2 (sd 1) s1
  have d4 : D₁ ≤ discount (σ n) √(1 / 100000) := by
    rw [discount, hrootsq, hD₁]
    refine sub_le_sub_left ?_ 1
    rw [div_le_div_iff₀ (by positivity) (by positivity)]
    refine abs_le_of_sq_le_sq' ?_ (by positivity) |>.2
    rw [mul_pow, mul_pow, Real.sq_sqrt (by positivity), Real.sq_sqrt (by positivity)]
    have := pow_le_pow_left₀ hσn.1 hσn.2 2
    nlinarith
  replace d3 := d4.trans d3
  set J := √(1 / 100000) * (√(2 * Real.pi))⁻¹ + (B + 3) * θ with hJ
  have hJ0 : 0 ≤ J := by positivity
  have hv : v ≤ J := by
    rw [r0]
    rcases le_total 0 E0 with hE | hE
    · exact (mul_le_of_le_one_right hE d2).trans u1
    · exact (mul_nonpos_of_nonpos_of_nonneg hE d1).trans hJ0
  have hE1 : E1 ≤ (J + δ) / D₁ := by
    rcases le_total 0 E1 with hE | hE
    · rw [le_div_iff₀ hD0]
      have := mul_le_mul_of_nonneg_left d3 hE
      rw [r1] at hle
      linarith
    · exact hE.trans (by positivity)
  have e3 : (J + δ) / D₁ = (√(1 / 100000) * (√(2 * Real.pi))⁻¹ + δ) / D₁ + η * normCdf (-B) := by
    rw [hJ, hθ]
    field_simp
    ring
  rw [e3] at hE1
  have key : (f n (x i) - f n z) * normCdf (-B) ≤
      (√(1 / 100000) * (√(2 * Real.pi))⁻¹ + δ) / D₁ + JITTER_ACQ * (√(2 * Real.pi))⁻¹ +
        η * normCdf (-B) := by
    linarith
  have := (le_div_iff₀ hP).2 key
  rw [add_div, mul_div_assoc η, div_self hP.ne', mul_one] at this
  linarith

/-- C145: with exact responses that are normalised before every choice, the best response so far is,
in its own units, as close to the best value of the region. The values of the function on the set
differ by at most `spread`, and its normalised images have bounded norms there. -/
theorem C145_ei_normalized {d : ℕ} {base : String} (hb : base ∈ baseNames) {C : Set (Point d)}
    (hC : Bornology.IsBounded C) {ω : ℝ → ℝ} (hω : Filter.Tendsto ω (nhds 0) (nhds 0)) {B : ℝ}
    (hB : 0 ≤ B) {σmax smax lmin : ℝ} (hl : 0 < lmin) {spread : ℝ} {η : ℝ} (hη : 0 < η) :
    ∃ M : ℕ, ∀ (h : ℕ → HypDict) (σ s : ℕ → ℝ) (l : ℕ → Fin d → ℝ) (prior : ℕ → Gp.PriorMu d)
      (m : ℕ → Point d → ℝ) (f : Point d → ℝ) (D : Set (Point d)) (x : ℕ → Point d)
      (Y : ℕ → ℕ → ℝ) (n₀ : ℕ), C ⊆ D → (∀ n, x n ∈ D) →
      (∀ u ∈ D, ∀ v ∈ D, |f u - f v| ≤ spread) →
      (∀ n, n₀ ≤ n → n < n₀ + M → Describes (h n) (σ n) (s n) (l n) ∧
        |σ n| ≤ σmax ∧ |s n| ≤ smax ∧ (∀ k, lmin ≤ |l n k|) ∧ PriorFunction (prior n) (m n) ∧
        (∀ u ∈ C, ∀ v ∈ C, |m n u - m n v| ≤ ω (dist u v)) ∧
        (∃ lo hi, IsLeast (Set.range fun i : Fin n => f (x i)) lo ∧
          IsGreatest (Set.range fun i : Fin n => f (x i)) hi ∧
          NormAtMostOn D base (s n) (l n) B (fun z => minMaxImage lo hi (f z) - m n z)) ∧
        UtilsBo.normalizeMinMax (List.ofFn fun i : Fin n => f (x i)) =
          .ok (List.ofFn fun i : Fin n => Y n i) ∧ x n ∈ C ∧
        ChosenBy (fun mu sd Y => ei mu sd Y) C x (Y n) (h n) base (prior n) 0 n) →
      ∀ T ≥ n₀ + M, ∀ b, IsLeast (Set.range fun i : Fin T => f (x i)) b → ∀ z ∈ C,
        b ≤ f z + max 1 (spread / 10) *
          ((√(1 / 100000) + JITTER_ACQ) * (√(2 * Real.pi))⁻¹ / normCdf (-B) + η) := by
  have hj : (0 : ℝ) < JITTER_ACQ := by norm_num [JITTER_ACQ]
  have hP := normCdf_pos (-B)
  obtain ⟨M, hM⟩ := C145_ei hb hC hω hB (σmax := σmax) (smax := smax) hl hη
  refine ⟨M, fun h σ s l prior m f D x Y n₀ hCD hxD hspread hx T hT b hb' z hz => ?_⟩
  have hlohi : ∀ n, ∃ p : ℝ × ℝ, n₀ ≤ n → n < n₀ + M →
      IsLeast (Set.range fun i : Fin n => f (x i)) p.1 ∧
      IsGreatest (Set.range fun i : Fin n => f (x i)) p.2 ∧
      NormAtMostOn D base (s n) (l n) B (fun z => minMaxImage p.1 p.2 (f z) - m n z) := by
    intro n
    by_cases hn : n₀ ≤ n ∧ n < n₀ + M
    · obtain ⟨-, -, -, -, -, -, ⟨lo, hi, h1, h2, h3⟩, -⟩ := hx n hn.1 hn.2
      exact ⟨(lo, hi), fun _ _ => ⟨h1, h2, h3⟩⟩
    · exact ⟨(0, 0), fun a b => absurd ⟨a, b⟩ hn⟩
  choose p hp using hlohi
  obtain ⟨n, hn1, hn2, i, hi, hle⟩ := hM h σ s l prior m
    (fun n z => minMaxImage (p n).1 (p n).2 (f z)) D 0 x n₀ hCD hxD fun n h1 h2 => by
      obtain ⟨a1, a2, a3, a4, a5, a6, -, a7, a8, a9⟩ := hx n h1 h2
      obtain ⟨b1, b2, b3⟩ := hp n h1 h2
      refine ⟨a1, a2, a3, a4, a5, a6, b3, a8, fun z hz => ?_⟩
      have := a9 z hz
      rwa [show (fun i : Fin n => Y n i) = fun i : Fin n => minMaxImage (p n).1 (p n).2 (f (x i)) from
        funext fun i => normalized_eq b1 b2 a7 i] at this
  obtain ⟨b1, b2, -⟩ := hp n hn1 hn2
  have h1 := hle z hz
  rw [add_assoc, add_zero] at h1
  have h2 := minMaxImage_le (w := spread) (b2.2 b1.1) (by
    obtain ⟨i, hi⟩ := b1.1
    obtain ⟨j, hj⟩ := b2.1
    rw [← hi, ← hj]
    exact (le_abs_self _).trans (hspread _ (hxD j) _ (hxD i))) (by positivity) h1
  have h3 := hb'.2 ⟨⟨i, by omega⟩, rfl⟩
  exact h3.trans h2

/-- C145: the same for the augmented expected improvement. -/
theorem C145_aei_normalized {d : ℕ} {base : String} (hb : base ∈ baseNames) {C : Set (Point d)}
    (hC : Bornology.IsBounded C) {ω : ℝ → ℝ} (hω : Filter.Tendsto ω (nhds 0) (nhds 0)) {B : ℝ}
    (hB : 0 ≤ B) {σmax smax lmin : ℝ} (hσ : 0 ≤ σmax) (hl : 0 < lmin) {spread : ℝ} {η : ℝ} (hη : 0 < η) :
    ∃ M : ℕ, ∀ (h : ℕ → HypDict) (σ s : ℕ → ℝ) (l : ℕ → Fin d → ℝ) (prior : ℕ → Gp.PriorMu d)
      (m : ℕ → Point d → ℝ) (f : Point d → ℝ) (D : Set (Point d)) (x : ℕ → Point d)
      (Y : ℕ → ℕ → ℝ) (n₀ : ℕ), C ⊆ D → (∀ n, x n ∈ D) →
      (∀ u ∈ D, ∀ v ∈ D, |f u - f v| ≤ spread) →
      (∀ n, n₀ ≤ n → n < n₀ + M → Describes (h n) (σ n) (s n) (l n) ∧
        (0 ≤ σ n ∧ σ n ≤ σmax) ∧ |s n| ≤ smax ∧ (∀ k, lmin ≤ |l n k|) ∧ PriorFunction (prior n) (m n) ∧
        (∀ u ∈ C, ∀ v ∈ C, |m n u - m n v| ≤ ω (dist u v)) ∧
        (∃ lo hi, IsLeast (Set.range fun i : Fin n => f (x i)) lo ∧
          IsGreatest (Set.range fun i : Fin n => f (x i)) hi ∧
          NormAtMostOn D base (s n) (l n) B (fun z => minMaxImage lo hi (f z) - m n z)) ∧
        UtilsBo.normalizeMinMax (List.ofFn fun i : Fin n => f (x i)) =
          .ok (List.ofFn fun i : Fin n => Y n i) ∧ x n ∈ C ∧
        ChosenBy (fun mu sd Y => aei mu sd Y (σ n)) C x (Y n) (h n) base (prior n) 0 n) →
      ∀ T ≥ n₀ + M, ∀ b, IsLeast (Set.range fun i : Fin T => f (x i)) b → ∀ z ∈ C,
        b ≤ f z + max 1 (spread / 10) *
          ((√(1 / 100000) * (√(2 * Real.pi))⁻¹ / (1 - σmax / √(1 / 100000 + σmax ^ 2)) +
          JITTER_ACQ * (√(2 * Real.pi))⁻¹) / normCdf (-B) + η) := by
  have hj : (0 : ℝ) < JITTER_ACQ := by norm_num [JITTER_ACQ]
  have hroot : (0 : ℝ) < √(1 / 100000) := Real.sqrt_pos.2 (by norm_num)
  have hD0 : 0 < 1 - σmax / √(1 / 100000 + σmax ^ 2) := by
    have := (C45_discount σmax _ hσ hroot.le (by positivity)).2.2.2.2.1 hroot
    rwa [discount, Real.sq_sqrt (by norm_num)] at this
  have hP := normCdf_pos (-B)
  obtain ⟨M, hM⟩ := C145_aei hb hC hω hB hσ (smax := smax) hl hη
  refine ⟨M, fun h σ s l prior m f D x Y n₀ hCD hxD hspread hx T hT b hb' z hz => ?_⟩
  have hlohi : ∀ n, ∃ p : ℝ × ℝ, n₀ ≤ n → n < n₀ + M →
      IsLeast (Set.range fun i : Fin n => f (x i)) p.1 ∧
      IsGreatest (Set.range fun i : Fin n => f (x i)) p.2 ∧
      NormAtMostOn D base (s n) (l n) B (fun z => minMaxImage p.1 p.2 (f z) - m n z) := by
    intro n
    by_cases hn : n₀ ≤ n ∧ n < n₀ + M
    · obtain ⟨-, -, -, -, -, -, ⟨lo, hi, h1, h2, h3⟩, -⟩ := hx n hn.1 hn.2
      exact ⟨(lo, hi), fun _ _ => ⟨h1, h2, h3⟩⟩
    · exact ⟨(0, 0), fun a b => absurd ⟨a, b⟩ hn⟩
  choose p hp using hlohi
  obtain ⟨n, hn1, hn2, i, hi, hle⟩ := hM h σ s l prior m
    (fun n z => minMaxImage (p n).1 (p n).2 (f z)) D 0 x n₀ le_rfl hCD hxD fun n h1 h2 => by
      obtain ⟨a1, a2, a3, a4, a5, a6, -, a7, a8, a9⟩ := hx n h1 h2
      obtain ⟨b1, b2, b3⟩ := hp n h1 h2
      refine ⟨a1, a2, a3, a4, a5, a6, b3, a8, fun z hz => ?_⟩
      have := a9 z hz
      rwa [show (fun i : Fin n => Y n i) = fun i : Fin n => minMaxImage (p n).1 (p n).2 (f (x i)) from
        funext fun i => normalized_eq b1 b2 a7 i] at this
  obtain ⟨b1, b2, -⟩ := hp n hn1 hn2
  have h1 := hle z hz
  rw [add_assoc, add_zero] at h1
  have h2 := minMaxImage_le (w := spread) (b2.2 b1.1) (by
    obtain ⟨i, hi⟩ := b1.1
    obtain ⟨j, hj⟩ := b2.1
    rw [← hi, ← hj]
    exact (le_abs_self _).trans (hspread _ (hxD j) _ (hxD i))) (by positivity) h1
  have h3 := hb'.2 ⟨⟨i, by omega⟩, rfl⟩
  exact h3.trans h2

/-- Two points, hyperparameters that alternate, and endless choices by an acquisition function that
scores points one by one, from responses normalised anew. -/
private theorem alternating (σ : ℕ → ℝ) {acq : List ℝ → List ℝ → List ℝ → Py (List ℝ)}
    {g : List ℝ → ℝ → ℝ → ℝ} (hacq : ∀ Y m m' t t', Y ≠ [] → 0 < t → 0 < t' →
      acq [m, m'] [t, t'] Y = .ok [g Y m t, g Y m' t']) :
    ∃ (a b : Point 1) (f : Point 1 → ℝ) (h : ℕ → HypDict) (s : ℕ → ℝ)
    (l : ℕ → Fin 1 → ℝ) (x : ℕ → Point 1) (Y : ℕ → ℕ → ℝ), f b < f a ∧ x 0 = a ∧ h 1 ≠ h 2 ∧
    (∀ n, x n ∈ ({a, b} : Set (Point 1))) ∧
    (∀ u ∈ ({a, b} : Set (Point 1)), ∀ v ∈ ({a, b} : Set (Point 1)), |f u - f v| ≤ 6) ∧
    ∀ n, 1 ≤ n → Describes (h n) (σ n) (s n) (l n) ∧
      |s n| ≤ 2 ∧ (∀ k, 2 ≤ |l n k|) ∧ PriorFunction (none : Gp.PriorMu 1) (fun _ => 0) ∧
      (∃ lo hi, IsLeast (Set.range fun i : Fin n => f (x i)) lo ∧
        IsGreatest (Set.range fun i : Fin n => f (x i)) hi ∧
        NormAtMostOn {a, b} "se" (s n) (l n) 15 (fun z => minMaxImage lo hi (f z) - 0)) ∧
      UtilsBo.normalizeMinMax (List.ofFn fun i : Fin n => f (x i)) =
        .ok (List.ofFn fun i : Fin n => Y n i) ∧ x n ∈ ({a, b} : Set (Point 1)) ∧
      ChosenBy acq {a, b} x (Y n) (h n) "se" none 0 n := by
  classical
  have hb : "se" ∈ baseNames := by simp [baseNames]
  let a : Point 1 := fun _ => 0
  let b : Point 1 := fun _ => 6
  have hab : a ≠ b := fun h => by have := congrFun h 0; norm_num [a, b] at this
  let f : Point 1 → ℝ := fun z => 5 - z 0
  let s : ℕ → ℝ := fun n => if Even n then 1 else 2
  let l : ℕ → Fin 1 → ℝ := fun n _ => if Even n then 2 else 3
  let h : ℕ → HypDict := fun n => ⟨some (.flt (.fin (σ n))), none, some (.flt (.fin (s n))),
    some (.arr [.fin (l n 0)])⟩
  have hd : ∀ n, Describes (h n) (σ n) (s n) (l n) := fun n =>
    ⟨rfl, rfl, .inl rfl, by intro k; simp only [l]; split_ifs <;> norm_num⟩
  -- the normalised responses
  have hT : ∀ (n : ℕ) (p : Fin n → Point 1), ∃ t : Fin n → ℝ, 1 ≤ n →
      UtilsBo.normalizeMinMax (List.ofFn fun i : Fin n => f (p i)) = .ok (List.ofFn t) := by
    intro n p
    rcases Nat.eq_zero_or_pos n with rfl | hn
    · exact ⟨0, fun h => absurd h (by norm_num)⟩
    · obtain ⟨mx, h1⟩ := npMax_exists (l := List.ofFn fun i : Fin n => f (p i)) (by simp; omega)
      obtain ⟨mn, h2⟩ := npMin_exists (l := List.ofFn fun i : Fin n => f (p i)) (by simp; omega)
      by_cases hz : mx = mn
      · exact ⟨fun i => f (p i), fun _ => by
          simp [UtilsBo.normalizeMinMax, h1, h2, bind, Except.bind, pure, Except.pure, hz]⟩
      · exact ⟨fun i => (f (p i) - mn) / (mx - mn) * MULTIPLIER_RESPONSE, fun _ => by
          simp [UtilsBo.normalizeMinMax, h1, h2, bind, Except.bind, pure, Except.pure, hz]
          rfl⟩
  choose T hT using hT
  obtain ⟨x, hx0, hx⟩ := exists_chosen_seq hb hd (Set.toFinite {a, b}) ⟨a, by simp⟩
    hacq T a
  have hxC : ∀ n, x n ∈ ({a, b} : Set (Point 1)) := fun n => by
    rcases Nat.eq_zero_or_pos n with rfl | hn
    · rw [hx0]
      simp
    · exact (hx n hn).1
  have hfa : f a = 5 := by norm_num [f, a]
  have hfb : f b = -1 := by norm_num [f, b]
  have hk : ∀ n, kernel "se" (s n) (l n) a b = s n ^ 2 * Real.exp (-(18 / l n 0 ^ 2)) := by
    intro n
    have h1 : ¬ ("se" : String) = "matern32" := by decide
    have h2 : ¬ ("se" : String) = "matern52" := by decide
    have h3 : scaledDistance (l n) a b ^ 2 = 36 / l n 0 ^ 2 := by
      rw [scaledDistance, Real.sq_sqrt (by positivity)]
      simp only [Finset.univ_unique, Finset.sum_singleton, Fin.default_eq_zero, Fin.isValue, a, b]
      ring
    simp only [kernel, profile, h1, h2, if_false, seProfile]
    rw [show scaledDistance (l n) a b ^ 2 / 2 = 18 / l n 0 ^ 2 by rw [h3]; ring]
  have hexp : ∀ n, Real.exp (-(18 / l n 0 ^ 2)) ≤ 1 / 3 := by
    intro n
    have h1 : 2 ≤ 18 / l n 0 ^ 2 := by
      simp only [l]
      split_ifs <;> norm_num
    rw [Real.exp_neg, inv_eq_one_div]
    refine one_div_le_one_div_of_le (by norm_num) ?_
    linarith [Real.add_one_le_exp (18 / l n 0 ^ 2)]
  refine ⟨a, b, f, h, s, l, x, fun n i => if hi : i < n then T n (fun i => x i) ⟨i, hi⟩ else 0, by
    rw [hfa, hfb]; norm_num, hx0, ?_, hxC, ?_, fun n hn => ⟨hd n, ?_, ?_, fun n X => rfl, ?_, ?_,
      hxC n, (hx n hn).2 _ fun i => by simp⟩⟩
  · intro he
    have := congrArg HypDict.signal he
    norm_num [h, s] at this
  · intro u hu v hv
    rcases hu with rfl | hu <;> rcases hv with rfl | hv
    · norm_num
    · obtain rfl : v = b := hv
      rw [hfa, hfb]; norm_num
    · obtain rfl : u = b := hu
      rw [hfa, hfb]; norm_num
    · obtain rfl : u = b := hu
      obtain rfl : v = b := hv
      norm_num
  · simp only [s]
    split_ifs <;> norm_num
  · intro k
    simp only [l]
    split_ifs <;> norm_num
  · have hne : (Set.range fun i : Fin n => f (x i)).Nonempty := ⟨_, ⟨0, hn⟩, rfl⟩
    have hfin := Set.finite_range fun i : Fin n => f (x i)
    refine ⟨_, _, hfin.isCompact.isLeast_sInf hne, hfin.isCompact.isGreatest_sSup hne, ?_⟩
    have hlo := (hfin.isCompact.isLeast_sInf hne).1
    have hhi := (hfin.isCompact.isGreatest_sSup hne).1
    have hle : sInf (Set.range fun i : Fin n => f (x i)) ≤ sSup (Set.range fun i : Fin n => f (x i)) :=
      (hfin.isCompact.isGreatest_sSup hne).2 hlo
    generalize sInf (Set.range fun i : Fin n => f (x i)) = lo at *
    generalize sSup (Set.range fun i : Fin n => f (x i)) = hi at *
    have hval : ∀ t ∈ Set.range fun i : Fin n => f (x i), t = 5 ∨ t = -1 := by
      rintro _ ⟨i, rfl⟩
      rcases hxC i with h | h
      · left
        simp only [h, hfa]
      · right
        have h : x i = b := h
        simp only [h, hfb]
    have hs1 : 1 ≤ s n ^ 2 := by
      simp only [s]
      split_ifs <;> norm_num
    have h2 := mul_le_mul_of_nonneg_left (hexp n) (show 0 ≤ s n ^ 2 by linarith)
    refine normAtMostOn_pair hab (hk n) (mul_nonneg (by linarith) (Real.exp_pos _).le) (by linarith)
      (by norm_num) ?_
    simp only [hfa, hfb, sub_zero, minMaxImage]
    rcases hval lo hlo with rfl | rfl <;> rcases hval hi hhi with rfl | rfl
    · norm_num
      linarith
    · norm_num at hle
    · norm_num
      linarith
    · norm_num
      linarith
  · rw [hT n (fun i => x i) hn]
    congr 2
    funext i
    simp

/-- Two points, hyperparameters that alternate, and endless choices by `ei` from responses normalised
anew: the hypotheses of C145 hold for every number of choices. -/
example : ∃ (a b : Point 1) (f : Point 1 → ℝ) (h : ℕ → HypDict) (σ s : ℕ → ℝ)
    (l : ℕ → Fin 1 → ℝ) (x : ℕ → Point 1) (Y : ℕ → ℕ → ℝ), f b < f a ∧ x 0 = a ∧ h 1 ≠ h 2 ∧
    Filter.Tendsto (fun _ : ℝ => (0 : ℝ)) (nhds 0) (nhds 0) ∧
    (∀ n, x n ∈ ({a, b} : Set (Point 1))) ∧
    (∀ u ∈ ({a, b} : Set (Point 1)), ∀ v ∈ ({a, b} : Set (Point 1)), |f u - f v| ≤ 6) ∧
    ∀ n, 1 ≤ n → Describes (h n) (σ n) (s n) (l n) ∧
      |σ n| ≤ 1 ∧ |s n| ≤ 2 ∧ (∀ k, 2 ≤ |l n k|) ∧
      PriorFunction (none : Gp.PriorMu 1) (fun _ => 0) ∧
      (∀ u ∈ ({a, b} : Set (Point 1)), ∀ v ∈ ({a, b} : Set (Point 1)), |(0 : ℝ) - 0| ≤ 0) ∧
      (∃ lo hi, IsLeast (Set.range fun i : Fin n => f (x i)) lo ∧
        IsGreatest (Set.range fun i : Fin n => f (x i)) hi ∧
        NormAtMostOn {a, b} "se" (s n) (l n) 15 (fun z => minMaxImage lo hi (f z) - 0)) ∧
      UtilsBo.normalizeMinMax (List.ofFn fun i : Fin n => f (x i)) =
        .ok (List.ofFn fun i : Fin n => Y n i) ∧ x n ∈ ({a, b} : Set (Point 1)) ∧
      ChosenBy (fun mu sd Y => ei mu sd Y) {a, b} x (Y n) (h n) "se" none 0 n := by
  have hbest : ∀ Y : List ℝ, Y ≠ [] → ∃ b, IsBest Y b := by
    intro Y hY
    obtain ⟨b, hb, hmin⟩ := Finset.exists_min_image Y.toFinset id (by simpa using hY)
    exact ⟨b, List.mem_toFinset.1 hb, fun y hy => hmin y (List.mem_toFinset.2 hy)⟩
  choose! best hbest using hbest
  have hj : (0 : ℝ) < JITTER_ACQ := by norm_num [JITTER_ACQ]
  have hjs : ∀ t t' : ℝ, 0 < t → 0 < t' → ∀ s ∈ [t, t'], 0 < s + JITTER_ACQ := by
    intro t t' ht ht' s hs
    simp only [List.mem_cons, List.not_mem_nil, or_false] at hs
    rcases hs with rfl | rfl
    · exact add_pos ht hj
    · exact add_pos ht' hj
  obtain ⟨a, b, f, h, s, l, x, Y, h1, h2, h3, h4, h5, h6⟩ :=
    alternating (fun n => if Even n then 1 / 100 else 1 / 10) (acq := fun mu sd Y => ei mu sd Y)
    (g := fun Y m t => (best Y - m) * normCdf ((best Y - m) / (t + JITTER_ACQ)) +
      t * normPdf ((best Y - m) / (t + JITTER_ACQ)))
    (fun Y m m' t t' hY ht ht' => ei_eq [m, m'] [t, t'] Y JITTER_ACQ _ rfl (hbest Y hY)
      (hjs t t' ht ht'))
  refine ⟨a, b, f, h, fun n => if Even n then 1 / 100 else 1 / 10, s, l, x, Y, h1, h2, h3,
    tendsto_const_nhds, h4, h5, fun n hn => ?_⟩
  obtain ⟨q1, q2, q3, q4, q5, q6, q7, q8⟩ := h6 n hn
  refine ⟨q1, ?_, q2, q3, q4, fun _ _ _ _ => by simp, q5, q6, q7, q8⟩
  beta_reduce
  split_ifs <;> norm_num

/-- The same by `aei` with the fixed noise of the package. -/
example : ∃ (a b : Point 1) (f : Point 1 → ℝ) (h : ℕ → HypDict) (σ s : ℕ → ℝ)
    (l : ℕ → Fin 1 → ℝ) (x : ℕ → Point 1) (Y : ℕ → ℕ → ℝ), f b < f a ∧ x 0 = a ∧ h 1 ≠ h 2 ∧
    Filter.Tendsto (fun _ : ℝ => (0 : ℝ)) (nhds 0) (nhds 0) ∧
    (∀ n, x n ∈ ({a, b} : Set (Point 1))) ∧
    (∀ u ∈ ({a, b} : Set (Point 1)), ∀ v ∈ ({a, b} : Set (Point 1)), |f u - f v| ≤ 6) ∧
    ∀ n, 1 ≤ n → Describes (h n) (σ n) (s n) (l n) ∧
      (0 ≤ σ n ∧ σ n ≤ 1) ∧ |s n| ≤ 2 ∧ (∀ k, 2 ≤ |l n k|) ∧
      PriorFunction (none : Gp.PriorMu 1) (fun _ => 0) ∧
      (∀ u ∈ ({a, b} : Set (Point 1)), ∀ v ∈ ({a, b} : Set (Point 1)), |(0 : ℝ) - 0| ≤ 0) ∧
      (∃ lo hi, IsLeast (Set.range fun i : Fin n => f (x i)) lo ∧
        IsGreatest (Set.range fun i : Fin n => f (x i)) hi ∧
        NormAtMostOn {a, b} "se" (s n) (l n) 15 (fun z => minMaxImage lo hi (f z) - 0)) ∧
      UtilsBo.normalizeMinMax (List.ofFn fun i : Fin n => f (x i)) =
        .ok (List.ofFn fun i : Fin n => Y n i) ∧ x n ∈ ({a, b} : Set (Point 1)) ∧
      ChosenBy (fun mu sd Y => aei mu sd Y (σ n)) {a, b} x (Y n) (h n) "se" none 0 n := by
  have hbest : ∀ Y : List ℝ, Y ≠ [] → ∃ b, IsBest Y b := by
    intro Y hY
    obtain ⟨b, hb, hmin⟩ := Finset.exists_min_image Y.toFinset id (by simpa using hY)
    exact ⟨b, List.mem_toFinset.1 hb, fun y hy => hmin y (List.mem_toFinset.2 hy)⟩
  choose! best hbest using hbest
  have hj : (0 : ℝ) < JITTER_ACQ := by norm_num [JITTER_ACQ]
  have hjs : ∀ t t' : ℝ, 0 < t → 0 < t' → ∀ s ∈ [t, t'], 0 < s + JITTER_ACQ := by
    intro t t' ht ht' s hs
    simp only [List.mem_cons, List.not_mem_nil, or_false] at hs
    rcases hs with rfl | rfl
    · exact add_pos ht hj
    · exact add_pos ht' hj
  obtain ⟨a, b, f, h, s, l, x, Y, h1, h2, h3, h4, h5, h6⟩ :=
    alternating (fun _ => GP_NOISE) (acq := fun mu sd Y => aei mu sd Y GP_NOISE)
    (g := fun Y m t => ((best Y - m) * normCdf ((best Y - m) / (t + JITTER_ACQ)) +
      t * normPdf ((best Y - m) / (t + JITTER_ACQ))) * discount GP_NOISE t)
    (fun Y m m' t t' hY ht ht' => by
      obtain ⟨eis, vals, q1, q2, q4, q5, q3⟩ := C45_product [m, m'] [t, t'] Y GP_NOISE JITTER_ACQ _ rfl
        (hbest Y hY) (hjs t t' ht ht') (by
          intro s hs
          simp only [List.mem_cons, List.not_mem_nil, or_false] at hs
          rcases hs with rfl | rfl <;> positivity)
      rw [ei_eq [m, m'] [t, t'] Y JITTER_ACQ _ rfl (hbest Y hY) (hjs t t' ht ht')] at q1
      simp only [Except.ok.injEq, List.zipWith_cons_cons, List.zipWith_nil_left] at q1
      subst q1
      obtain ⟨v, v', rfl⟩ := List.length_eq_two.1 q4
      have r0 := q3 0 t _ v rfl rfl rfl
      have r1 := q3 1 t' _ v' rfl rfl rfl
      beta_reduce
      rw [q2, r0, r1])
  refine ⟨a, b, f, h, fun _ => GP_NOISE, s, l, x, Y, h1, h2, h3, tendsto_const_nhds, h4, h5,
    fun n hn => ?_⟩
  obtain ⟨q1, q2, q3, q4, q5, q6, q7, q8⟩ := h6 n hn
  exact ⟨q1, by norm_num [GP_NOISE], q2, q3, q4, fun _ _ _ _ => by simp, q5, q6, q7, q8⟩

end Verif.Props
