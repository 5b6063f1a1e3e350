import Verif.Lemmas.GrowingWeight
import Verif.Lemmas.Selection

/-! # Expected improvement with other hyperparameters at every choice (lemmas for C145) -/

namespace Verif.Lemmas

open Verif.Spec Verif.Covariance Verif.UtilsCovariance Verif.Acquisition Verif.Constants
open Matrix hiding gram

/-- Functions of bounded norm on a set change little between close points of it, in the same way for
all signals and lengthscales within bounds. -/
theorem norm_near_on (base : String) (d : ℕ) {smax lmin B θ : ℝ} (hl : 0 < lmin) (hB : 0 ≤ B)
    (hθ : 0 < θ) : ∃ ρ > 0, ∀ (s : ℝ) (l : Fin d → ℝ), |s| ≤ smax → (∀ k, lmin ≤ |l k|) →
      ∀ (D : Set (Point d)) (g : Point d → ℝ), NormAtMostOn D base s l B g →
      ∀ x ∈ D, ∀ y ∈ D, dist x y ≤ ρ → |g x - g y| ≤ θ := by
  obtain ⟨L, hL, hk⟩ := kernel_linear base d (smax := smax) hl
  refine ⟨(θ / (B + 1)) ^ 2 / 2 / L, by positivity, fun s l hs hll D g hg x hx y hy hxy => ?_⟩
  have h := hg.2 2 ![x, y] (by intro i; fin_cases i <;> simp [hx, hy]) ![1, -1]
  simp only [Fin.sum_univ_two, Matrix.cons_val_zero, Matrix.cons_val_one, one_mul, neg_mul,
    mul_one, mul_neg, neg_neg] at h
  have h0 := hk s l hs hll x y
  have hL0 : 0 < L := by linarith
  rw [le_div_iff₀ hL0] at hxy
  have h1 : s ^ 2 - (θ / (B + 1)) ^ 2 / 2 ≤ kernel base s l x y := by linarith
  have h2 := kernel_symm base s l y x
  have h3 := kernel_le base s l x x
  have h4 := kernel_le base s l y y
  have h5 : √(kernel base s l x x + -kernel base s l x y +
      (-kernel base s l y x + kernel base s l y y)) ≤ θ / (B + 1) := by
    rw [Real.sqrt_le_left (by positivity)]
    linarith
  have h6 := mul_le_mul_of_nonneg_left h5 hB
  have h7 : B * (θ / (B + 1)) ≤ θ := by
    rw [mul_div_assoc', div_le_iff₀ (by positivity)]
    nlinarith
  rw [sub_eq_add_neg]
  linarith

/-- `exists_small` for hyperparameters that are others at every choice. -/
theorem exists_small_near (base : String) {d : ℕ} {C : Set (Point d)} (hC : Bornology.IsBounded C)
    {σmax smax lmin : ℝ} (hl : 0 < lmin) {η ρ' : ℝ} (hη : 0 < η) (hρ' : 0 < ρ') :
    ∃ M : ℕ, ∀ (σ s : ℕ → ℝ) (l : ℕ → Fin d → ℝ) (x : ℕ → Point d) (n₀ : ℕ),
      (∀ n, n₀ ≤ n → n < n₀ + M → |σ n| ≤ σmax ∧ |s n| ≤ smax ∧ (∀ k, lmin ≤ |l n k|) ∧ x n ∈ C) →
      ∃ n, n₀ ≤ n ∧ n < n₀ + M ∧ (∃ i, n₀ ≤ i ∧ i < n ∧ dist (x i) (x n) < ρ') ∧
      postCov base (σ n) (s n) (l n) (.vec fun i : Fin n => x i) (.vec fun _ : Fin 1 => x n) 0 0 ≤
        1 / 100000 + η := by
  obtain ⟨L, hL, hk⟩ := kernel_linear base d (smax := smax) hl
  have hL0 : 0 < L := by linarith
  set ρ := min (η / 4 / L) ρ' with hρd
  have hρ : 0 < ρ := lt_min (by positivity) hρ'
  obtain ⟨t, ht, hcov⟩ := Metric.totallyBounded_iff.1
    (hC.isCompact_closure.totallyBounded.subset subset_closure) (ρ / 2) (by linarith)
  obtain ⟨q, hq⟩ := exists_nat_gt ((σmax ^ 2 + 1 / 100000) / (η / 2))
  have hq0 : (0 : ℝ) < q := lt_trans (by positivity) hq
  refine ⟨ht.toFinset.card * q + 1, fun σ s l x n₀ hx => ?_⟩
  rw [div_lt_iff₀ (by linarith)] at hq
  obtain ⟨n, h1, h2, ⟨i, h3, h4, h5⟩, h6⟩ := exists_small_seq base (C := C) (σ := σ) (s := s) (l := l)
    (η := η) (ρ := ρ) (t := ht.toFinset) (q := q) x n₀
    (fun n a b x y hxy => (hk (s n) (l n) (hx n a b).2.1 (hx n a b).2.2.1 x y).trans' (by
      have := hxy.trans (min_le_left _ _)
      rw [le_div_iff₀ hL0] at this
      linarith))
    (fun z hz => by
      obtain ⟨y, hy⟩ := Set.mem_iUnion.1 (hcov hz)
      obtain ⟨hy1, hy2⟩ := Set.mem_iUnion.1 hy
      exact ⟨y, ht.mem_toFinset.2 hy1, hy2⟩) hq0 (fun n a b => by
      have hσ := (hx n a b).1
      have h1 : σ n ^ 2 ≤ σmax ^ 2 := sq_le_sq' (by linarith [(abs_le.1 hσ).1]) (abs_le.1 hσ).2
      linarith) fun n a b => (hx n a b).2.2.2
  exact ⟨n, h1, h2, ⟨i, h3, h4, h5.trans_le (min_le_right _ _)⟩, h6⟩

/-- What expected improvement says at a choice where the deviation is small and no response before is
much better than the value there. -/
theorem improve_step_on {d : ℕ} {base : String} (hb : base ∈ baseNames) {h : HypDict} {σ s : ℝ}
    {l : Fin d → ℝ} (hd : Describes h σ s l) {prior : Gp.PriorMu d} {m f : Point d → ℝ} {B θ : ℝ}
    {D : Set (Point d)} (hm : PriorFunction prior m)
    (hf : NormAtMostOn D base s l B (fun z => f z - m z)) (hθ : 0 ≤ θ)
    {x : ℕ → Point d} (hxD : ∀ n, x n ∈ D) {n : ℕ}
    (hv : postCov base σ s l (.vec fun i : Fin n => x i)
      (.vec fun _ : Fin 1 => x n) 0 0 ≤ 1 / 100000 + θ ^ 2)
    {b : ℝ} (hb1 : b ≤ f (x n) + 2 * θ) {z : Point d} (hz : z ∈ D) {mu sd S}
    (hp : Gp.predictWithHyps (.vec fun i : Fin n => x i) (fun i => f (x i)) (.vec ![x n, z]) h base
      prior = .ok (mu, sd, S)) :
    0 < sd 0 ∧ √(1 / 100000) ≤ sd 1 ∧
    (b - mu 0) * normCdf ((b - mu 0) / (sd 0 + JITTER_ACQ)) +
        sd 0 * normPdf ((b - mu 0) / (sd 0 + JITTER_ACQ)) ≤
      √(1 / 100000) * (√(2 * Real.pi))⁻¹ + (B + 3) * θ ∧
    (b - f z) * normCdf (-B) ≤ (b - mu 1) * normCdf ((b - mu 1) / (sd 1 + JITTER_ACQ)) +
        sd 1 * normPdf ((b - mu 1) / (sd 1 + JITTER_ACQ)) + JITTER_ACQ * (√(2 * Real.pi))⁻¹ := by
  have hpr := PriorFunction.total hm
  obtain ⟨h1, h2⟩ := predicted_sq hb hd hpr hp 0
  obtain ⟨h3, h4⟩ := predicted_sq hb hd hpr hp 1
  have e0 := predicted_error_on hb hd hm hf (fun i => hxD i) hp (i := 0) (hxD n)
  have e1 := predicted_error_on hb hd hm hf (fun i => hxD i) hp (i := 1) hz
  simp only [Matrix.cons_val_zero, Matrix.cons_val_one, sub_self, ne_eq, OfNat.ofNat_ne_zero,
    not_false_eq_true, zero_pow, Finset.sum_const_zero, zero_div, add_zero,
    Real.sqrt_sq hf.1] at h2 e0 e1 h4
  have hge := postCov_diag_ge base σ s l (.vec fun i : Fin n => x i) (.vec fun _ : Fin 1 => z) 0
  rw [← h4] at hge
  rw [← h2] at hv
  have h5 : sd 0 ≤ √(1 / 100000) + θ := by
    refine abs_le_of_sq_le_sq' ?_ (by positivity) |>.2
    rw [add_sq, Real.sq_sqrt (by norm_num)]
    have := mul_nonneg (mul_nonneg zero_le_two (Real.sqrt_nonneg (1 / 100000))) hθ
    linarith
  have h6 : √(sd 0 ^ 2 - 1 / 100000) ≤ θ := by
    rw [Real.sqrt_le_left hθ]
    linarith
  have h7 : √(sd 1 ^ 2 - 1 / 100000) ≤ sd 1 := by
    rw [Real.sqrt_le_left h3.le]
    linarith
  refine ⟨h1, ?_, ?_, ?_⟩
  · rw [Real.sqrt_le_left h3.le]
    exact hge
  · refine (improve_le h1.le).trans ?_
    have a1 := mul_le_mul_of_nonneg_left h6 hf.1
    have a2 := (abs_le.1 e0).2
    have a3 : max (b - mu 0) 0 ≤ 2 * θ + B * θ :=
      max_le (by linarith) (by have := mul_nonneg hf.1 hθ; linarith)
    have a4 := mul_le_mul_of_nonneg_right h5 (show 0 ≤ (√(2 * Real.pi))⁻¹ by positivity)
    have a5 := mul_le_mul_of_nonneg_left pdf_zero_le_one hθ
    linarith
  · refine improve_gap h3.le (by norm_num [JITTER_ACQ]) ?_
    have a1 := mul_le_mul_of_nonneg_left h7 hf.1
    have a2 := (abs_le.1 e1).1
    linarith

/-- Responses normalised to `[0, 10]` are the images of the responses. -/
theorem normalized_eq {n : ℕ} {v t : Fin n → ℝ} {lo hi : ℝ} (h1 : IsLeast (Set.range v) lo)
    (h2 : IsGreatest (Set.range v) hi)
    (h : UtilsBo.normalizeMinMax (List.ofFn v) = .ok (List.ofFn t)) (i : Fin n) :
    t i = minMaxImage lo hi (v i) := by
  have hmin := (npMin_ok (l := List.ofFn v) (m := lo)).2
    ⟨by simpa [List.mem_ofFn] using h1.1, fun y hy => h1.2 (by simpa [List.mem_ofFn] using hy)⟩
  have hmax := (npMax_ok (l := List.ofFn v) (m := hi)).2
    ⟨by simpa [List.mem_ofFn] using h2.1, fun y hy => h2.2 (by simpa [List.mem_ofFn] using hy)⟩
  simp only [UtilsBo.normalizeMinMax, hmin, hmax, bind, Except.bind, pure, Except.pure] at h
  unfold minMaxImage
  by_cases hc : hi = lo
  · rw [if_neg (not_not.2 hc)] at h
    rw [if_pos hc]
    exact (congrFun (List.ofFn_injective (Except.ok.inj h)) i).symm
  · rw [if_pos hc, List.map_ofFn] at h
    rw [if_neg hc, ← congrFun (List.ofFn_injective (Except.ok.inj h)) i]
    simp only [Function.comp, MULTIPLIER_RESPONSE]
    ring

/-- A bound for the images is a bound for the values, in their own units. -/
theorem minMaxImage_le {lo hi u v c w : ℝ} (hlo : lo ≤ hi) (hw : hi - lo ≤ w) (hc : 0 ≤ c)
    (h : minMaxImage lo hi u ≤ minMaxImage lo hi v + c) : u ≤ v + max 1 (w / 10) * c := by
  simp only [minMaxImage] at h
  split_ifs at h with he
  · have := mul_le_mul_of_nonneg_right (le_max_left 1 (w / 10)) hc
    linarith
  · have hlt : 0 < hi - lo := by
      rcases hlo.lt_or_eq with h | h
      · linarith
      · exact absurd h.symm he
    rw [div_add' _ _ _ hlt.ne', div_le_div_iff_of_pos_right hlt] at h
    have h2 : (hi - lo) / 10 ≤ max 1 (w / 10) := le_trans (by linarith) (le_max_right _ _)
    have h3 := mul_le_mul_of_nonneg_right h2 hc
    linarith

end Verif.Lemmas
