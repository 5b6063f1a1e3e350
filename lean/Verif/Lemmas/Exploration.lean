import Verif.Lemmas.Regret
import Verif.Spec.Regret
import Verif.Spec.Exploration
import Verif.Spec.Total
import Verif.Props.Gp
import Mathlib.Topology.MetricSpace.ProperSpace.Lemmas
import Mathlib.Combinatorics.Pigeonhole

/-! # Variances near the data and the information of two batches (lemmas for C121 and C122) -/

namespace Verif.Lemmas

open Verif.Spec Verif.Covariance Verif.UtilsCovariance
open Matrix hiding gram

section Near

variable {n d : ℕ} (base : String) (σ s : ℝ) (l : Fin d → ℝ)

/-- The predicted variance at one of several points does not depend on the others. -/
theorem postCov_single {m : ℕ} (X : Inputs n d) (p : Fin m → Point d) (i : Fin m) :
    postCov base σ s l X (.vec p) i i = postCov base σ s l X (.vec fun _ : Fin 1 => p i) 0 0 := by
  simp [postCov, gram, item, Matrix.mul_apply, Matrix.sub_apply, Matrix.add_apply]

/-- Many observations close to a point leave little variance there. -/
theorem postCov_near (x : Fin n → Point d) (z : Point d) {A : Finset (Fin n)} (hA : A.Nonempty)
    {ε : ℝ} (hε : ∀ i ∈ A, s ^ 2 - ε ≤ kernel base s l (x i) z) :
    postCov base σ s l (.vec x) (.vec fun _ : Fin 1 => z) 0 0 ≤
      1 / 100000 + 2 * ε + (σ ^ 2 + 1 / 100000) / A.card := by
  have hc : (0 : ℝ) < A.card := by exact_mod_cast hA.card_pos
  let w : Fin n → ℝ := fun i => if i ∈ A then (A.card : ℝ)⁻¹ else 0
  have hw : ∀ g : Fin n → ℝ, ∑ i, w i * g i = ∑ i ∈ A, (A.card : ℝ)⁻¹ * g i := by
    intro g
    simp only [w, ite_mul, zero_mul, Finset.sum_ite_mem, Finset.univ_inter]
  have hk : ∀ u v : Point d, itemKernel base s l ⟨1, fun _ => u⟩ ⟨1, fun _ => v⟩ =
      kernel base s l u v := by
    intro u v
    simp [itemKernel, setKernel]
  have h := postCov_le base σ s l (.vec x) (.vec fun _ : Fin 1 => z) (fun _ => 1) w
  have e0 : (fun _ : Fin 1 => (1 : ℝ)) ⬝ᵥ
      (postCov base σ s l (.vec x) (.vec fun _ : Fin 1 => z) *ᵥ fun _ => 1) =
      postCov base σ s l (.vec x) (.vec fun _ : Fin 1 => z) 0 0 := by
    simp [dotProduct, mulVec]
  rw [e0] at h
  refine h.trans ?_
  have e1 : (fun _ : Fin 1 => (1 : ℝ)) ⬝ᵥ ((gram base s l (.vec fun _ : Fin 1 => z)
      (.vec fun _ : Fin 1 => z) + (1 / 100000 : ℝ) • (1 : Matrix (Fin 1) (Fin 1) ℝ)) *ᵥ fun _ => 1) =
      kernel base s l z z + 1 / 100000 := by
    simp [dotProduct, mulVec, gram, item, hk]
  have e2 : w ⬝ᵥ (gram base s l (.vec x) (.vec fun _ : Fin 1 => z) *ᵥ fun _ => 1) =
      ∑ i ∈ A, (A.card : ℝ)⁻¹ * kernel base s l (x i) z := by
    rw [dotProduct, hw]
    simp [dotProduct, mulVec, gram, item, hk]
  have e3 : w ⬝ᵥ (noisyGram base σ s l (.vec x) *ᵥ w) =
      ∑ i ∈ A, ∑ j ∈ A, (A.card : ℝ)⁻¹ * ((A.card : ℝ)⁻¹ * kernel base s l (x i) (x j)) +
        (σ ^ 2 + 1 / 100000) / A.card := by
    rw [noisyGram, add_mulVec, dotProduct_add, smul_mulVec, one_mulVec, dotProduct_smul]
    congr 1
    · rw [dotProduct, hw]
      refine Finset.sum_congr rfl fun i _ => ?_
      rw [← Finset.mul_sum]
      congr 1
      simp only [mulVec, dotProduct, mul_comm _ (w _)]
      rw [hw]
      exact Finset.sum_congr rfl fun j _ => by simp [gram, item, hk]
    · rw [dotProduct, hw, smul_eq_mul]
      have : ∑ i ∈ A, (A.card : ℝ)⁻¹ * w i = (A.card : ℝ)⁻¹ := by
        rw [Finset.sum_congr rfl fun i hi => by
          rw [show w i = (A.card : ℝ)⁻¹ from if_pos hi]]
        rw [Finset.sum_const, nsmul_eq_mul]
        field_simp
      rw [this]
      exact (div_eq_mul_inv _ _).symm
  rw [errForm, e1, e2, e3]
  have b1 : kernel base s l z z ≤ s ^ 2 := kernel_le _ _ _ _ _
  have b2 : s ^ 2 - ε ≤ ∑ i ∈ A, (A.card : ℝ)⁻¹ * kernel base s l (x i) z := by
    have : ∑ i ∈ A, (A.card : ℝ)⁻¹ * (s ^ 2 - ε) ≤
        ∑ i ∈ A, (A.card : ℝ)⁻¹ * kernel base s l (x i) z :=
      Finset.sum_le_sum fun i hi => mul_le_mul_of_nonneg_left (hε i hi) (inv_nonneg.2 hc.le)
    rw [Finset.sum_const, nsmul_eq_mul, mul_inv_cancel_left₀ hc.ne'] at this
    exact this
  have b3 : ∑ i ∈ A, ∑ j ∈ A, (A.card : ℝ)⁻¹ * ((A.card : ℝ)⁻¹ * kernel base s l (x i) (x j)) ≤
      s ^ 2 := by
    have : ∑ i ∈ A, ∑ j ∈ A, (A.card : ℝ)⁻¹ * ((A.card : ℝ)⁻¹ * kernel base s l (x i) (x j)) ≤
        ∑ i ∈ A, ∑ j ∈ A, (A.card : ℝ)⁻¹ * ((A.card : ℝ)⁻¹ * s ^ 2) :=
      Finset.sum_le_sum fun i _ => Finset.sum_le_sum fun j _ =>
        mul_le_mul_of_nonneg_left (mul_le_mul_of_nonneg_left (kernel_le _ _ _ _ _)
          (inv_nonneg.2 hc.le)) (inv_nonneg.2 hc.le)
    rw [Finset.sum_const, Finset.sum_const, nsmul_eq_mul, nsmul_eq_mul,
      mul_inv_cancel_left₀ hc.ne', mul_inv_cancel_left₀ hc.ne'] at this
    exact this
  linarith

theorem profile_continuous (name : String) : Continuous (profile name) := by
  unfold profile
  split_ifs
  · unfold m32Profile; fun_prop
  · unfold m52Profile; fun_prop
  · unfold seProfile; fun_prop

/-- The covariance of two inputs is close to the signal variance when they are close. -/
theorem kernel_near {ε : ℝ} (hε : 0 < ε) :
    ∃ ρ > 0, ∀ x y : Point d, dist x y ≤ ρ → s ^ 2 - ε ≤ kernel base s l x y := by
  have h0 : profile base 0 = 1 := by
    unfold profile
    split_ifs <;> simp [m32Profile, m52Profile, seProfile]
  have hc : Filter.Tendsto (fun ρ : ℝ => s ^ 2 * profile base ρ) (nhds 0) (nhds (s ^ 2)) := by
    have := ((profile_continuous base).tendsto 0).const_mul (s ^ 2)
    rwa [h0, mul_one] at this
  obtain ⟨r, hr, hR⟩ := Metric.eventually_nhds_iff.1
    (hc.eventually (lt_mem_nhds (show s ^ 2 - ε < s ^ 2 by linarith)))
  set L := √(∑ k, (1 / l k) ^ 2) with hL
  have hL0 : 0 ≤ L := Real.sqrt_nonneg _
  refine ⟨r / (2 * (L + 1)), by positivity, fun x y hxy => ?_⟩
  have hd : scaledDistance l x y ≤ dist x y * L := by
    rw [hL, scaledDistance, show dist x y = √(dist x y ^ 2) from (Real.sqrt_sq dist_nonneg).symm,
      ← Real.sqrt_mul (sq_nonneg _)]
    refine Real.sqrt_le_sqrt ?_
    rw [Finset.mul_sum]
    refine Finset.sum_le_sum fun k _ => ?_
    rw [div_eq_mul_one_div, mul_pow]
    refine mul_le_mul_of_nonneg_right ?_ (sq_nonneg _)
    have := dist_le_pi_dist x y k
    rw [Real.dist_eq] at this
    rw [← sq_abs (x k - y k)]
    exact pow_le_pow_left₀ (abs_nonneg _) this 2
  have hlt : scaledDistance l x y < r := by
    refine hd.trans_lt ?_
    calc dist x y * L ≤ r / (2 * (L + 1)) * L := mul_le_mul_of_nonneg_right hxy hL0
      _ = r * (L / (2 * (L + 1))) := by ring
      _ < r * 1 := by
        refine mul_lt_mul_of_pos_left ?_ hr
        rw [div_lt_one (by positivity)]
        linarith
      _ = r := mul_one r
  refine (hR ?_).le
  rw [Real.dist_eq, sub_zero, abs_of_nonneg (show 0 ≤ scaledDistance l x y from Real.sqrt_nonneg _)]
  exact hlt

/-- Among more choices than `q` for each ball of a cover, one is at a point where the variance
predicted from the choices before it is little more than the jitter, and one of these is near it.
The hyperparameters may be others at every choice. -/
theorem exists_small_seq (base : String) {σ s : ℕ → ℝ} {l : ℕ → Fin d → ℝ} {C : Set (Point d)}
    {η ρ : ℝ} {t : Finset (Point d)} {q : ℕ} (x : ℕ → Point d) (n₀ : ℕ)
    (hk : ∀ n, n₀ ≤ n → n < n₀ + (t.card * q + 1) → ∀ x y : Point d, dist x y ≤ ρ →
      s n ^ 2 - η / 4 ≤ kernel base (s n) (l n) x y)
    (hcov : ∀ z ∈ C, ∃ y ∈ t, dist z y < ρ / 2) (hq0 : (0 : ℝ) < q)
    (hq : ∀ n, n₀ ≤ n → n < n₀ + (t.card * q + 1) → (σ n ^ 2 + 1 / 100000) ≤ q * (η / 2))
    (hx : ∀ n, n₀ ≤ n → n < n₀ + (t.card * q + 1) → x n ∈ C) :
    ∃ n, n₀ ≤ n ∧ n < n₀ + (t.card * q + 1) ∧ (∃ i, n₀ ≤ i ∧ i < n ∧ dist (x i) (x n) < ρ) ∧
      postCov base (σ n) (s n) (l n) (.vec fun i : Fin n => x i) (.vec fun _ : Fin 1 => x n) 0 0 ≤
        1 / 100000 + η := by
  have hη : 0 < η := by
    have hτ : (0 : ℝ) < σ n₀ ^ 2 + 1 / 100000 := by positivity
    have := (pos_iff_pos_of_mul_pos (hτ.trans_le (hq n₀ le_rfl (by omega)))).1 hq0
    linarith
  set m := t.card * q + 1 with hm
  have hsel : ∀ n, ∃ y, n₀ ≤ n → n < n₀ + m → y ∈ t ∧ dist (x n) y < ρ / 2 := by
    intro n
    by_cases hn : n₀ ≤ n ∧ n < n₀ + m
    · obtain ⟨y, hy1, hy2⟩ := hcov _ (hx n hn.1 hn.2)
      exact ⟨y, fun _ _ => ⟨hy1, hy2⟩⟩
    · exact ⟨x 0, fun h h' => absurd ⟨h, h'⟩ hn⟩
  choose c hc using hsel
  obtain ⟨y, hy, hcard⟩ := Finset.exists_lt_card_fiber_of_mul_lt_card_of_maps_to
    (s := Finset.Ico n₀ (n₀ + m)) (t := t) (f := c) (n := q)
    (fun n hn => (hc n (Finset.mem_Ico.1 hn).1 (Finset.mem_Ico.1 hn).2).1) (by rw [Nat.card_Ico]; omega)
  set F := (Finset.Ico n₀ (n₀ + m)).filter fun n => c n = y with hF
  have hne : F.Nonempty := Finset.card_pos.1 (by omega)
  set n := F.max' hne with hn
  have hnF : n ∈ F := F.max'_mem hne
  have hFm : ∀ i ∈ F, n₀ ≤ i ∧ i < n₀ + m ∧ dist (x i) y < ρ / 2 := by
    intro i hi
    obtain ⟨h1, h2⟩ := Finset.mem_filter.1 hi
    obtain ⟨h3, h4⟩ := Finset.mem_Ico.1 h1
    exact ⟨h3, h4, h2 ▸ (hc i h3 h4).2⟩
  obtain ⟨hn1, hn2, hn3⟩ := hFm n hnF
  refine ⟨n, hn1, hn2, ?_⟩
  have hnear : ∀ i ∈ F, dist (x i) (x n) < ρ := by
    intro i hi
    have h1 := (hFm i hi).2.2
    have := dist_triangle_right (x i) (x n) y
    linarith
  set A : Finset (Fin n) := Finset.univ.filter fun i => (i : ℕ) ∈ F with hA
  have hAc : q ≤ A.card := by
    have : A.map Fin.valEmbedding = F.erase n := by
      ext i
      simp only [hA, Finset.mem_map, Finset.mem_filter, Finset.mem_univ, true_and,
        Fin.valEmbedding_apply, Finset.mem_erase]
      constructor
      · rintro ⟨j, hj, rfl⟩
        exact ⟨j.2.ne, hj⟩
      · rintro ⟨h1, h2⟩
        exact ⟨⟨i, lt_of_le_of_ne (F.le_max' i h2) h1⟩, h2, rfl⟩
    rw [← Finset.card_map Fin.valEmbedding, this, Finset.card_erase_of_mem hnF]
    omega
  have hA0 : A.Nonempty := Finset.card_pos.1 (by
    have : 0 < q := by exact_mod_cast hq0
    omega)
  obtain ⟨i₀, hi₀⟩ := id hA0
  refine ⟨⟨i₀, (hFm _ (Finset.mem_filter.1 hi₀).2).1, i₀.2, (hnear _ (Finset.mem_filter.1 hi₀).2)⟩, ?_⟩
  have := postCov_near base (σ n) (s n) (l n) (fun i : Fin n => x i) (x n) hA0 (ε := η / 4) (fun i hi =>
    hk n hn1 hn2 _ _ (hnear _ (Finset.mem_filter.1 hi).2).le)
  have hAq : (q : ℝ) ≤ A.card := by exact_mod_cast hAc
  have hq := hq n hn1 hn2
  have hb : (σ n ^ 2 + 1 / 100000) / A.card ≤ η / 2 := by
    rw [div_le_iff₀ (by linarith)]
    nlinarith
  linarith

/-- The same with fixed hyperparameters. -/
theorem exists_small_cover {C : Set (Point d)} {η ρ : ℝ} {t : Finset (Point d)}
    (hk : ∀ x y : Point d, dist x y ≤ ρ → s ^ 2 - η / 4 ≤ kernel base s l x y)
    (hcov : ∀ z ∈ C, ∃ y ∈ t, dist z y < ρ / 2) {q : ℕ} (hq0 : (0 : ℝ) < q)
    (hq : (σ ^ 2 + 1 / 100000) ≤ q * (η / 2)) (x : ℕ → Point d) (n₀ : ℕ)
    (hx : ∀ n, n₀ ≤ n → n < n₀ + (t.card * q + 1) → x n ∈ C) :
    ∃ n, n₀ ≤ n ∧ n < n₀ + (t.card * q + 1) ∧ (∃ i, n₀ ≤ i ∧ i < n ∧ dist (x i) (x n) < ρ) ∧
      postCov base σ s l (.vec fun i : Fin n => x i) (.vec fun _ : Fin 1 => x n) 0 0 ≤
        1 / 100000 + η :=
  exists_small_seq base (σ := fun _ => σ) (s := fun _ => s) (l := fun _ => l) x n₀
    (fun _ _ _ => hk) hcov hq0 (fun _ _ _ => hq) hx

/-- Among sufficiently many choices in a bounded set, one is at a point where the variance predicted
from the choices before it is little more than the jitter, and one of these is near it. -/
theorem exists_small {C : Set (Point d)} (hC : Bornology.IsBounded C) {η : ℝ} (hη : 0 < η)
    {ρ' : ℝ} (hρ' : 0 < ρ') :
    ∃ M : ℕ, ∀ (x : ℕ → Point d) (n₀ : ℕ), (∀ n, n₀ ≤ n → n < n₀ + M → x n ∈ C) →
      ∃ n, n₀ ≤ n ∧ n < n₀ + M ∧ (∃ i, n₀ ≤ i ∧ i < n ∧ dist (x i) (x n) < ρ') ∧
      postCov base σ s l (.vec fun i : Fin n => x i) (.vec fun _ : Fin 1 => x n) 0 0 ≤
        1 / 100000 + η := by
  obtain ⟨ρ₁, hρ₁, hk⟩ := kernel_near base s l (ε := η / 4) (by linarith)
  set ρ := min ρ₁ ρ' with hρd
  have hρ : 0 < ρ := lt_min hρ₁ hρ'
  obtain ⟨t, ht, hcov⟩ := Metric.totallyBounded_iff.1
    (hC.isCompact_closure.totallyBounded.subset subset_closure) (ρ / 2) (by linarith)
  obtain ⟨q, hq⟩ := exists_nat_gt ((σ ^ 2 + 1 / 100000) / (η / 2))
  have hq0 : (0 : ℝ) < q := lt_trans (by positivity) hq
  refine ⟨ht.toFinset.card * q + 1, fun x n₀ hx => ?_⟩
  rw [div_lt_iff₀ (by linarith)] at hq
  obtain ⟨n, h1, h2, ⟨i, h3, h4, h5⟩, h6⟩ := exists_small_cover base σ s l (C := C) (η := η) (ρ := ρ)
    (t := ht.toFinset) (fun x y h => hk x y (h.trans (min_le_left _ _))) (fun z hz => by
      obtain ⟨y, hy⟩ := Set.mem_iUnion.1 (hcov hz)
      obtain ⟨hy1, hy2⟩ := Set.mem_iUnion.1 hy
      exact ⟨y, ht.mem_toFinset.2 hy1, hy2⟩) hq0 hq.le x n₀ hx
  exact ⟨n, h1, h2, ⟨i, h3, h4, h5.trans_le (min_le_right _ _)⟩, h6⟩

end Near

section Batches

variable {d : ℕ} {base : String} {σ s : ℝ} {l : Fin d → ℝ}

/-- More data, smaller variance. -/
theorem postCov_mono (hb : base ∈ baseNames) {h : HypDict} (hd : Describes h σ s l) {n n' : ℕ}
    {x : Fin n → Point d} {x' : Fin n' → Point d} {e : Fin n → Fin n'} (he : Function.Injective e)
    (hx : ∀ i, x' (e i) = x i) (z : Point d) :
    postCov base σ s l (.vec x') (.vec fun _ : Fin 1 => z) 0 0 ≤
      postCov base σ s l (.vec x) (.vec fun _ : Fin 1 => z) 0 0 := by
  have hv : ∀ {n : ℕ} (v : Fin n → Point d), Suits base base (.vec v) := fun v => ⟨hb, .inl ⟨rfl, _, rfl⟩⟩
  obtain ⟨mu, sd, S, mu', sd', S', h1, h2, h3, -⟩ := Props.C33_more_data (hv x) (hv x')
    (hv fun _ : Fin 1 => z) hd (e := e) ⟨he, fun i => by simp [item, hx]⟩ 0 0 (prior := none) (μ := 0)
    (μ' := 0) (μs := 0) rfl rfl rfl
  rw [predictWithHyps_ok (hv _) (hv _) hd _ (prior := none) (μ := 0) (μs := 0) rfl rfl] at h1 h2
  simp only [Except.ok.injEq, Prod.mk.injEq] at h1 h2
  obtain ⟨-, -, rfl⟩ := h1
  obtain ⟨-, -, rfl⟩ := h2
  exact (h3 0).1

/-- The information with one more observation. -/
theorem informationGain_succ {n : ℕ} (x : Fin (n + 1) → Point d) :
    informationGain base σ s l (.vec x) = informationGain base σ s l (.vec fun i : Fin n => x i.castSucc) +
      Real.log (1 + (postCov base σ s l (.vec fun i : Fin n => x i.castSucc)
        (.vec fun _ : Fin 1 => x (Fin.last n)) 0 0 - 1 / 100000) / (σ ^ 2 + 1 / 100000)) := by
  have hτ : (0 : ℝ) < σ ^ 2 + 1 / 100000 := by positivity
  have hk := det_noisyGram_succ (base := base) (σ := σ) (s := s) (l := l) (X := .vec x)
    (X₁ := .vec fun i : Fin n => x i.castSucc) (X₂ := .vec fun _ : Fin 1 => x (Fin.last n))
    (fun i => rfl) (fun j => by rw [Subsingleton.elim j 0]; rfl)
  have hge := postCov_diag_ge base σ s l (.vec fun i : Fin n => x i.castSucc)
    (.vec fun _ : Fin 1 => x (Fin.last n)) 0
  set v := postCov base σ s l (.vec fun i : Fin n => x i.castSucc)
    (.vec fun _ : Fin 1 => x (Fin.last n)) 0 0 with hv
  rw [det_noisyGram_scale, det_noisyGram_scale] at hk
  have hdet := (noisyGram_posDef base σ s l (.vec fun i : Fin n => x i.castSucc)).det_pos
  rw [det_noisyGram_scale] at hdet
  have hd0 := pos_of_mul_pos_right hdet (by positivity)
  have hf : 0 < 1 + (v - 1 / 100000) / (σ ^ 2 + 1 / 100000) := by
    have : 0 ≤ (v - 1 / 100000) / (σ ^ 2 + 1 / 100000) := div_nonneg (by linarith) hτ.le
    linarith
  rw [informationGain, informationGain, ← Real.log_mul hd0.ne' hf.ne']
  congr 1
  have hpw : ((σ ^ 2 + 1 / 100000) ^ (n + 1) : ℝ) ≠ 0 := by positivity
  refine mul_left_cancel₀ hpw (hk.trans ?_)
  have : v + σ ^ 2 =
      (σ ^ 2 + 1 / 100000) * (1 + (v - 1 / 100000) / (σ ^ 2 + 1 / 100000)) := by
    field_simp
    ring
  rw [this, pow_succ]
  ring

theorem informationGain_equiv {n n' : ℕ} (e : Fin n ≃ Fin n') (x : Fin n' → Point d) :
    informationGain base σ s l (.vec (x ∘ e)) = informationGain base σ s l (.vec x) := by
  rw [informationGain, informationGain, ← det_submatrix_equiv_self e]
  congr 2
  ext i j
  simp [gram, item, Matrix.one_apply]

/-- How much the next observation tells. -/
theorem gain_nonneg {n : ℕ} (x : Fin n → Point d) (z : Point d) :
    0 ≤ Real.log (1 + (postCov base σ s l (.vec x) (.vec fun _ : Fin 1 => z) 0 0 - 1 / 100000) /
      (σ ^ 2 + 1 / 100000)) := by
  have hge := postCov_diag_ge base σ s l (.vec x) (.vec fun _ : Fin 1 => z) 0
  refine Real.log_nonneg ?_
  have : 0 ≤ (postCov base σ s l (.vec x) (.vec fun _ : Fin 1 => z) 0 0 - 1 / 100000) /
      (σ ^ 2 + 1 / 100000) := div_nonneg (by linarith) (by positivity)
  linarith

theorem gain_mono {n n' : ℕ} {x : Fin n → Point d} {x' : Fin n' → Point d} {z z' : Point d}
    (h : postCov base σ s l (.vec x') (.vec fun _ : Fin 1 => z') 0 0 ≤
      postCov base σ s l (.vec x) (.vec fun _ : Fin 1 => z) 0 0) :
    Real.log (1 + (postCov base σ s l (.vec x') (.vec fun _ : Fin 1 => z') 0 0 - 1 / 100000) /
      (σ ^ 2 + 1 / 100000)) ≤
    Real.log (1 + (postCov base σ s l (.vec x) (.vec fun _ : Fin 1 => z) 0 0 - 1 / 100000) /
      (σ ^ 2 + 1 / 100000)) := by
  have hge := postCov_diag_ge base σ s l (.vec x') (.vec fun _ : Fin 1 => z') 0
  have h0 : 0 ≤ (postCov base σ s l (.vec x') (.vec fun _ : Fin 1 => z') 0 0 - 1 / 100000) /
      (σ ^ 2 + 1 / 100000) := div_nonneg (by linarith) (by positivity)
  refine Real.log_le_log (by linarith) ?_
  have := div_le_div_of_nonneg_right (sub_le_sub_right h (1 / 100000))
    (show (0 : ℝ) ≤ σ ^ 2 + 1 / 100000 by positivity)
  linarith

/-- The information of two batches: at least that of the first, and at most that plus what each
observation of the second would tell on its own after the first. -/
theorem informationGain_append (hb : base ∈ baseNames) {h : HypDict} (hd : Describes h σ s l)
    {n : ℕ} (x : Fin n → Point d) : ∀ {k : ℕ} (z : Fin k → Point d),
    informationGain base σ s l (.vec x) ≤ informationGain base σ s l (.vec (Fin.append x z)) ∧
    informationGain base σ s l (.vec (Fin.append x z)) ≤ informationGain base σ s l (.vec x) +
      ∑ j, Real.log (1 + (postCov base σ s l (.vec x) (.vec fun _ : Fin 1 => z j) 0 0 - 1 / 100000) /
        (σ ^ 2 + 1 / 100000))
  | 0, z => by
    have : Fin.append x z = x := by
      funext i
      exact Fin.append_left x z i
    rw [this]
    simp
  | k + 1, z => by
    obtain ⟨h1, h2⟩ := informationGain_append hb hd x fun j : Fin k => z j.castSucc
    have hs := informationGain_succ (base := base) (σ := σ) (s := s) (l := l) (n := n + k)
      (Fin.append (m := n) (n := k + 1) x z)
    have e1 : (fun i : Fin (n + k) => Fin.append (m := n) (n := k + 1) x z (Fin.castSucc i)) =
        Fin.append x fun j : Fin k => z j.castSucc := by
      funext i
      refine Fin.addCases (fun a => ?_) (fun a => ?_) i
      · rw [Fin.append_left]
        exact Fin.append_left x z a
      · rw [Fin.append_right]
        exact Fin.append_right x z a.castSucc
    have e2 : Fin.append (m := n) (n := k + 1) x z (Fin.last (n + k)) = z (Fin.last k) :=
      Fin.append_right x z (Fin.last k)
    rw [e1, e2] at hs
    have hs' : informationGain base σ s l (.vec (Fin.append x z)) = _ := hs
    rw [hs']
    have hg := gain_nonneg (base := base) (σ := σ) (s := s) (l := l)
      (Fin.append x fun j : Fin k => z j.castSucc) (z (Fin.last k))
    refine ⟨by linarith, ?_⟩
    rw [Fin.sum_univ_castSucc]
    have hm := gain_mono (postCov_mono (base := base) hb hd (x := x)
      (x' := Fin.append x fun j : Fin k => z j.castSucc) (e := Fin.castAdd k)
      (Fin.castAdd_injective _ _) (fun i => Fin.append_left _ _ i) (z (Fin.last k)))
    linarith

/-- The information of two batches does not depend on their order. -/
theorem informationGain_swap {n k : ℕ} (x : Fin n → Point d) (z : Fin k → Point d) :
    informationGain base σ s l (.vec (Fin.append x z)) =
      informationGain base σ s l (.vec (Fin.append z x)) := by
  rw [← informationGain_equiv finAddFlip (Fin.append z x)]
  congr 2
  funext i
  refine Fin.addCases (fun a => ?_) (fun a => ?_) i <;> simp

/-- What a returned prediction says about the deviations. -/
theorem predicted_sq {n m : ℕ} (hb : base ∈ baseNames) {h : HypDict} (hd : Describes h σ s l)
    {prior : Gp.PriorMu d} (hpr : PriorTotal prior) {x : Fin n → Point d} {Y : Fin n → ℝ}
    {p : Fin m → Point d} {mu sd S}
    (hp : Gp.predictWithHyps (.vec x) Y (.vec p) h base prior = .ok (mu, sd, S)) (i : Fin m) :
    0 < sd i ∧ sd i ^ 2 = postCov base σ s l (.vec x) (.vec fun _ : Fin 1 => p i) 0 0 := by
  obtain ⟨μ, hμ⟩ := hpr n x
  obtain ⟨μ', hμ'⟩ := hpr m p
  have hv : ∀ {n : ℕ} (v : Fin n → Point d), Suits base base (.vec v) := fun v => ⟨hb, .inl ⟨rfl, _, rfl⟩⟩
  rw [predictWithHyps_ok (hv x) (hv p) hd Y hμ hμ'] at hp
  simp only [Except.ok.injEq, Prod.mk.injEq] at hp
  obtain ⟨-, rfl, -⟩ := hp
  have hge := postCov_diag_ge base σ s l (.vec x) (.vec p) i
  beta_reduce
  rw [max_eq_left (by linarith), Real.sq_sqrt (by linarith)]
  exact ⟨Real.sqrt_pos.2 (by linarith), postCov_single base σ s l (.vec x) p i⟩

/-- One choice by `pure_explore`: its predicted variance compared with that of any point. -/
theorem explored_step (hb : base ∈ baseNames) {h : HypDict} (hd : Describes h σ s l)
    {prior : Gp.PriorMu d} (hpr : PriorTotal prior) {C : Set (Point d)} {x : ℕ → Point d}
    {Y : ℕ → ℝ} {n : ℕ} {δ : ℝ}
    (hx : ChosenBy (fun _ sd _ => Acquisition.pureExplore sd) C x Y h base prior δ n) {z : Point d}
    (hz : z ∈ C) :
    √(postCov base σ s l (.vec fun i : Fin n => x i) (.vec fun _ : Fin 1 => z) 0 0) ≤
      √(postCov base σ s l (.vec fun i : Fin n => x i) (.vec fun _ : Fin 1 => x n) 0 0) + δ := by
  obtain ⟨mu, sd, S, v, v', hp, hv, hle⟩ := hx z hz
  obtain ⟨h1, h2⟩ := predicted_sq hb hd hpr hp 0
  obtain ⟨h3, h4⟩ := predicted_sq hb hd hpr hp 1
  simp only [Matrix.cons_val_zero, Matrix.cons_val_one] at h2 h4
  simp only [Acquisition.pureExplore, pure, Except.pure, Except.ok.injEq, List.ofFn_succ,
    List.ofFn_zero, List.cons.injEq, and_true] at hv
  obtain ⟨rfl, rfl⟩ := hv
  rw [← h2, ← h4, Real.sqrt_sq h1.le, Real.sqrt_sq h3.le]
  exact hle

end Batches

end Verif.Lemmas
