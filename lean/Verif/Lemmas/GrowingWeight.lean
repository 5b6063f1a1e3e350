import Verif.Lemmas.WorstCase
import Verif.Lemmas.RoundedKernels
import Mathlib.Data.Fintype.BigOperators
import Mathlib.Data.Int.Interval

/-! # How many choices make a variance small (lemmas for C140 and C142) -/

namespace Verif.Lemmas

open Verif.Spec Verif.Covariance Verif.UtilsCovariance
open Matrix hiding gram

section Count

variable {d : ℕ} (base : String)

/-- The covariance falls at most linearly with the distance, in the same way for all signals and
lengthscales within bounds. -/
theorem kernel_linear (d : ℕ) {smax lmin : ℝ} (hl : 0 < lmin) : ∃ L : ℝ, 1 ≤ L ∧
    ∀ (s : ℝ) (l : Fin d → ℝ), |s| ≤ smax → (∀ k, lmin ≤ |l k|) → ∀ x y : Point d,
      s ^ 2 - L * dist x y ≤ kernel base s l x y := by
  have h0 : profile base 0 = 1 := by
    unfold profile
    split_ifs <;> simp [m32Profile, m52Profile, seProfile]
  set L := √(∑ _k : Fin d, (1 / lmin) ^ 2) with hL
  have hL0 : 0 ≤ L := Real.sqrt_nonneg _
  refine ⟨smax ^ 2 * L + 1, by linarith [mul_nonneg (sq_nonneg smax) hL0], fun s l hs hll x y => ?_⟩
  have hss : s ^ 2 ≤ smax ^ 2 := sq_le_sq' (by linarith [(abs_le.1 hs).1]) (abs_le.1 hs).2
  have hd : scaledDistance l x y ≤ dist x y * L := by
    rw [hL, scaledDistance, show dist x y = √(dist x y ^ 2) from (Real.sqrt_sq dist_nonneg).symm,
      ← Real.sqrt_mul (sq_nonneg _)]
    refine Real.sqrt_le_sqrt ?_
    rw [Finset.mul_sum]
    refine Finset.sum_le_sum fun k _ => ?_
    rw [div_eq_mul_one_div, mul_pow]
    have hk : (1 / l k) ^ 2 ≤ (1 / lmin) ^ 2 := by
      rw [← sq_abs (1 / l k), abs_div, abs_one]
      exact pow_le_pow_left₀ (by positivity) (one_div_le_one_div_of_le hl (hll k)) 2
    refine mul_le_mul ?_ hk (sq_nonneg _) (sq_nonneg _)
    have := dist_le_pi_dist x y k
    rw [Real.dist_eq] at this
    rw [← sq_abs (x k - y k)]
    exact pow_le_pow_left₀ (abs_nonneg _) this 2
  have hs0 : 0 ≤ scaledDistance l x y := Real.sqrt_nonneg _
  have hp := profile_lipschitz base hs0 le_rfl
  rw [h0, sub_zero, abs_of_nonneg hs0] at hp
  have h1 := (abs_le.1 hp).1
  have h2 := mul_le_mul_of_nonneg_left (hd.trans' (show 1 - profile base (scaledDistance l x y) ≤ _ by
    linarith)) (sq_nonneg s)
  rw [kernel]
  have h3 : (0 : ℝ) ≤ dist x y := dist_nonneg
  have h4 := mul_le_mul_of_nonneg_right hss (mul_nonneg h3 hL0)
  linarith

/-- A bounded set is covered by balls whose number grows like a power of the radius. -/
theorem exists_cover {C : Set (Point d)} (hC : Bornology.IsBounded C) :
    ∃ c : ℝ, 0 < c ∧ ∀ ρ : ℝ, 0 < ρ → ρ ≤ 1 → ∃ t : Finset (Point d),
      (∀ z ∈ C, ∃ y ∈ t, dist z y < ρ / 2) ∧ (t.card : ℝ) ≤ (c / ρ) ^ d := by
  classical
  obtain ⟨R, hR⟩ := hC.subset_closedBall 0
  have hR' : ∀ z ∈ C, ∀ i, |z i| ≤ |R| := fun z hz i => by
    have h1 := hR hz
    rw [mem_closedBall_zero_iff] at h1
    exact ((norm_le_pi_norm z i).trans h1).trans (le_abs_self R)
  refine ⟨8 * |R| + 3, by positivity, fun ρ hρ hρ1 => ?_⟩
  set K : ℤ := ⌈|R| / (ρ / 4)⌉ with hK
  have hKr : |R| / (ρ / 4) ≤ K := Int.le_ceil _
  have hK0 : 0 ≤ K := Int.ceil_nonneg (by positivity)
  refine ⟨(Fintype.piFinset fun _ : Fin d => Finset.Icc (-K) K).image fun k i => ρ / 4 * k i,
    fun z hz => ⟨fun i => ρ / 4 * ⌊z i / (ρ / 4)⌋, ?_, ?_⟩, ?_⟩
  · refine Finset.mem_image.2 ⟨fun i => ⌊z i / (ρ / 4)⌋, Fintype.mem_piFinset.2 fun i => ?_, rfl⟩
    have h1 := abs_le.1 (hR' z hz i)
    have h2 : z i / (ρ / 4) ≤ |R| / (ρ / 4) := div_le_div_of_nonneg_right h1.2 (by positivity)
    have h3 : -(|R| / (ρ / 4)) ≤ z i / (ρ / 4) := by
      rw [← neg_div]
      exact div_le_div_of_nonneg_right h1.1 (by positivity)
    refine Finset.mem_Icc.2 ⟨Int.le_floor.2 ?_, ?_⟩
    · push_cast
      linarith
    · have h4 := Int.floor_le (z i / (ρ / 4))
      exact_mod_cast (h4.trans (h2.trans hKr))
  · refine lt_of_le_of_lt ((dist_pi_le_iff (r := ρ / 4) (by positivity)).2 fun i => ?_) (by linarith)
    have h1 := Int.floor_le (z i / (ρ / 4))
    have h2 := Int.lt_floor_add_one (z i / (ρ / 4))
    have e : z i = ρ / 4 * (z i / (ρ / 4)) := by field_simp
    rw [Real.dist_eq, abs_le]
    have hq : 0 < ρ / 4 := by positivity
    have h3 := mul_le_mul_of_nonneg_left h1 hq.le
    have h4 := mul_le_mul_of_nonneg_left h2.le hq.le
    constructor
    · linarith
    · linarith
  · refine (Nat.cast_le.2 Finset.card_image_le).trans ?_
    rw [Fintype.card_piFinset, Finset.prod_const, Finset.card_univ, Fintype.card_fin, Nat.cast_pow,
      Int.card_Icc]
    refine pow_le_pow_left₀ (Nat.cast_nonneg _) ?_ d
    have e : (((K + 1 - -K).toNat : ℕ) : ℝ) = 2 * K + 1 := by
      have : ((K + 1 - -K).toNat : ℤ) = 2 * K + 1 := by
        rw [Int.toNat_of_nonneg (by omega)]
        ring
      exact_mod_cast this
    rw [e]
    have h1 : (K : ℝ) < |R| / (ρ / 4) + 1 := Int.ceil_lt_add_one _
    have h2 : |R| / (ρ / 4) = 4 * |R| / ρ := by field_simp
    have h3 : (8 * |R| + 3) / ρ = 2 * (4 * |R| / ρ) + 3 / ρ := by ring
    have h4 : 3 ≤ 3 / ρ := by
      rw [le_div_iff₀ hρ]
      linarith
    rw [h3]
    linarith

/-- `exists_small` with a number of choices that grows like a power of the accuracy. -/
theorem exists_small_power {C : Set (Point d)} (hC : Bornology.IsBounded C) {σmax smax lmin : ℝ}
    (hl : 0 < lmin) :
    ∃ c : ℝ, 0 < c ∧ ∀ θ : ℝ, 0 < θ → θ ≤ 1 → ∃ M : ℕ, (M : ℝ) ≤ c / θ ^ (d + 1) ∧
      ∀ (σ s : ℕ → ℝ) (l : ℕ → Fin d → ℝ) (x : ℕ → Point d) (n₀ : ℕ),
        (∀ n, n₀ ≤ n → n < n₀ + M → |σ n| ≤ σmax ∧ |s n| ≤ smax ∧ (∀ k, lmin ≤ |l n k|) ∧ x n ∈ C) →
        ∃ n, n₀ ≤ n ∧ n < n₀ + M ∧
        postCov base (σ n) (s n) (l n) (.vec fun i : Fin n => x i) (.vec fun _ : Fin 1 => x n) 0 0 ≤
          1 / 100000 + θ := by
  obtain ⟨L, hL, hk⟩ := kernel_linear base d (smax := smax) hl
  obtain ⟨c, hc, hcov⟩ := exists_cover hC
  set a := 2 * (σmax ^ 2 + 1 / 100000) + 2 with ha
  have ha0 : 0 < a := by positivity
  refine ⟨(4 * L * c) ^ d * a + 1, by positivity, fun θ hθ hθ1 => ?_⟩
  obtain ⟨t, ht, hcard⟩ := hcov (θ / (4 * L)) (by positivity) (by
    rw [div_le_one (by positivity)]
    linarith)
  set q := ⌈2 * (σmax ^ 2 + 1 / 100000) / θ⌉₊ + 1 with hq
  have hq1 : 2 * (σmax ^ 2 + 1 / 100000) / θ ≤ q := by
    rw [hq]
    push_cast
    linarith [Nat.le_ceil (2 * (σmax ^ 2 + 1 / 100000) / θ)]
  have hq2 : (q : ℝ) ≤ a / θ := by
    have h1 := Nat.ceil_lt_add_one (show 0 ≤ 2 * (σmax ^ 2 + 1 / 100000) / θ by positivity)
    rw [hq, ha, add_div]
    push_cast
    have : 2 ≤ 2 / θ := by
      rw [le_div_iff₀ hθ]
      linarith
    linarith
  have hq0 : (0 : ℝ) < q := by
    rw [hq]
    positivity
  refine ⟨t.card * q + 1, ?_, fun σ s l x n₀ hx => ?_⟩
  · push_cast
    have e : c / (θ / (4 * L)) = 4 * L * c / θ := by field_simp
    rw [e] at hcard
    have h1 := mul_le_mul hcard hq2 hq0.le (by positivity)
    have h2 : 1 ≤ 1 / θ ^ (d + 1) := by
      rw [le_div_iff₀ (by positivity), one_mul]
      exact pow_le_one₀ hθ.le hθ1
    rw [add_div]
    refine add_le_add (h1.trans (le_of_eq ?_)) h2
    rw [div_pow, div_mul_div_comm, pow_succ]
  · obtain ⟨n, h1, h2, -, h3⟩ := exists_small_seq base (C := C) (σ := σ) (s := s) (l := l) (η := θ)
      (ρ := θ / (4 * L)) (t := t) (q := q) x n₀
      (fun n a b x y hxy => (hk (s n) (l n) (hx n a b).2.1 (hx n a b).2.2.1 x y).trans' (by
        have h1 := mul_le_mul_of_nonneg_left hxy (show 0 ≤ L by linarith)
        have h2 : L * (θ / (4 * L)) = θ / 4 := by
          have : L ≠ 0 := by linarith
          field_simp
        linarith)) ht hq0 (fun n a b => by
        have hσ := (hx n a b).1
        have h1 : σ n ^ 2 ≤ σmax ^ 2 := sq_le_sq' (by linarith [(abs_le.1 hσ).1]) (abs_le.1 hσ).2
        rw [div_le_iff₀ hθ] at hq1
        linarith) fun n a b => (hx n a b).2.2.2
    exact ⟨n, h1, h2, h3⟩

end Count

/-- The logarithm of the number of choices grows slower than the accuracy. -/
theorem exists_accuracy {kappa c ε : ℝ} (hk : 0 ≤ kappa) (hc : 0 < c) (hε : 0 < ε) (n p : ℕ) :
    ∃ θ : ℝ, 0 < θ ∧ θ ≤ 1 ∧ θ ≤ ε ∧ kappa * Real.log (n + c / θ ^ p + 1) * θ ≤ ε := by
  set A := Real.log (n + c + 1) with hA
  have hA0 : 0 ≤ A := Real.log_nonneg (by
    have : (0 : ℝ) ≤ n := Nat.cast_nonneg n
    linarith)
  set w := kappa * (A + 2 * p) + 1 with hw
  have hw1 : 1 ≤ w := by
    have : 0 ≤ kappa * (A + 2 * p) := by positivity
    linarith
  set t := min 1 (ε / w) with ht
  have ht0 : 0 < t := lt_min one_pos (by positivity)
  have ht1 : t ≤ 1 := min_le_left _ _
  have ht2 : t * w ≤ ε := by
    rw [← le_div_iff₀ (by linarith)]
    exact min_le_right _ _
  have htt : t ^ 2 ≤ t := by
    rw [sq]
    exact mul_le_of_le_one_left ht0.le ht1
  have htε : t ≤ ε := by
    have := mul_le_mul_of_nonneg_left hw1 ht0.le
    linarith
  refine ⟨t ^ 2, by positivity, pow_le_one₀ ht0.le ht1, htt.trans htε, ?_⟩
  have hp0 : 0 < (t ^ 2) ^ p := by positivity
  have hp1 : (t ^ 2) ^ p ≤ 1 := pow_le_one₀ (by positivity) (pow_le_one₀ ht0.le ht1)
  have hlog : Real.log (n + c / (t ^ 2) ^ p + 1) ≤ A + 2 * p / t := by
    have h1 : (n : ℝ) + c / (t ^ 2) ^ p + 1 ≤ (n + c + 1) / (t ^ 2) ^ p := by
      have h2 : (n : ℝ) + 1 ≤ (n + 1) / (t ^ 2) ^ p := by
        rw [le_div_iff₀ hp0]
        exact mul_le_of_le_one_right (by positivity) hp1
      have h3 : ((n : ℝ) + c + 1) / (t ^ 2) ^ p = (n + 1) / (t ^ 2) ^ p + c / (t ^ 2) ^ p := by ring
      linarith
    refine (Real.log_le_log (by positivity) h1).trans ?_
    rw [Real.log_div (by positivity) hp0.ne', Real.log_pow, Real.log_pow, hA]
    have h4 : -Real.log t ≤ 1 / t := by
      have := Real.log_le_sub_one_of_pos (inv_pos.2 ht0)
      rw [Real.log_inv] at this
      rw [one_div]
      linarith
    have h5 := mul_le_mul_of_nonneg_left h4 (show (0 : ℝ) ≤ 2 * p by positivity)
    have h6 : 2 * (p : ℝ) / t = 2 * p * (1 / t) := by ring
    rw [h6]
    push_cast
    linarith
  calc kappa * Real.log (n + c / (t ^ 2) ^ p + 1) * t ^ 2
      ≤ kappa * (A + 2 * p / t) * t ^ 2 :=
        mul_le_mul_of_nonneg_right (mul_le_mul_of_nonneg_left hlog hk) (by positivity)
    _ = kappa * (A * t ^ 2 + 2 * p * t) := by field_simp
    _ ≤ kappa * (A * t + 2 * p * t) := by
        refine mul_le_mul_of_nonneg_left ?_ hk
        have := mul_le_mul_of_nonneg_left htt hA0
        linarith
    _ = t * (w - 1) := by rw [hw]; ring
    _ ≤ ε := by linarith

/-- The norm of a function on two points. -/
theorem normAtMostOn_pair {d : ℕ} {base : String} {s : ℝ} {l : Fin d → ℝ} {a b : Point d} (hab : a ≠ b)
    {k B : ℝ} (hk : kernel base s l a b = k) (hk0 : 0 ≤ k) (hks : k < s ^ 2) {f : Point d → ℝ}
    (hB0 : 0 ≤ B) (hB : f a ^ 2 + f b ^ 2 ≤ B ^ 2 * (s ^ 2 - k)) :
    NormAtMostOn {a, b} base s l B f := by
  classical
  refine ⟨hB0, fun n z hz c => ?_⟩
  have h0 : ∀ u : Point d, kernel base s l u u = s ^ 2 := by
    intro u
    have h0 : profile base 0 = 1 := by
      unfold profile
      split_ifs <;> simp [m32Profile, m52Profile, seProfile]
    simp [kernel, scaledDistance, h0]
  set p := ∑ i, if z i = a then c i else 0 with hp
  set q := ∑ i, if z i = a then 0 else c i with hq
  have e1 : ∑ i, c i * f (z i) = p * f a + q * f b := by
    rw [hp, hq, Finset.sum_mul, Finset.sum_mul, ← Finset.sum_add_distrib]
    refine Finset.sum_congr rfl fun i _ => ?_
    rcases hz i with h | h
    · simp [h]
    · have h : z i = b := h
      simp [h, hab.symm]
  have e2 : ∑ i, ∑ j, c i * kernel base s l (z i) (z j) * c j =
      s ^ 2 * p ^ 2 + 2 * k * p * q + s ^ 2 * q ^ 2 := by
    have e3 : ∀ i j, c i * kernel base s l (z i) (z j) * c j =
        s ^ 2 * ((if z i = a then c i else 0) * (if z j = a then c j else 0)) +
        k * ((if z i = a then c i else 0) * (if z j = a then 0 else c j)) +
        k * ((if z i = a then 0 else c i) * (if z j = a then c j else 0)) +
        s ^ 2 * ((if z i = a then 0 else c i) * (if z j = a then 0 else c j)) := by
      intro i j
      have hk' : kernel base s l b a = k := by rw [kernel_symm, hk]
      rcases hz i with h | h <;> rcases hz j with h' | h'
      · simp only [h, h', h0, if_true]
        ring
      · have h' : z j = b := h'
        simp only [h, h', hk, if_true, hab.symm, if_false]
        ring
      · have h : z i = b := h
        simp only [h, h', hk', if_true, hab.symm, if_false]
        ring
      · have h : z i = b := h
        have h' : z j = b := h'
        simp only [h, h', h0, hab.symm, if_false]
        ring
    simp only [e3, Finset.sum_add_distrib, ← Finset.mul_sum, ← Finset.sum_mul, ← hp, ← hq]
    ring
  rw [e1, e2]
  refine (Real.abs_le_sqrt (y := B ^ 2 * (s ^ 2 * p ^ 2 + 2 * k * p * q + s ^ 2 * q ^ 2)) ?_).trans
    (le_of_eq ?_)
  · have h1 : (p * f a + q * f b) ^ 2 ≤ (p ^ 2 + q ^ 2) * (f a ^ 2 + f b ^ 2) := by
      nlinarith only [sq_nonneg (p * f b - q * f a)]
    have h2 := mul_le_mul_of_nonneg_left hB (show 0 ≤ p ^ 2 + q ^ 2 by positivity)
    have h3 := mul_nonneg (mul_nonneg (sq_nonneg B) hk0) (sq_nonneg (p + q))
    nlinarith only [h1, h2, h3]
  · rw [Real.sqrt_mul (sq_nonneg _), Real.sqrt_sq hB0]

/-- Choices among finitely many points, by an acquisition function that scores points one by one, with
other hyperparameters and responses at every choice. -/
theorem exists_chosen_seq {d : ℕ} {base : String} (hb : base ∈ baseNames) {h : ℕ → HypDict}
    {σ s : ℕ → ℝ} {l : ℕ → Fin d → ℝ} (hd : ∀ n, Describes (h n) (σ n) (s n) (l n))
    {C : Set (Point d)} (hC : C.Finite) (hne : C.Nonempty)
    {acq : List ℝ → List ℝ → List ℝ → Py (List ℝ)} {g : List ℝ → ℝ → ℝ → ℝ}
    (hacq : ∀ Y m m' t t', Y ≠ [] → 0 < t → 0 < t' →
      acq [m, m'] [t, t'] Y = .ok [g Y m t, g Y m' t'])
    (T : (n : ℕ) → (Fin n → Point d) → Fin n → ℝ) (a : Point d) :
    ∃ x : ℕ → Point d, x 0 = a ∧ ∀ n, 1 ≤ n → x n ∈ C ∧
      ∀ Y : ℕ → ℝ, (∀ i : Fin n, Y i = T n (fun i => x i) i) →
        ChosenBy acq C x Y (h n) base none 0 n := by
  have hv : ∀ {n : ℕ} (v : Fin n → Point d), Suits base base (.vec v) :=
    fun v => ⟨hb, .inl ⟨rfl, _, rfl⟩⟩
  have hm : PriorFunction (none : Gp.PriorMu d) fun _ => 0 := fun n X => rfl
  obtain ⟨x, hx⟩ := exists_sequence (α := Point d)
    (P := fun n p u => (n = 0 → u = a) ∧ (1 ≤ n → u ∈ C ∧ ∀ z ∈ C, ∃ mu sd S v v',
      Gp.predictWithHyps (.vec p) (T n p) (.vec ![u, z]) (h n) base none =
        .ok (mu, sd, S) ∧
      acq (List.ofFn mu) (List.ofFn sd) (List.ofFn (T n p)) = .ok [v, v'] ∧
        v' ≤ v + 0)) (by
    intro n p
    rcases Nat.eq_zero_or_pos n with rfl | hn
    · exact ⟨a, fun _ => rfl, fun h => absurd h (by norm_num)⟩
    · obtain ⟨u, hu, hmax⟩ := Set.exists_max_image C (fun z => g (List.ofFn (T n p))
        (∑ j, weights base (σ n) (s n) (l n) p z j * (T n p j - 0))
        √(postCov base (σ n) (s n) (l n) (.vec p) (.vec fun _ : Fin 1 => z) 0 0)) hC hne
      refine ⟨u, fun h => absurd h (by omega), fun _ => ⟨hu, fun z hz => ?_⟩⟩
      obtain ⟨mu, sd, S, hp⟩ : ∃ mu sd S, Gp.predictWithHyps (.vec p) (T n p)
          (.vec ![u, z]) (h n) base none = .ok (mu, sd, S) :=
        ⟨_, _, _, predictWithHyps_ok (hv p) (hv ![u, z]) (hd n) (T n p) (prior := none)
          (μ := 0) (μs := 0) rfl rfl⟩
      have s0 := predicted_sq hb (hd n) (PriorFunction.total hm) hp 0
      have s1 := predicted_sq hb (hd n) (PriorFunction.total hm) hp 1
      refine ⟨mu, sd, S, g (List.ofFn (T n p)) (mu 0) (sd 0),
        g (List.ofFn (T n p)) (mu 1) (sd 1), hp, ?_, ?_⟩
      · rw [show List.ofFn mu = [mu 0, mu 1] by simp [List.ofFn_succ],
          show List.ofFn sd = [sd 0, sd 1] by simp [List.ofFn_succ]]
        exact hacq _ _ _ _ _ (by simp; omega) s0.1 s1.1
      · have m0 := predicted_mean hb (hd n) hm hp 0
        have m1 := predicted_mean hb (hd n) hm hp 1
        have t0 := Real.sqrt_sq s0.1.le
        have t1 := Real.sqrt_sq s1.1.le
        rw [s0.2] at t0
        rw [s1.2] at t1
        simp only [Matrix.cons_val_zero, Matrix.cons_val_one, zero_add] at m0 m1 t0 t1
        have := hmax z hz
        beta_reduce at this
        rw [m0, m1, ← t0, ← t1, add_zero]
        exact this)
  refine ⟨x, (hx 0).1 rfl, fun n hn => ⟨((hx n).2 hn).1, fun Y hY z hz => ?_⟩⟩
  have := ((hx n).2 hn).2 z hz
  rwa [show T n (fun i => x i) = fun i : Fin n => Y i from funext fun i => (hY i).symm] at this

end Verif.Lemmas
