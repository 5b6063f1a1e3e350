import Verif.Lemmas.WorstCase
import Verif.Spec.Exploration
import Verif.Spec.Total
import Verif.Props.Regret

/-! # Pure exploration and choices in a bounded region (C121, C122) -/

namespace Verif.Props

open Verif.Spec Verif.Covariance Verif.UtilsCovariance Verif.Lemmas Verif.Acquisition
  Verif.Constants
open Matrix hiding gram

/-- C121: choosing where the predicted deviation is largest gathers nearly as much information as
any choice. Compared with any `T` points of the region, the information still missing shrinks by the
factor `1 - 1 / T` with every choice; so `k` choices from the `n₀`-th on, together with what came
before, carry at least `1 - exp (-k / T)` times the information of any `T` points. -/
theorem C121_near_best {d : ℕ} {base : String} (hb : base ∈ baseNames) {h : HypDict} {σ s : ℝ}
    {l : Fin d → ℝ} (hd : Describes h σ s l) {prior : Gp.PriorMu d} (hpr : PriorTotal prior)
    {C : Set (Point d)} {x : ℕ → Point d} {Y : ℕ → ℝ} {n₀ : ℕ}
    {k : ℕ} (hx : ∀ n, n₀ ≤ n → n < n₀ + k →
      ChosenBy (fun _ sd _ => pureExplore sd) C x Y h base prior 0 n)
    {T : ℕ} (hT : 0 < T) {z : Fin T → Point d} (hz : ∀ j, z j ∈ C) :
    informationGain base σ s l (.vec z) -
        informationGain base σ s l (.vec fun i : Fin (n₀ + k) => x i) ≤
      (1 - 1 / T) ^ k * (informationGain base σ s l (.vec z) -
        informationGain base σ s l (.vec fun i : Fin n₀ => x i)) ∧
    (1 - Real.exp (-(k / T))) * informationGain base σ s l (.vec z) ≤
      informationGain base σ s l (.vec fun i : Fin (n₀ + k) => x i) := by
  have hT' : (0 : ℝ) < T := by exact_mod_cast hT
  have hT1 : (0 : ℝ) ≤ 1 - 1 / T := by
    rw [sub_nonneg, div_le_one hT']
    exact_mod_cast hT
  have hstep : ∀ n, n₀ ≤ n → n < n₀ + k → informationGain base σ s l (.vec z) -
      informationGain base σ s l (.vec fun i : Fin (n + 1) => x i) ≤ (1 - 1 / T) *
      (informationGain base σ s l (.vec z) - informationGain base σ s l (.vec fun i : Fin n => x i)) := by
    intro n hn hn'
    have h1 := (informationGain_append hb hd z fun i : Fin n => x i).1
    rw [← informationGain_swap] at h1
    have h2 := (informationGain_append hb hd (fun i : Fin n => x i) z).2
    have h3 := informationGain_succ (base := base) (σ := σ) (s := s) (l := l)
      (fun i : Fin (n + 1) => x i)
    simp only [Fin.val_castSucc, Fin.val_last] at h3
    have h4 : ∀ j, Real.log (1 + (postCov base σ s l (.vec fun i : Fin n => x i)
        (.vec fun _ : Fin 1 => z j) 0 0 - 1 / 100000) / (σ ^ 2 + 1 / 100000)) ≤
        Real.log (1 + (postCov base σ s l (.vec fun i : Fin n => x i)
        (.vec fun _ : Fin 1 => x n) 0 0 - 1 / 100000) / (σ ^ 2 + 1 / 100000)) := by
      intro j
      refine gain_mono ?_
      have := explored_step hb hd hpr (hx n hn hn') (hz j)
      rw [add_zero] at this
      have hge := postCov_diag_ge base σ s l (.vec fun i : Fin n => x i) (.vec fun _ : Fin 1 => x n) 0
      exact (Real.sqrt_le_sqrt_iff (by linarith)).1 this
    have h5 := Finset.sum_le_sum fun (j : Fin T) (_ : j ∈ Finset.univ) => h4 j
    rw [Finset.sum_const, Finset.card_univ, Fintype.card_fin, nsmul_eq_mul] at h5
    set g := Real.log (1 + (postCov base σ s l (.vec fun i : Fin n => x i)
        (.vec fun _ : Fin 1 => x n) 0 0 - 1 / 100000) / (σ ^ 2 + 1 / 100000))
    have h6 : (informationGain base σ s l (.vec z) -
        informationGain base σ s l (.vec fun i : Fin n => x i)) / T ≤ g := by
      rw [div_le_iff₀ hT']
      linarith
    rw [h3, sub_mul, one_mul, one_div_mul_eq_div]
    linarith
  have hfirst : ∀ k' ≤ k, informationGain base σ s l (.vec z) -
        informationGain base σ s l (.vec fun i : Fin (n₀ + k') => x i) ≤
      (1 - 1 / T) ^ k' * (informationGain base σ s l (.vec z) -
        informationGain base σ s l (.vec fun i : Fin n₀ => x i)) := by
    intro k' hk'
    induction k' with
    | zero => simp
    | succ k' ih =>
      refine (hstep (n₀ + k') (Nat.le_add_right _ _) (by omega)).trans ?_
      rw [pow_succ', mul_assoc]
      exact mul_le_mul_of_nonneg_left (ih (by omega)) hT1
  refine ⟨hfirst k le_rfl, ?_⟩
  have hnn : ∀ {n : ℕ} (y : Fin n → Point d), 0 ≤ informationGain base σ s l (.vec y) := by
    intro n y
    have := (informationGain_append hb hd (fun i : Fin 0 => i.elim0) y).1
    rw [informationGain_swap] at this
    have e : Fin.append y (fun i : Fin 0 => i.elim0) = y := by
      funext i
      exact Fin.append_left y _ i
    rw [e] at this
    refine le_trans ?_ this
    simp [informationGain]
  have hpow : (1 - 1 / T : ℝ) ^ k ≤ Real.exp (-(k / T)) := by
    have := Real.add_one_le_exp (-(1 / T : ℝ))
    have h1 := pow_le_pow_left₀ hT1 (show (1 - 1 / T : ℝ) ≤ Real.exp (-(1 / T)) by linarith) k
    rw [← Real.exp_nat_mul] at h1
    refine h1.trans (le_of_eq ?_)
    congr 1
    ring
  have h1 := hfirst k le_rfl
  have h2 : (1 - 1 / T : ℝ) ^ k * (informationGain base σ s l (.vec z) -
        informationGain base σ s l (.vec fun i : Fin n₀ => x i)) ≤
      Real.exp (-(k / T)) * informationGain base σ s l (.vec z) := by
    refine (mul_le_mul_of_nonneg_left (sub_le_self _ (hnn _)) (pow_nonneg hT1 k)).trans ?_
    exact mul_le_mul_of_nonneg_right hpow (hnn z)
  linarith

/-- C121: the variance predicted at a point with `m` of the data near it, those whose covariance with
it is within `ε` of the signal variance, is at most the jitter, `2 * ε` and the share `1 / m` of the
noise. -/
theorem C121_neighbours {n d : ℕ} {base : String} (hb : base ∈ baseNames) {h : HypDict} {σ s : ℝ}
    {l : Fin d → ℝ} (hd : Describes h σ s l) {prior : Gp.PriorMu d} (hpr : PriorTotal prior)
    {x : Fin n → Point d} {Y : Fin n → ℝ} {z : Point d} {mu sd S}
    (hp : Gp.predictWithHyps (.vec x) Y (.vec fun _ : Fin 1 => z) h base prior = .ok (mu, sd, S))
    {A : Finset (Fin n)} (hA : A.Nonempty) {ε : ℝ}
    (hε : ∀ i ∈ A, s ^ 2 - ε ≤ kernel base s l (x i) z) :
    sd 0 ^ 2 ≤ 1 / 100000 + 2 * ε + (σ ^ 2 + 1 / 100000) / A.card := by
  rw [(predicted_sq hb hd hpr hp 0).2]
  exact postCov_near base σ s l x z hA hε

/-- C121: pure exploration of a bounded region explores all of it. There is a number of choices,
depending on the region, the kernel and `η > 0` alone, after which, when every choice was made in the
region and scored at most `δ` less than any point of it, the deviation predicted at every point of
the region, whatever the responses, is at most the root of the jitter, `δ` and `η`. -/
theorem C121_everywhere {d : ℕ} {base : String} (hb : base ∈ baseNames) {h : HypDict} {σ s : ℝ}
    {l : Fin d → ℝ} (hd : Describes h σ s l) {C : Set (Point d)} (hC : Bornology.IsBounded C)
    {η : ℝ} (hη : 0 < η) :
    ∃ M : ℕ, ∀ (prior : Gp.PriorMu d) (x : ℕ → Point d) (Y : ℕ → ℝ) (n₀ : ℕ) (δ : ℝ),
      PriorTotal prior → (∀ n, n₀ ≤ n → n < n₀ + M → x n ∈ C ∧
        ChosenBy (fun _ sd _ => pureExplore sd) C x Y h base prior δ n) →
      ∀ T ≥ n₀ + M, ∀ z ∈ C, ∀ (Y' : Fin T → ℝ) mu sd S,
        Gp.predictWithHyps (.vec fun i : Fin T => x i) Y' (.vec fun _ : Fin 1 => z) h base prior =
          .ok (mu, sd, S) → sd 0 ≤ √(1 / 100000) + δ + η := by
  obtain ⟨M, hM⟩ := exists_small base σ s l hC (η := η ^ 2) (by positivity) one_pos
  refine ⟨M, fun prior x Y n₀ δ hpr hx T hT z hz Y' mu sd S hp => ?_⟩
  obtain ⟨n, hn1, hn2, -, hn3⟩ := hM x n₀ fun n hn hn' => (hx n hn hn').1
  have hnT : n ≤ T := by omega
  obtain ⟨h1, h2⟩ := predicted_sq hb hd hpr hp 0
  have hm := postCov_mono (base := base) hb hd (x := fun i : Fin n => x i)
    (x' := fun i : Fin T => x i) (e := Fin.castLE hnT) (Fin.castLE_injective hnT) (fun i => rfl) z
  have hs := explored_step hb hd hpr (hx n hn1 hn2).2 hz
  rw [← h2] at hm
  have h3 := Real.sqrt_le_sqrt hm
  rw [Real.sqrt_sq h1.le] at h3
  have h4 := Real.sqrt_le_sqrt hn3
  have h5 : √(1 / 100000 + η ^ 2) ≤ √(1 / 100000) + η := by
    rw [Real.sqrt_le_left (by positivity), add_sq, Real.sq_sqrt (by norm_num)]
    have := mul_nonneg (mul_nonneg zero_le_two (Real.sqrt_nonneg (1 / 100000))) hη.le
    linarith
  linarith

/-- C122: choices by the upper confidence bound in a bounded region, with a fixed weight. There is a
number of choices, depending on the region, the kernel, the weight and `η > 0` alone, among which, if
the function lies within the confidence bounds on the region and every choice scores at most `δ` less
than any point of it, one has a value at most `δ`, twice the weight times the root of the jitter, and
`η` above the values everywhere in the region. -/
theorem C122_bounded {d : ℕ} {base : String} (hb : base ∈ baseNames) {h : HypDict} {σ s : ℝ}
    {l : Fin d → ℝ} (hd : Describes h σ s l) {C : Set (Point d)} (hC : Bornology.IsBounded C)
    {kappa : ℝ} (hk : 0 ≤ kappa) {η : ℝ} (hη : 0 < η) :
    ∃ M : ℕ, ∀ (prior : Gp.PriorMu d) (x : ℕ → Point d) (Y : ℕ → ℝ) (n₀ : ℕ) (δ : ℝ)
      (f : Point d → ℝ), PriorTotal prior →
      (∀ n, n₀ ≤ n → n < n₀ + M → x n ∈ C ∧
        ChosenBy (fun mu sd Y => ucb mu sd (some Y) kappa false) C x Y h base prior δ n ∧
        ∀ (p : Fin 2 → Point d) mu sd S, (∀ i, p i ∈ C) →
          Gp.predictWithHyps (.vec fun i : Fin n => x i) (fun i => Y i) (.vec p) h base prior =
            .ok (mu, sd, S) → ∀ i, |f (p i) - mu i| ≤ kappa * sd i) →
      ∃ n, n₀ ≤ n ∧ n < n₀ + M ∧ ∀ z ∈ C, f (x n) ≤ f z + δ + 2 * kappa * √(1 / 100000) + η := by
  obtain ⟨M, hM⟩ := exists_small base σ s l hC (η := (η / (2 * kappa + 1)) ^ 2) (by positivity) one_pos
  refine ⟨M, fun prior x Y n₀ δ f hpr hall => ?_⟩
  obtain ⟨n, hn1, hn2, -, hn3⟩ := hM x n₀ fun n h1 h2 => (hall n h1 h2).1
  refine ⟨n, hn1, hn2, fun z hz => ?_⟩
  obtain ⟨hxn, hch, hband⟩ := hall n hn1 hn2
  obtain ⟨mu, sd, S, v, v', hp, hu1, hu2⟩ := hch z hz
  have hb0 := hband ![x n, z] mu sd S (fun i => by fin_cases i <;> assumption) hp
  obtain ⟨h1, h2⟩ := predicted_sq hb hd hpr hp 0
  simp only [Matrix.cons_val_zero] at h2
  rw [← h2] at hn3
  have hl : List.ofFn mu = [mu 0, mu 1] := by simp [List.ofFn_succ]
  have hl' : List.ofFn sd = [sd 0, sd 1] := by simp [List.ofFn_succ]
  simp only [hl, hl'] at hu1
  have hstep := C114_step hu1 (m := mu 0) (s := sd 0) (v := v) (m' := mu 1) (s' := sd 1)
    (v' := v') (δ := δ) ⟨0, rfl, rfl, rfl⟩ ⟨1, rfl, rfl, rfl⟩ hu2 (f := f (x n)) (f' := f z)
    (by simpa [confidenceWeight] using hb0 0) (by simpa [confidenceWeight] using hb0 1)
  simp only [confidenceWeight, Bool.false_eq_true, if_false] at hstep
  set t := η / (2 * kappa + 1) with ht
  have ht0 : 0 < t := by positivity
  have h5 : sd 0 ≤ √(1 / 100000) + t := by
    refine abs_le_of_sq_le_sq' ?_ (by positivity) |>.2
    rw [add_sq, Real.sq_sqrt (by norm_num)]
    have := mul_nonneg (mul_nonneg zero_le_two (Real.sqrt_nonneg (1 / 100000))) ht0.le
    linarith
  have h6 : 2 * kappa * t ≤ η := by
    rw [ht, mul_div_assoc', div_le_iff₀ (by linarith)]
    nlinarith
  have h7 := mul_le_mul_of_nonneg_left h5 (show 0 ≤ 2 * kappa by linarith)
  linarith

private theorem example_describes :
    Describes ⟨some (.flt (.fin GP_NOISE)), none, some (.flt (.fin 2)), some (.arr [.fin 3])⟩
      GP_NOISE 2 (fun _ : Fin 1 => 3) := ⟨rfl, rfl, .inl rfl, by intro; norm_num⟩

/-- Three points explored again and again, from a first point elsewhere: the hypotheses of C121 hold,
for any function. -/
example (f : Point 1 → ℝ) : ∃ (h : HypDict) (x : ℕ → Point 1) (C : Set (Point 1)),
    Describes h GP_NOISE 2 (fun _ : Fin 1 => 3) ∧ Bornology.IsBounded C ∧
    (∀ j : Fin 3, (fun _ => (j : ℝ)) ∈ C) ∧ x 0 = (fun _ => 5) ∧
    ∀ n, 1 ≤ n → x n ∈ C ∧ ChosenBy (fun _ sd _ => pureExplore sd) C x (fun i => f (x i)) h
      "matern32" none 0 n := by
  obtain ⟨x, h1, h2⟩ := exists_chosen (base := "matern32") (by simp [baseNames]) example_describes
    (Set.finite_range fun j : Fin 3 => fun _ : Fin 1 => (j : ℝ)) (Set.range_nonempty _)
    (acq := fun _ sd _ => pureExplore sd) (g := fun _ _ t => t) (fun _ _ _ _ _ _ _ _ => rfl) f
    (fun _ => 5)
  exact ⟨_, x, _, example_describes, (Set.finite_range _).isBounded, fun j => ⟨j, rfl⟩, h1, h2⟩

/-- The same three points chosen by the upper confidence bound for a kernel function: the hypotheses
of C122 hold. -/
example : ∃ (h : HypDict) (x : ℕ → Point 1) (C : Set (Point 1)) (f : Point 1 → ℝ),
    Describes h GP_NOISE 2 (fun _ : Fin 1 => 3) ∧ Bornology.IsBounded C ∧
    (∀ j : Fin 3, (fun _ => (j : ℝ)) ∈ C) ∧ f (fun _ => 0) ≠ f (fun _ => 1) ∧
    ∀ n, 1 ≤ n → x n ∈ C ∧
      ChosenBy (fun mu sd Y => ucb mu sd (some Y) 2 false) C x (fun i => f (x i)) h
        "matern32" none 0 n ∧
      ∀ (p : Fin 2 → Point 1) mu sd S, (∀ i, p i ∈ C) →
        Gp.predictWithHyps (.vec fun i : Fin n => x i) (fun i => f (x i)) (.vec p) h "matern32" none =
          .ok (mu, sd, S) → ∀ i, |f (p i) - mu i| ≤ 2 * sd i := by
  have hb : "matern32" ∈ baseNames := by simp [baseNames]
  have hm : PriorFunction (none : Gp.PriorMu 1) fun _ => 0 := fun n X => rfl
  let f : Point 1 → ℝ := fun z => kernel "matern32" 2 (fun _ => 3) (fun _ => 0) z
  have hf : NormAtMost "matern32" 2 (fun _ : Fin 1 => 3) 2 fun z => f z - 0 := by
    have := normAtMost_expansion (base := "matern32") (s := 2) (l := fun _ : Fin 1 => 3) (k := 1)
      (fun _ _ => 0) fun _ => 1
    have e : kernel "matern32" 2 (fun _ : Fin 1 => 3) (fun _ => 0) (fun _ => 0) = 2 * 2 := by
      norm_num [kernel, scaledDistance, profile, m32Profile]
    simpa [f, e] using this
  obtain ⟨x, h1, h2⟩ := exists_chosen (base := "matern32") hb example_describes
    (Set.finite_range fun j : Fin 3 => fun _ : Fin 1 => (j : ℝ)) (Set.range_nonempty _)
    (acq := fun mu sd Y => ucb mu sd (some Y) 2 false) (g := fun _ m t => -m + 2 * t)
    (fun _ _ _ _ _ _ _ _ => rfl) f (fun _ => 5)
  refine ⟨_, x, _, f, example_describes, (Set.finite_range _).isBounded, fun j => ⟨j, rfl⟩, ?_,
    fun n hn => ⟨(h2 n hn).1, (h2 n hn).2, fun p mu sd S _ hp i => ?_⟩⟩
  · have e0 : f (fun _ => 0) = 4 := by
      norm_num [f, kernel, scaledDistance, profile, m32Profile]
    have hlt : f (fun _ => 1) < 4 := by
      have e1 : f (fun _ => 1) = 4 * m32Profile (1 / 3) := by
        have : √((3 : ℝ) ^ 2)⁻¹ = 1 / 3 := by
          rw [Real.sqrt_inv, Real.sqrt_sq (by norm_num)]
          norm_num
        norm_num [f, kernel, scaledDistance, profile, this]
        norm_num at this
        rw [this]
      have h3 : 0 < √3 * (1 / 3 : ℝ) := by positivity
      have h4 : m32Profile (1 / 3) < 1 := by
        rw [m32Profile, Real.exp_neg, ← div_eq_mul_inv, div_lt_one (Real.exp_pos _)]
        have := Real.add_one_lt_exp h3.ne'
        linarith
      rw [e1]
      linarith
    rw [e0]
    exact hlt.ne'
  · have h3 := predicted_error hb example_describes hm hf hp i
    have h4 := (predicted_sq hb example_describes (PriorFunction.total hm) hp i).1
    simp only [sub_self, ne_eq, OfNat.ofNat_ne_zero, not_false_eq_true, zero_pow,
      Finset.sum_const_zero, zero_div, add_zero] at h3
    rw [Real.sqrt_sq (by norm_num)] at h3
    refine h3.trans (mul_le_mul_of_nonneg_left ?_ (by norm_num))
    rw [Real.sqrt_le_left h4.le]
    linarith

end Verif.Props
