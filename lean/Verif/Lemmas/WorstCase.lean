import Verif.Lemmas.Exploration
import Verif.Spec.WorstCase
import Verif.Lemmas.Normal

/-! # Errors of the posterior mean for functions of bounded norm (lemmas for C123 to C125) -/

namespace Verif.Lemmas

open Verif.Spec Verif.Covariance Verif.UtilsCovariance
open Matrix hiding gram

variable {d : ℕ} {base : String} {σ s : ℝ} {l : Fin d → ℝ}

theorem itemKernel_one (u v : Point d) :
    itemKernel base s l ⟨1, fun _ => u⟩ ⟨1, fun _ => v⟩ = kernel base s l u v := by
  simp [itemKernel, setKernel]

/-- The weights of the responses in the prediction at `z`. -/
noncomputable def weights (base : String) (σ s : ℝ) (l : Fin d → ℝ) {n : ℕ} (x : Fin n → Point d)
    (z : Point d) : Fin n → ℝ :=
  (noisyGram base σ s l (.vec x))⁻¹ *ᵥ fun i => kernel base s l (x i) z

theorem postMean_weights {n : ℕ} (x : Fin n → Point d) (z : Point d) (y : Fin n → ℝ) :
    postMean base σ s l (.vec x) (.vec fun _ : Fin 1 => z) y 0 =
      ∑ i, weights base σ s l x z i * y i := by
  have ht : ((noisyGram base σ s l (.vec x))⁻¹)ᵀ = (noisyGram base σ s l (.vec x))⁻¹ := by
    rw [transpose_nonsing_inv, noisyGram_transpose]
  have e : (fun j => ((gram base s l (.vec x) (.vec fun _ : Fin 1 => z))ᵀ *
      (noisyGram base σ s l (.vec x))⁻¹) 0 j) = weights base σ s l x z := by
    funext j
    have hji : ∀ i, (noisyGram base σ s l (.vec x))⁻¹ i j = (noisyGram base σ s l (.vec x))⁻¹ j i :=
      fun i => congrFun (congrFun ht j) i
    simp [weights, Matrix.mul_apply, mulVec, dotProduct, gram, item, itemKernel_one, hji, mul_comm]
  rw [postMean, mulVec, ← e]
  rfl

/-- The squared norm of the difference of the kernel function at a point and a combination of those
at others. -/
noncomputable def gapSq (base : String) (s : ℝ) (l : Fin d → ℝ) {n : ℕ} (x : Fin n → Point d)
    (z : Point d) (w : Fin n → ℝ) : ℝ :=
  kernel base s l z z - 2 * ∑ i, w i * kernel base s l (x i) z +
    ∑ i, ∑ j, w i * kernel base s l (x i) (x j) * w j

/-- The predicted variance without the jitter. -/
theorem gap_weights {n : ℕ} (x : Fin n → Point d) (z : Point d) :
    gapSq base s l x z (weights base σ s l x z) +
      (σ ^ 2 + 1 / 100000) * ∑ i, weights base σ s l x z i ^ 2 =
    postCov base σ s l (.vec x) (.vec fun _ : Fin 1 => z) 0 0 - 1 / 100000 := by
  set w := weights base σ s l x z with hw
  have h := errForm_eq base σ s l (.vec x) (.vec fun _ : Fin 1 => z) (fun _ => 1) w
  have e : (noisyGram base σ s l (.vec x))⁻¹ *ᵥ
      (gram base s l (.vec x) (.vec fun _ : Fin 1 => z) *ᵥ fun _ => 1) = w := by
    rw [hw, weights]
    congr 1
    funext i
    simp [mulVec, dotProduct, gram, item, itemKernel_one]
  rw [e, sub_self, zero_dotProduct, add_zero] at h
  have e0 : (fun _ : Fin 1 => (1 : ℝ)) ⬝ᵥ
      (postCov base σ s l (.vec x) (.vec fun _ : Fin 1 => z) *ᵥ fun _ => 1) =
      postCov base σ s l (.vec x) (.vec fun _ : Fin 1 => z) 0 0 := by
    simp [dotProduct, mulVec]
  have e1 : (fun _ : Fin 1 => (1 : ℝ)) ⬝ᵥ ((gram base s l (.vec fun _ : Fin 1 => z)
      (.vec fun _ : Fin 1 => z) + (1 / 100000 : ℝ) • (1 : Matrix (Fin 1) (Fin 1) ℝ)) *ᵥ fun _ => 1) =
      kernel base s l z z + 1 / 100000 := by
    simp [dotProduct, mulVec, gram, item, itemKernel_one]
  have e2 : w ⬝ᵥ (gram base s l (.vec x) (.vec fun _ : Fin 1 => z) *ᵥ fun _ => 1) =
      ∑ i, w i * kernel base s l (x i) z := by
    simp [dotProduct, mulVec, gram, item, itemKernel_one]
  have e3 : w ⬝ᵥ (noisyGram base σ s l (.vec x) *ᵥ w) =
      ∑ i, ∑ j, w i * kernel base s l (x i) (x j) * w j +
        (σ ^ 2 + 1 / 100000) * ∑ i, w i ^ 2 := by
    rw [noisyGram, add_mulVec, dotProduct_add, smul_mulVec, one_mulVec, dotProduct_smul, smul_eq_mul]
    congr 1
    · simp only [dotProduct, mulVec, gram, item, itemKernel_one, Matrix.of_apply, Finset.mul_sum,
        mul_assoc]
    · simp only [dotProduct, pow_two]
  rw [e0, errForm, e1, e2, e3] at h
  rw [gapSq]
  linarith

/-- The quadratic form of the kernel at a point and others, in the combination one minus weights. -/
theorem form_cons {n : ℕ} (x : Fin n → Point d) (z : Point d) (w : Fin n → ℝ) :
    ∑ i, ∑ j, (Fin.cons 1 (fun i => -w i) : Fin (n + 1) → ℝ) i *
      kernel base s l ((Fin.cons z x : Fin (n + 1) → Point d) i)
        ((Fin.cons z x : Fin (n + 1) → Point d) j) *
      (Fin.cons 1 (fun i => -w i) : Fin (n + 1) → ℝ) j = gapSq base s l x z w := by
  simp only [Fin.sum_univ_succ, Fin.cons_zero, Fin.cons_succ]
  have hsym : ∀ i, kernel base s l z (x i) = kernel base s l (x i) z := fun i => kernel_symm _ _ _ _ _
  simp only [hsym, gapSq, one_mul, mul_one, Finset.sum_add_distrib]
  have a1 : ∑ i, kernel base s l (x i) z * -w i = -∑ i, w i * kernel base s l (x i) z := by
    rw [← Finset.sum_neg_distrib]
    exact Finset.sum_congr rfl fun i _ => by ring
  have a2 : ∑ i, -w i * kernel base s l (x i) z = -∑ i, w i * kernel base s l (x i) z := by
    rw [← Finset.sum_neg_distrib]
    exact Finset.sum_congr rfl fun i _ => by ring
  have a3 : ∑ i, ∑ j, -w i * kernel base s l (x i) (x j) * -w j =
      ∑ i, ∑ j, w i * kernel base s l (x i) (x j) * w j :=
    Finset.sum_congr rfl fun i _ => Finset.sum_congr rfl fun j _ => by ring
  rw [a1, a2, a3]
  ring

theorem gapSq_nonneg {n : ℕ} (x : Fin n → Point d) (z : Point d) (w : Fin n → ℝ) :
    0 ≤ gapSq base s l x z w := by
  have := joint_nonneg base s l (.vec x) (.vec fun _ : Fin 1 => z) (fun _ => 1) w
  simp only [dotProduct, mulVec, gram, item, itemKernel_one, Matrix.of_apply, mul_one,
    Finset.univ_unique, Finset.sum_singleton, one_mul] at this
  rw [gapSq]
  simpa only [Finset.mul_sum, mul_assoc] using this

/-- The error of the combination of responses that the prediction uses. -/
theorem error_le_on {n : ℕ} {x : Fin n → Point d} {z : Point d} {g : Point d → ℝ} {B : ℝ}
    {D : Set (Point d)} (hg : NormAtMostOn D base s l B g) (hx : ∀ i, x i ∈ D) (hz : z ∈ D)
    (e : Fin n → ℝ) :
    |g z - ∑ i, weights base σ s l x z i * (g (x i) + e i)| ≤
      √(B ^ 2 + (∑ i, e i ^ 2) / (σ ^ 2 + 1 / 100000)) *
        √(postCov base σ s l (.vec x) (.vec fun _ : Fin 1 => z) 0 0 - 1 / 100000) := by
  have hτ : (0 : ℝ) < σ ^ 2 + 1 / 100000 := by positivity
  set w := weights base σ s l x z with hw
  set τ := σ ^ 2 + 1 / 100000 with hτd
  have h1 := hg.2 (n + 1) (Fin.cons z x) (fun i => Fin.cases hz hx i) (Fin.cons 1 fun i => -w i)
  rw [form_cons] at h1
  simp only [Fin.sum_univ_succ, Fin.cons_zero, Fin.cons_succ, one_mul] at h1
  have e1 : g z - ∑ i, w i * (g (x i) + e i) =
      (g z + ∑ i, -w i * g (x i)) - ∑ i, w i * e i := by
    simp only [mul_add, Finset.sum_add_distrib, neg_mul, Finset.sum_neg_distrib]
    ring
  have h2 : |∑ i, w i * e i| ≤ √(τ * ∑ i, w i ^ 2) * √((∑ i, e i ^ 2) / τ) := by
    rw [← Real.sqrt_mul (by positivity)]
    refine Real.abs_le_sqrt ?_
    have := Finset.sum_mul_sq_le_sq_mul_sq Finset.univ w e
    have e2 : (τ * ∑ i, w i ^ 2) * ((∑ i, e i ^ 2) / τ) = (∑ i, w i ^ 2) * ∑ i, e i ^ 2 := by
      field_simp
    rw [e2]
    exact this
  have hgap := gapSq_nonneg (base := base) (s := s) (l := l) x z w
  have hW : 0 ≤ τ * ∑ i, w i ^ 2 := by positivity
  have hE : 0 ≤ (∑ i, e i ^ 2) / τ := by positivity
  rw [← gap_weights, ← hw, ← Real.sqrt_mul (by positivity), e1]
  refine Real.le_sqrt_of_sq_le ?_
  rw [sq_abs]
  have h3 : |g z + ∑ i, -w i * g (x i) - ∑ i, w i * e i| ≤
      B * √(gapSq base s l x z w) + √((∑ i, e i ^ 2) / τ) * √(τ * ∑ i, w i ^ 2) := by
    refine (abs_sub _ _).trans ?_
    rw [mul_comm √((∑ i, e i ^ 2) / τ)]
    exact add_le_add h1 h2
  rw [← sq_abs]
  refine (pow_le_pow_left₀ (abs_nonneg _) h3 2).trans ?_
  have s1 := Real.sq_sqrt hgap
  have s2 := Real.sq_sqrt hW
  have s3 := Real.sq_sqrt hE
  set p := √(gapSq base s l x z w)
  set q := √(τ * ∑ i, w i ^ 2)
  set r := √((∑ i, e i ^ 2) / τ)
  rw [← s1, ← s2, ← s3]
  nlinarith [sq_nonneg (B * q - r * p)]

/-- The error of the combination of responses that the prediction uses. -/
theorem error_le {n : ℕ} {x : Fin n → Point d} {z : Point d} {g : Point d → ℝ} {B : ℝ}
    (hg : NormAtMost base s l B g) (e : Fin n → ℝ) :
    |g z - ∑ i, weights base σ s l x z i * (g (x i) + e i)| ≤
      √(B ^ 2 + (∑ i, e i ^ 2) / (σ ^ 2 + 1 / 100000)) *
        √(postCov base σ s l (.vec x) (.vec fun _ : Fin 1 => z) 0 0 - 1 / 100000) :=
  error_le_on (D := Set.univ) ⟨hg.1, fun n z _ => hg.2 n z⟩ (fun _ => trivial) trivial e

/-- Combinations of kernel functions and the Cauchy-Schwarz inequality. -/
theorem normAtMost_expansion {k : ℕ} (y : Fin k → Point d) (a : Fin k → ℝ) :
    NormAtMost base s l (√(∑ i, ∑ j, a i * kernel base s l (y i) (y j) * a j))
      fun z => ∑ j, a j * kernel base s l (y j) z := by
  refine ⟨Real.sqrt_nonneg _, fun n z c => ?_⟩
  have hq : ∀ t : ℝ, 0 ≤ (∑ i, ∑ j, a i * kernel base s l (y i) (y j) * a j) * (t * t) +
      (2 * ∑ i, c i * ∑ j, a j * kernel base s l (y j) (z i)) * t +
        ∑ i, ∑ j, c i * kernel base s l (z i) (z j) * c j := by
    intro t
    have := joint_nonneg base s l (.vec y) (.vec z) c fun j => -(t * a j)
    have e1 : c ⬝ᵥ (gram base s l (.vec z) (.vec z) *ᵥ c) =
        ∑ i, ∑ j, c i * kernel base s l (z i) (z j) * c j := by
      simp only [dotProduct, mulVec, gram, item, itemKernel_one, Matrix.of_apply, Finset.mul_sum,
        mul_assoc]
    have e2 : (fun j => -(t * a j)) ⬝ᵥ (gram base s l (.vec y) (.vec z) *ᵥ c) =
        -(t * ∑ i, c i * ∑ j, a j * kernel base s l (y j) (z i)) := by
      simp only [dotProduct, mulVec, gram, item, itemKernel_one, Matrix.of_apply, Finset.mul_sum]
      rw [Finset.sum_comm, ← Finset.sum_neg_distrib]
      refine Finset.sum_congr rfl fun i _ => ?_
      rw [← Finset.sum_neg_distrib]
      exact Finset.sum_congr rfl fun j _ => by ring
    have e3 : (fun j => -(t * a j)) ⬝ᵥ (gram base s l (.vec y) (.vec y) *ᵥ fun j => -(t * a j)) =
        t * t * ∑ i, ∑ j, a i * kernel base s l (y i) (y j) * a j := by
      simp only [dotProduct, mulVec, gram, item, itemKernel_one, Matrix.of_apply, Finset.mul_sum]
      exact Finset.sum_congr rfl fun i _ => Finset.sum_congr rfl fun j _ => by ring
    rw [e1, e2, e3] at this
    linarith
  have hd := discrim_le_zero hq
  rw [discrim] at hd
  have hA : 0 ≤ ∑ i, ∑ j, a i * kernel base s l (y i) (y j) * a j := by
    have := (gram_posSemidef base s l (.vec y)).dotProduct_mulVec_nonneg a
    simpa only [star_trivial, dotProduct, mulVec, gram, item, itemKernel_one, Matrix.of_apply,
      Finset.mul_sum, mul_assoc] using this
  rw [← Real.sqrt_mul hA]
  refine Real.abs_le_sqrt ?_
  nlinarith

theorem PriorFunction.total {prior : Gp.PriorMu d} {m : Point d → ℝ} (hm : PriorFunction prior m) :
    PriorTotal prior := fun n X => ⟨_, hm n X⟩

theorem postMean_single {n k : ℕ} (x : Fin n → Point d) (p : Fin k → Point d) (y : Fin n → ℝ)
    (i : Fin k) : postMean base σ s l (.vec x) (.vec p) y i =
      postMean base σ s l (.vec x) (.vec fun _ : Fin 1 => p i) y 0 := by
  simp [postMean, mulVec, dotProduct, gram, item, Matrix.mul_apply]

/-- What a returned prediction says about the means. -/
theorem predicted_mean {n k : ℕ} (hb : base ∈ baseNames) {h : HypDict} (hd : Describes h σ s l)
    {prior : Gp.PriorMu d} {m : Point d → ℝ} (hm : PriorFunction prior m) {x : Fin n → Point d}
    {Y : Fin n → ℝ} {p : Fin k → Point d} {mu sd S}
    (hp : Gp.predictWithHyps (.vec x) Y (.vec p) h base prior = .ok (mu, sd, S)) (i : Fin k) :
    mu i = m (p i) + ∑ j, weights base σ s l x (p i) j * (Y j - m (x j)) := by
  have hv : ∀ {n : ℕ} (v : Fin n → Point d), Suits base base (.vec v) := fun v => ⟨hb, .inl ⟨rfl, _, rfl⟩⟩
  rw [predictWithHyps_ok (hv x) (hv p) hd Y (hm n x) (hm k p)] at hp
  simp only [Except.ok.injEq, Prod.mk.injEq] at hp
  obtain ⟨rfl, -, -⟩ := hp
  rw [Pi.add_apply, postMean_single, postMean_weights, add_comm]
  rfl

/-- The error of the predicted mean. -/
theorem predicted_error_on {n k : ℕ} (hb : base ∈ baseNames) {h : HypDict} (hd : Describes h σ s l)
    {prior : Gp.PriorMu d} {m : Point d → ℝ} (hm : PriorFunction prior m) {f : Point d → ℝ} {B : ℝ}
    {D : Set (Point d)} (hf : NormAtMostOn D base s l B fun z => f z - m z) {x : Fin n → Point d}
    (hx : ∀ i, x i ∈ D) {Y : Fin n → ℝ} {p : Fin k → Point d} {mu sd S}
    (hp : Gp.predictWithHyps (.vec x) Y (.vec p) h base prior = .ok (mu, sd, S)) {i : Fin k}
    (hi : p i ∈ D) :
    |f (p i) - mu i| ≤ √(B ^ 2 + (∑ j, (Y j - f (x j)) ^ 2) / (σ ^ 2 + 1 / 100000)) *
      √(sd i ^ 2 - 1 / 100000) := by
  have h1 := error_le_on (σ := σ) (x := x) (z := p i) hf hx hi fun j => Y j - f (x j)
  rw [← (predicted_sq hb hd (PriorFunction.total hm) hp i).2] at h1
  refine le_trans (le_of_eq ?_) h1
  rw [predicted_mean hb hd hm hp i]
  congr 1
  rw [sub_add_eq_sub_sub]
  congr 1
  exact Finset.sum_congr rfl fun j _ => by ring

/-- The error of the predicted mean. -/
theorem predicted_error {n k : ℕ} (hb : base ∈ baseNames) {h : HypDict} (hd : Describes h σ s l)
    {prior : Gp.PriorMu d} {m : Point d → ℝ} (hm : PriorFunction prior m) {f : Point d → ℝ} {B : ℝ}
    (hf : NormAtMost base s l B fun z => f z - m z) {x : Fin n → Point d}
    {Y : Fin n → ℝ} {p : Fin k → Point d} {mu sd S}
    (hp : Gp.predictWithHyps (.vec x) Y (.vec p) h base prior = .ok (mu, sd, S)) (i : Fin k) :
    |f (p i) - mu i| ≤ √(B ^ 2 + (∑ j, (Y j - f (x j)) ^ 2) / (σ ^ 2 + 1 / 100000)) *
      √(sd i ^ 2 - 1 / 100000) :=
  predicted_error_on (D := Set.univ) hb hd hm ⟨hf.1, fun n z _ => hf.2 n z⟩ (fun _ => trivial) hp
    trivial

end Verif.Lemmas

namespace Verif.Lemmas

open Verif.Spec Verif.UtilsCovariance Verif.Acquisition

/-- Functions of bounded norm change little between close points. -/
theorem norm_near {d : ℕ} {base : String} {s : ℝ} {l : Fin d → ℝ} {B θ : ℝ} (hθ : 0 < θ) :
    0 ≤ B → ∃ ρ > 0, ∀ g : Point d → ℝ, NormAtMost base s l B g →
      ∀ x y : Point d, dist x y ≤ ρ → |g x - g y| ≤ θ := by
  intro hB
  obtain ⟨ρ, hρ, hk⟩ := kernel_near base s l (ε := (θ / (B + 1)) ^ 2 / 2) (by positivity)
  refine ⟨ρ, hρ, fun g hg x y hxy => ?_⟩
  have h := hg.2 2 ![x, y] ![1, -1]
  simp only [Fin.sum_univ_two, Matrix.cons_val_zero, Matrix.cons_val_one, one_mul, neg_mul,
    mul_one, mul_neg, neg_neg] at h
  have h1 := hk x y hxy
  have h2 := kernel_symm base s l y x
  have h3 := kernel_le base s l x x
  have h4 := kernel_le base s l y y
  have h5 : √(kernel base s l x x + -kernel base s l x y +
      (-kernel base s l y x + kernel base s l y y)) ≤ θ / (B + 1) := by
    rw [Real.sqrt_le_left (by positivity)]
    linarith
  have h6 := mul_le_mul_of_nonneg_left h5 hB
  have h7 : B * (θ / (B + 1)) ≤ θ := by
    rw [mul_div_assoc', div_le_iff₀ (by positivity)]
    nlinarith
  rw [sub_eq_add_neg]
  linarith

theorem normPdf_le_zero (u : ℝ) : normPdf u ≤ (√(2 * Real.pi))⁻¹ := by
  rw [normPdf_eq]
  refine mul_le_of_le_one_right (by positivity) (Real.exp_le_one_iff.2 ?_)
  have := sq_nonneg u
  linarith

theorem pdf_zero_le_one : (√(2 * Real.pi))⁻¹ ≤ 1 := by
  refine inv_le_one_of_one_le₀ ?_
  rw [Real.one_le_sqrt]
  have := Real.pi_gt_three
  linarith

/-- The improvement expected at a point is at most the improvement of the mean and a share of the
deviation. -/
theorem improve_le {b m S j : ℝ} (hS : 0 ≤ S) :
    (b - m) * normCdf ((b - m) / (S + j)) + S * normPdf ((b - m) / (S + j)) ≤
      max (b - m) 0 + S * (√(2 * Real.pi))⁻¹ := by
  refine add_le_add ?_ (mul_le_mul_of_nonneg_left (normPdf_le_zero _) hS)
  rcases le_total 0 (b - m) with h | h
  · rw [max_eq_left h]
    exact mul_le_of_le_one_right h (normCdf_le_one _)
  · rw [max_eq_right h]
    exact mul_nonpos_of_nonpos_of_nonneg h (normCdf_nonneg _)

/-- A possible improvement by `g`, within `B` deviations of the mean, is seen at least in part. -/
theorem improve_gap {b m S j B g : ℝ} (hS : 0 ≤ S) (hj : 0 < j) (hg : g - B * S ≤ b - m) :
    g * normCdf (-B) ≤ (b - m) * normCdf ((b - m) / (S + j)) + S * normPdf ((b - m) / (S + j)) +
      j * (√(2 * Real.pi))⁻¹ := by
  have hSj : 0 < S + j := by linarith
  set u := (b - m) / (S + j) with hu
  have hbm : (S + j) * u = b - m := by
    rw [hu]
    field_simp
  have h1 := mul_le_mul_of_nonneg_left (psi_tangent (-B) u) hSj.le
  have h2 := mul_le_mul_of_nonneg_left (normPdf_le_zero u) hj.le
  have h3 := mul_nonneg hS (psi_pos (-B)).le
  have h4 := mul_nonneg hj.le (normPdf_pos (-B)).le
  have h5 := mul_le_mul_of_nonneg_right hg (normCdf_nonneg (-B))
  have e1 : (S + j) * (u * normCdf (-B) + normPdf (-B)) =
      (b - m) * normCdf (-B) + S * normPdf (-B) + j * normPdf (-B) := by
    rw [← hbm]
    ring
  have e2 : (S + j) * (u * normCdf u + normPdf u) =
      (b - m) * normCdf u + S * normPdf u + j * normPdf u := by
    rw [← hbm]
    ring
  rw [e1, e2] at h1
  nlinarith

end Verif.Lemmas

namespace Verif.Lemmas

open Verif.Spec Verif.UtilsCovariance

/-- Sequences in which every term is chosen after those before it. -/
theorem exists_sequence {α : Type*} {P : (n : ℕ) → (Fin n → α) → α → Prop}
    (h : ∀ n p, ∃ a, P n p a) : ∃ x : ℕ → α, ∀ n, P n (fun i => x i) (x n) := by
  choose F hF using h
  let x : ℕ → α := WellFounded.fix Nat.lt_wfRel.wf fun n ih => F n fun i => ih i i.2
  have hx : ∀ n, x n = F n fun i => x i := fun n => WellFounded.fix_eq _ _ n
  refine ⟨x, fun n => ?_⟩
  rw [hx]
  exact hF n _

/-- Choices among finitely many points, by an acquisition function that scores points one by one. -/
theorem exists_chosen {d : ℕ} {base : String} (hb : base ∈ baseNames) {h : HypDict} {σ s : ℝ}
    {l : Fin d → ℝ} (hd : Describes h σ s l) {C : Set (Point d)} (hC : C.Finite) (hne : C.Nonempty)
    {acq : List ℝ → List ℝ → List ℝ → Py (List ℝ)} {g : List ℝ → ℝ → ℝ → ℝ}
    (hacq : ∀ Y m m' t t', Y ≠ [] → 0 < t → 0 < t' →
      acq [m, m'] [t, t'] Y = .ok [g Y m t, g Y m' t']) (f : Point d → ℝ) (a : Point d) :
    ∃ x : ℕ → Point d, x 0 = a ∧ ∀ n, 1 ≤ n → x n ∈ C ∧
      ChosenBy acq C x (fun i => f (x i)) h base none 0 n := by
  have hv : ∀ {n : ℕ} (v : Fin n → Point d), Suits base base (.vec v) :=
    fun v => ⟨hb, .inl ⟨rfl, _, rfl⟩⟩
  have hm : PriorFunction (none : Gp.PriorMu d) fun _ => 0 := fun n X => rfl
  obtain ⟨x, hx⟩ := exists_sequence (α := Point d)
    (P := fun n p u => (n = 0 → u = a) ∧ (1 ≤ n → u ∈ C ∧ ∀ z ∈ C, ∃ mu sd S v v',
      Gp.predictWithHyps (.vec p) (fun i => f (p i)) (.vec ![u, z]) h base none =
        .ok (mu, sd, S) ∧
      acq (List.ofFn mu) (List.ofFn sd) (List.ofFn fun i : Fin n => f (p i)) = .ok [v, v'] ∧
        v' ≤ v + 0)) (by
    intro n p
    rcases Nat.eq_zero_or_pos n with rfl | hn
    · exact ⟨a, fun _ => rfl, fun h => absurd h (by norm_num)⟩
    · obtain ⟨u, hu, hmax⟩ := Set.exists_max_image C (fun z => g (List.ofFn fun i : Fin n => f (p i))
        (∑ j, weights base σ s l p z j * (f (p j) - 0))
        √(postCov base σ s l (.vec p) (.vec fun _ : Fin 1 => z) 0 0)) hC hne
      refine ⟨u, fun h => absurd h (by omega), fun _ => ⟨hu, fun z hz => ?_⟩⟩
      obtain ⟨mu, sd, S, hp⟩ : ∃ mu sd S, Gp.predictWithHyps (.vec p) (fun i => f (p i))
          (.vec ![u, z]) h base none = .ok (mu, sd, S) :=
        ⟨_, _, _, predictWithHyps_ok (hv p) (hv ![u, z]) hd (fun i => f (p i)) (prior := none)
          (μ := 0) (μs := 0) rfl rfl⟩
      have s0 := predicted_sq hb hd (PriorFunction.total hm) hp 0
      have s1 := predicted_sq hb hd (PriorFunction.total hm) hp 1
      refine ⟨mu, sd, S, g (List.ofFn fun i : Fin n => f (p i)) (mu 0) (sd 0),
        g (List.ofFn fun i : Fin n => f (p i)) (mu 1) (sd 1), hp, ?_, ?_⟩
      · rw [show List.ofFn mu = [mu 0, mu 1] by simp [List.ofFn_succ],
          show List.ofFn sd = [sd 0, sd 1] by simp [List.ofFn_succ]]
        exact hacq _ _ _ _ _ (by simp; omega) s0.1 s1.1
      · have m0 := predicted_mean hb hd hm hp 0
        have m1 := predicted_mean hb hd hm hp 1
        have t0 := Real.sqrt_sq s0.1.le
        have t1 := Real.sqrt_sq s1.1.le
        rw [s0.2] at t0
        rw [s1.2] at t1
        simp only [Matrix.cons_val_zero, Matrix.cons_val_one, zero_add] at m0 m1 t0 t1
        have := hmax z hz
        beta_reduce at this
        rw [m0, m1, ← t0, ← t1, add_zero]
        exact this)
  exact ⟨x, (hx 0).1 rfl, fun n hn => (hx n).2 hn⟩

end Verif.Lemmas
