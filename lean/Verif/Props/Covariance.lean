import Verif.Lemmas.Covariance
import Verif.Lemmas.Profiles

/-! C24-C28: covariance matrices. -/

namespace Verif.Props

open Verif.Spec Verif.Covariance Verif.UtilsCovariance Verif.Constants Verif.Lemmas

/-- Two-dimensional lengthscales used in the examples. -/
private def exDict : HypDict :=
  { noise := some (.flt (.fin 1)), signal := some (.flt (.fin 3)),
    lengthscales := some (.arr [.fin 1, .fin 2]) }

private theorem exDict_describes : Describes exDict 1 3 ![1, 2] where
  noise := rfl
  signal := rfl
  lengthscales := .inl (by simp [exDict, List.ofFn_succ])
  nonzero := by intro k; fin_cases k <;> simp

/-- C24: `cov_main` on the same inputs is symmetric, has `signal^2 + jitter` on the diagonal
and values in `[0, signal^2]` elsewhere, positive unless the signal is zero. -/
theorem C24_symmetric_bounded {n d : ℕ} {name : String} (hn : name ∈ baseNames) {h : HypDict}
    {σ s : ℝ} {l : Fin d → ℝ} (hd : Describes h σ s l) (X : Fin n → Point d) (jit : ℝ) :
    ∃ K, covMain name (.vec X) (.vec X) h true jit = .ok K ∧
      (∀ i j, K i j = K j i) ∧ (∀ i, K i i = s ^ 2 + jit) ∧
      ∀ i j, i ≠ j → 0 ≤ K i j ∧ K i j ≤ s ^ 2 ∧ (s ≠ 0 → 0 < K i j) := by
  refine ⟨_, covMain_base hn hd X X true (fun _ => rfl) jit, ?_, ?_, ?_⟩
  · intro i j
    simp only [kernel_symm name s l (X i), eq_comm (a := i.val)]
  · intro i
    simp [kernel_self, add_comm]
  · intro i j hij
    have : ¬ i.val = j.val := fun h => hij (Fin.ext h)
    simp only [this, and_false, if_false, zero_add]
    exact ⟨kernel_nonneg _ _ _ _ _, kernel_le _ _ _ _ _, fun hs => kernel_pos _ hs _ _ _⟩

example : Describes exDict 1 3 ![1, 2] ∧ "matern52" ∈ baseNames ∧ (3 : ℝ) ≠ 0 :=
  ⟨exDict_describes, by simp [baseNames], by norm_num⟩

/-- C24: the default jitter is `1e-5`. -/
theorem C24_default_jitter {n d : ℕ} {name : String} (hn : name ∈ baseNames) {h : HypDict}
    {σ s : ℝ} {l : Fin d → ℝ} (hd : Describes h σ s l) (X : Fin n → Point d) :
    ∃ K, covMain name (.vec X) (.vec X) h true = .ok K ∧ ∀ i, K i i = s ^ 2 + 1 / 100000 := by
  obtain ⟨K, hK, -, hdiag, -⟩ := C24_symmetric_bounded hn hd X JITTER_COV
  refine ⟨K, hK, fun i => ?_⟩
  rw [hdiag]; norm_num [JITTER_COV]

/-- C24: swapping the two input arrays transposes the matrix; no jitter is added when the
inputs are declared different. -/
theorem C24_transpose {n m d : ℕ} {name : String} (hn : name ∈ baseNames) {h : HypDict}
    {σ s : ℝ} {l : Fin d → ℝ} (hd : Describes h σ s l) (X : Fin n → Point d)
    (Xp : Fin m → Point d) (jit : ℝ) :
    ∃ K K', covMain name (.vec X) (.vec Xp) h false jit = .ok K ∧
      covMain name (.vec Xp) (.vec X) h false jit = .ok K' ∧ (∀ i j, K i j = K' j i) ∧
      ∀ i j, X i = Xp j → K i j = s ^ 2 := by
  refine ⟨_, _, covMain_base hn hd X Xp false (by simp) jit,
    covMain_base hn hd Xp X false (by simp) jit, ?_, ?_⟩
  · intro i j
    simp [kernel_symm name s l (X i)]
  · intro i j hij
    simp [hij, kernel_self]

example : ∃ K K' : Matrix (Fin 2) (Fin 1) ℝ × Matrix (Fin 1) (Fin 2) ℝ,
    covMain "se" (.vec ![![0, 0], ![1, 1]]) (.vec ![![1, 1]]) exDict false = .ok K.1 ∧
    covMain "se" (.vec ![![1, 1]]) (.vec ![![0, 0], ![1, 1]]) exDict false = .ok K'.2 := by
  obtain ⟨K, K', h1, h2, -⟩ := C24_transpose (name := "se") (by simp [baseNames])
    exDict_describes ![![0, 0], ![1, 1]] ![![1, 1]] JITTER_COV
  exact ⟨⟨K, 0⟩, ⟨0, K'⟩, h1, h2⟩

/-- C25: without jitter the covariance matrix of any inputs (repetitions allowed) has only
non-negative quadratic forms; with positive jitter all forms of non-zero vectors are
positive. -/
theorem C25_positive_semidefinite {n d : ℕ} {name : String} (hn : name ∈ baseNames) {h : HypDict}
    {σ s : ℝ} {l : Fin d → ℝ} (hd : Describes h σ s l) (X : Fin n → Point d) (jit : ℝ) :
    (∃ K, covMain name (.vec X) (.vec X) h false jit = .ok K ∧ QuadNonneg K) ∧
    ∃ K, covMain name (.vec X) (.vec X) h true jit = .ok K ∧ (0 ≤ jit → QuadNonneg K) ∧
      (0 < jit → QuadPos K) := by
  have key : ∀ c : Fin n → ℝ, ∑ i, ∑ j, c i *
      ((if i.val = j.val then jit else 0) + kernel name s l (X i) (X j)) * c j =
      jit * ∑ i, c i ^ 2 + ∑ i, ∑ j, c i * kernel name s l (X i) (X j) * c j := by
    intro c
    rw [Finset.mul_sum, ← Finset.sum_add_distrib]
    refine Finset.sum_congr rfl fun i _ => ?_
    simp only [mul_add, add_mul, Finset.sum_add_distrib]
    congr 1
    rw [Finset.sum_eq_single i]
    · simp; ring
    · intro j _ hj
      have : ¬ i.val = j.val := fun h => hj (Fin.ext h.symm)
      simp [this]
    · simp
  refine ⟨⟨_, covMain_base hn hd X X false (by simp) jit, ?_⟩,
    ⟨_, covMain_base hn hd X X true (fun _ => rfl) jit, ?_, ?_⟩⟩
  · intro c
    have := kernel_quad name s l X c
    simpa using this
  · intro hj c
    simp only [true_and]
    rw [key c]
    exact add_nonneg (mul_nonneg hj (Finset.sum_nonneg fun i _ => sq_nonneg _))
      (kernel_quad name s l X c)
  · intro hj c hc
    simp only [true_and]
    rw [key c]
    obtain ⟨i, hi⟩ := Function.ne_iff.mp hc
    refine add_pos_of_pos_of_nonneg (mul_pos hj ?_) (kernel_quad name s l X c)
    have hi2 : 0 < c i ^ 2 := by
      have : c i ≠ 0 := hi
      positivity
    exact hi2.trans_le (Finset.single_le_sum (f := fun i => c i ^ 2) (fun i _ => sq_nonneg _)
      (Finset.mem_univ i))

/-- With a repeated input the matrix without jitter is singular: the quadratic form of
`(1, -1)` is zero, so "non-negative" cannot be strengthened. -/
example : ∃ K, covMain "se" (.vec ![![0, 0], ![0, 0]]) (.vec ![![0, 0], ![0, 0]]) exDict false
    = .ok K ∧ ∑ i, ∑ j, (![1, -1] : Fin 2 → ℝ) i * K i j * (![1, -1] : Fin 2 → ℝ) j = 0 := by
  refine ⟨_, covMain_base (by simp [baseNames]) exDict_describes _ _ false (by simp) _, ?_⟩
  simp [Fin.sum_univ_two, kernel_self]

/-- C26: adding one vector to all inputs changes nothing. -/
theorem C26_translation {n m d : ℕ} {name : String} (hn : name ∈ baseNames) {h : HypDict}
    {σ s : ℝ} {l : Fin d → ℝ} (hd : Describes h σ s l) (X : Fin n → Point d)
    (Xp : Fin m → Point d) (t : Point d) (same : Bool) (jit : ℝ) (hs : same = true → n = m) :
    covMain name (.vec fun i k => X i k + t k) (.vec fun j k => Xp j k + t k) h same jit =
      covMain name (.vec X) (.vec Xp) h same jit := by
  rw [covMain_base hn hd _ _ same hs, covMain_base hn hd _ _ same hs]
  simp [kernel, scaledDistance]

/-- C26: rescaling every input and its lengthscale by the same non-zero factor per dimension
changes nothing. -/
theorem C26_rescale {n m d : ℕ} {name : String} (hn : name ∈ baseNames) {h h' : HypDict}
    {σ s : ℝ} {l : Fin d → ℝ} (c : Fin d → ℝ) (hc : ∀ k, c k ≠ 0) (hd : Describes h σ s l)
    (hd' : Describes h' σ s fun k => c k * l k) (X : Fin n → Point d)
    (Xp : Fin m → Point d) (same : Bool) (jit : ℝ) (hs : same = true → n = m) :
    covMain name (.vec fun i k => c k * X i k) (.vec fun j k => c k * Xp j k) h' same jit =
      covMain name (.vec X) (.vec Xp) h same jit := by
  rw [covMain_base hn hd _ _ same hs, covMain_base hn hd' _ _ same hs]
  simp only [kernel, scaledDistance]
  have : ∀ i j k, (c k * X i k - c k * Xp j k) / (c k * l k) = (X i k - Xp j k) / l k := by
    intro i j k
    rw [← mul_sub, mul_div_mul_left _ _ (hc k)]
  simp only [this]

/-- C26: one lengthscale for all dimensions and the array repeating it give the same
covariances. -/
theorem C26_isotropic {n m d : ℕ} {name : String} (hn : name ∈ baseNames) (σ s a : ℝ) (ha : a ≠ 0)
    (dof : Option HVal) (X : Fin n → Point d) (Xp : Fin m → Point d) (same : Bool) (jit : ℝ)
    (hs : same = true → n = m) :
    covMain name (.vec X) (.vec Xp) ⟨some (.flt (.fin σ)), dof, some (.flt (.fin s)),
        some (.flt (.fin a))⟩ same jit =
      covMain name (.vec X) (.vec Xp) ⟨some (.flt (.fin σ)), dof, some (.flt (.fin s)),
        some (.arr (List.replicate d (.fin a)))⟩ same jit := by
  rw [covMain_base (l := fun _ => a) hn ⟨rfl, rfl, .inr ⟨a, ha, fun _ => rfl, rfl⟩, fun _ => ha⟩
      _ _ same hs,
    covMain_base (l := fun _ => a) hn ⟨rfl, rfl, .inl (by simp [List.ofFn_const]), fun _ => ha⟩
      _ _ same hs]

/-- C26: multiplying the signal by `c` multiplies every covariance by `c^2`. -/
theorem C26_signal {n m d : ℕ} {name : String} (hn : name ∈ baseNames) {h h' : HypDict}
    {σ s c : ℝ} {l : Fin d → ℝ} (hd : Describes h σ s l) (hd' : Describes h' σ (c * s) l)
    (X : Fin n → Point d) (Xp : Fin m → Point d) (jit : ℝ) :
    ∃ K K', covMain name (.vec X) (.vec Xp) h false jit = .ok K ∧
      covMain name (.vec X) (.vec Xp) h' false jit = .ok K' ∧ ∀ i j, K' i j = c ^ 2 * K i j := by
  refine ⟨_, _, covMain_base hn hd X Xp false (by simp) jit,
    covMain_base hn hd' X Xp false (by simp) jit, fun i j => ?_⟩
  simp only [kernel, Bool.false_eq_true, false_and, if_false]; ring

/-- C26: selecting or reordering rows of the inputs selects or reorders rows and columns of
the matrix. -/
theorem C26_reindex {n m n' m' d : ℕ} {name : String} (hn : name ∈ baseNames) {h : HypDict}
    {σ s : ℝ} {l : Fin d → ℝ} (hd : Describes h σ s l) (X : Fin n → Point d)
    (Xp : Fin m → Point d) (π : Fin n' → Fin n) (τ : Fin m' → Fin m) (jit : ℝ) :
    ∃ K K', covMain name (.vec X) (.vec Xp) h false jit = .ok K ∧
      covMain name (.vec (X ∘ π)) (.vec (Xp ∘ τ)) h false jit = .ok K' ∧
      ∀ i j, K' i j = K (π i) (τ j) := by
  refine ⟨_, _, covMain_base hn hd X Xp false (by simp) jit,
    covMain_base hn hd _ _ false (by simp) jit, fun i j => ?_⟩
  simp

/-- C26: permuting the inputs of a covariance matrix with jitter permutes it. -/
theorem C26_permute {n d : ℕ} {name : String} (hn : name ∈ baseNames) {h : HypDict}
    {σ s : ℝ} {l : Fin d → ℝ} (hd : Describes h σ s l) (X : Fin n → Point d)
    (π : Equiv.Perm (Fin n)) (jit : ℝ) :
    ∃ K K', covMain name (.vec X) (.vec X) h true jit = .ok K ∧
      covMain name (.vec (X ∘ π)) (.vec (X ∘ π)) h true jit = .ok K' ∧
      ∀ i j, K' i j = K (π i) (π j) := by
  refine ⟨_, _, covMain_base hn hd X X true (fun _ => rfl) jit,
    covMain_base hn hd _ _ true (fun _ => rfl) jit, fun i j => ?_⟩
  have : i.val = j.val ↔ (π i).val = (π j).val := by
    rw [← Fin.ext_iff, ← Fin.ext_iff, π.apply_eq_iff_eq]
  simp [this]

/-- C26: 'eq' and 'se' name the same covariance function. -/
theorem C26_eq_se {n m d : ℕ} (h : HypDict) (X : Fin n → Point d) (Xp : Fin m → Point d)
    (same : Bool) (jit : ℝ) :
    covMain "eq" (.vec X) (.vec Xp) h same jit = covMain "se" (.vec X) (.vec Xp) h same jit := by
  simp [covMain, ALLOWED_COV, ALLOWED_COV_BASE, chooseFunCov, validateHypsDict]

example : Describes exDict 1 3 ![1, 2] ∧
    Describes { exDict with lengthscales := some (.arr [.fin 2, .fin 6]) } 1 3
      (fun k => (![2, 3] : Fin 2 → ℝ) k * (![1, 2] : Fin 2 → ℝ) k) ∧
    ∀ k, (![2, 3] : Fin 2 → ℝ) k ≠ 0 := by
  refine ⟨exDict_describes, ⟨rfl, rfl, .inl ?_, ?_⟩, ?_⟩
  · simp [List.ofFn_succ]; norm_num
  · intro k; fin_cases k <;> norm_num
  · intro k; fin_cases k <;> norm_num

/-- C27: a larger scaled distance never gives a larger covariance, and gives a smaller one if
the distance is strictly larger and the signal is not zero. -/
theorem C27_decreasing {n m n' m' d : ℕ} {name : String} (hn : name ∈ baseNames) {h : HypDict}
    {σ s : ℝ} {l : Fin d → ℝ} (hd : Describes h σ s l) (X : Fin n → Point d)
    (Xp : Fin m → Point d) (Y : Fin n' → Point d) (Yp : Fin m' → Point d) (jit : ℝ) :
    ∃ K K', covMain name (.vec X) (.vec Xp) h false jit = .ok K ∧
      covMain name (.vec Y) (.vec Yp) h false jit = .ok K' ∧
      ∀ i j i' j',
        (scaledDistance l (X i) (Xp j) ≤ scaledDistance l (Y i') (Yp j') →
          K' i' j' ≤ K i j) ∧
        (s ≠ 0 → scaledDistance l (X i) (Xp j) < scaledDistance l (Y i') (Yp j') →
          K' i' j' < K i j) := by
  refine ⟨_, _, covMain_base hn hd X Xp false (by simp) jit,
    covMain_base hn hd Y Yp false (by simp) jit, fun i j i' j' => ⟨fun hle => ?_, fun hs hlt => ?_⟩⟩
  · simp only [Bool.false_eq_true, false_and, if_false, zero_add, kernel]
    exact mul_le_mul_of_nonneg_left ((profile_strictAnti name).antitoneOn
      (scaledDistance_nonneg _ _ _) (scaledDistance_nonneg _ _ _) hle) (sq_nonneg s)
  · simp only [Bool.false_eq_true, false_and, if_false, zero_add, kernel]
    exact mul_lt_mul_of_pos_left (profile_strictAnti name
      (scaledDistance_nonneg _ _ _) (scaledDistance_nonneg _ _ _) hlt) (by positivity)

example : scaledDistance ![1, 2] ![0, 0] ![1, 0] < scaledDistance ![1, 2] ![0, 0] ![2, 2] := by
  simp only [scaledDistance, Fin.sum_univ_two]
  refine Real.sqrt_lt_sqrt (by positivity) ?_
  norm_num

/-- C27: covariances vanish as the scaled distance grows. -/
theorem C27_vanishes {d : ℕ} {name : String} (hn : name ∈ baseNames) {h : HypDict}
    {σ s : ℝ} {l : Fin d → ℝ} (hd : Describes h σ s l) (ε : ℝ) (hε : 0 < ε) :
    ∃ R, ∀ (n m : ℕ) (X : Fin n → Point d) (Xp : Fin m → Point d),
      ∃ K, covMain name (.vec X) (.vec Xp) h false = .ok K ∧
        ∀ i j, R ≤ scaledDistance l (X i) (Xp j) → |K i j| < ε := by
  have ht : Filter.Tendsto (fun r => s ^ 2 * profile name r) Filter.atTop (nhds 0) := by
    have := (profile_top name).const_mul (s ^ 2)
    simpa using this
  obtain ⟨R, hR⟩ := (Metric.tendsto_atTop.mp ht) ε hε
  refine ⟨R, fun n m X Xp => ⟨_, covMain_base hn hd X Xp false (by simp) _, fun i j hij => ?_⟩⟩
  have := hR _ hij
  simpa [kernel, Real.dist_eq] using this

/-- C28: a set covariance is the average of the base covariance over all pairs of elements. -/
theorem C28_average {n m d p q : ℕ} {name : String} (hn : name ∈ baseNames) {h : HypDict}
    {σ s : ℝ} {l : Fin d → ℝ} (hd : Describes h σ s l) (X : Fin n → Fin p → Point d)
    (Xp : Fin m → Fin q → Point d) (hp : p ≠ 0) (hq : q ≠ 0) (jit : ℝ) :
    ∃ K, covMain ("set_" ++ name) (.set p X) (.set q Xp) h false jit = .ok K ∧
      ∀ i j, ∃ B, covMain name (.vec (X i)) (.vec (Xp j)) h false jit = .ok B ∧
        K i j = (∑ a, ∑ b, B a b) / (p * q) := by
  refine ⟨_, covMain_set hn hd X Xp hp hq jit, fun i j =>
    ⟨_, covMain_base hn hd (X i) (Xp j) false (by simp) jit, ?_⟩⟩
  simp [setKernel]

/-- C28: on the same inputs the matrix is the average plus jitter on the diagonal: symmetric,
with values in `(0, signal^2]` off the diagonal, and with non-negative quadratic forms. -/
theorem C28_same {n d p : ℕ} {name : String} (hn : name ∈ baseNames) {h : HypDict}
    {σ s : ℝ} {l : Fin d → ℝ} (hd : Describes h σ s l) (X : Fin n → Fin p → Point d)
    (hp : p ≠ 0) (jit : ℝ) :
    ∃ K, covMain ("set_" ++ name) (.set p X) (.set p X) h true jit = .ok K ∧
      (∀ i j, ∃ B, covMain name (.vec (X i)) (.vec (X j)) h false jit = .ok B ∧
        K i j = (if i = j then jit else 0) + (∑ a, ∑ b, B a b) / (p * p)) ∧
      (∀ i j, K i j = K j i) ∧
      (∀ i j, i ≠ j → 0 ≤ K i j ∧ K i j ≤ s ^ 2 ∧ (s ≠ 0 → 0 < K i j)) ∧
      (∀ i, K i i ≤ s ^ 2 + jit) ∧ (0 ≤ jit → QuadNonneg K) ∧ (0 < jit → QuadPos K) := by
  have key : ∀ c : Fin n → ℝ, ∑ i, ∑ j, c i *
      ((if i = j then jit else 0) + setKernel name s l (X i) (X j)) * c j =
      jit * ∑ i, c i ^ 2 + ∑ i, ∑ j, c i * setKernel name s l (X i) (X j) * c j := by
    intro c
    rw [Finset.mul_sum, ← Finset.sum_add_distrib]
    refine Finset.sum_congr rfl fun i _ => ?_
    simp only [mul_add, add_mul, Finset.sum_add_distrib]
    congr 1
    rw [Finset.sum_eq_single i]
    · simp; ring
    · intro j _ hj
      simp [hj.symm]
    · simp
  have hq : ∀ c : Fin n → ℝ, 0 ≤ ∑ i, ∑ j, c i * setKernel name s l (X i) (X j) * c j :=
    fun c => setKernel_quad name s l (fun _ => p) X c
  refine ⟨_, covMain_set_same hn hd X hp jit, ?_, ?_, ?_, ?_, ?_, ?_⟩
  · intro i j
    refine ⟨_, covMain_base hn hd (X i) (X j) false (by simp) jit, ?_⟩
    simp [setKernel]
  · intro i j
    simp only [setKernel_symm name s l (X i), eq_comm (a := i)]
  · intro i j hij
    simp only [hij, if_false, zero_add]
    exact ⟨setKernel_nonneg _ _ _ _ _, setKernel_le _ _ _ _ _,
      fun hs => setKernel_pos _ hs _ hp hp _ _⟩
  · intro i
    have := setKernel_le name s l (X i) (X i)
    simp only [if_true]
    linarith
  · intro hj c
    rw [key c]
    exact add_nonneg (mul_nonneg hj (Finset.sum_nonneg fun i _ => sq_nonneg _)) (hq c)
  · intro hj c hc
    rw [key c]
    obtain ⟨i, hi⟩ := Function.ne_iff.mp hc
    refine add_pos_of_pos_of_nonneg (mul_pos hj ?_) (hq c)
    have hi2 : 0 < c i ^ 2 := by
      have : c i ≠ 0 := hi
      positivity
    exact hi2.trans_le (Finset.single_le_sum (f := fun i => c i ^ 2) (fun i _ => sq_nonneg _)
      (Finset.mem_univ i))

/-- C28: the order of the elements of each set does not matter. -/
theorem C28_element_order {n m d p q : ℕ} {name : String} (hn : name ∈ baseNames) {h : HypDict}
    {σ s : ℝ} {l : Fin d → ℝ} (hd : Describes h σ s l) (X : Fin n → Fin p → Point d)
    (Xp : Fin m → Fin q → Point d) (hp : p ≠ 0) (hq : q ≠ 0)
    (π : Fin n → Equiv.Perm (Fin p)) (τ : Fin m → Equiv.Perm (Fin q)) (jit : ℝ) :
    covMain ("set_" ++ name) (.set p fun i => X i ∘ π i) (.set q fun j => Xp j ∘ τ j) h false jit =
      covMain ("set_" ++ name) (.set p X) (.set q Xp) h false jit := by
  rw [covMain_set hn hd _ _ hp hq, covMain_set hn hd _ _ hp hq]
  congr 1
  ext i j
  simp only [setKernel, Function.comp_apply]
  congr 1
  rw [← Equiv.sum_comp (π i) fun a => ∑ b, kernel name s l (X i a) (Xp j b)]
  refine Finset.sum_congr rfl fun a _ => ?_
  rw [← Equiv.sum_comp (τ j) fun b => kernel name s l (X i ((π i) a)) (Xp j b)]

/-- C28: on sets with one element the set covariance is the base covariance. -/
theorem C28_singletons {n m d : ℕ} {name : String} (hn : name ∈ baseNames) {h : HypDict}
    {σ s : ℝ} {l : Fin d → ℝ} (hd : Describes h σ s l) (X : Fin n → Point d)
    (Xp : Fin m → Point d) (jit : ℝ) :
    covMain ("set_" ++ name) (.set 1 fun i _ => X i) (.set 1 fun j _ => Xp j) h false jit =
      covMain name (.vec X) (.vec Xp) h false jit ∧
    covMain ("set_" ++ name) (.set 1 fun i _ => X i) (.set 1 fun j _ => X j) h true jit =
      covMain name (.vec X) (.vec X) h true jit := by
  rw [covMain_set hn hd _ _ one_ne_zero one_ne_zero, covMain_base hn hd _ _ false (by simp),
    covMain_set_same hn hd _ one_ne_zero, covMain_base hn hd _ _ true (fun _ => rfl)]
  constructor
  · congr 1
    ext i j
    simp [setKernel_singleton]
  · congr 1
    ext i j
    simp [setKernel_singleton, Fin.ext_iff]

example : ∃ K, covMain "set_se" (.set 2 ![![![0, 0], ![1, 1]], ![![2, 0], ![1, 3]]])
    (.set 2 ![![![0, 0], ![1, 1]], ![![2, 0], ![1, 3]]]) exDict true = .ok K ∧ QuadPos K := by
  obtain ⟨K, hK, -, -, -, -, -, h⟩ := C28_same (name := "se") (by simp [baseNames])
    exDict_describes ![![![0, 0], ![1, 1]], ![![2, 0], ![1, 3]]] two_ne_zero JITTER_COV
  exact ⟨K, hK, h (by norm_num [JITTER_COV])⟩

end Verif.Props
