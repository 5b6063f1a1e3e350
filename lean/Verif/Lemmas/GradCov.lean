import Verif.Lemmas.Kernel

/-! The gradient arrays of `grad_cov_*` in closed form, and derivatives of the kernels. -/

namespace Verif.Lemmas

open Verif.Spec Verif.Covariance Verif.UtilsCovariance Verif.Constants

theorem addSlice_ok {n m : ℕ} (g : List (Matrix (Fin n) (Fin m) ℝ)) (k : ℕ)
    (A : Matrix (Fin n) (Fin m) ℝ) (h : k < g.length) :
    addSlice g k A = .ok (g.set k (g[k] + A)) := by
  simp [addSlice, List.getElem?_eq_getElem h]

theorem addSlice_fold {n m d : ℕ} (f : Fin d → Matrix (Fin n) (Fin m) ℝ) (off : ℕ)
    (ks : List (Fin d)) (hk : ks.Nodup) (g : List (Matrix (Fin n) (Fin m) ℝ))
    (hg : off + d ≤ g.length) :
    ∃ g', ks.foldlM (fun g k => addSlice g (off + k.val) (f k)) g = .ok g' ∧
      g'.length = g.length ∧
      (∀ k ∈ ks, g'[off + k.val]? = (g[off + k.val]?).map (· + f k)) ∧
      ∀ i : ℕ, (∀ k ∈ ks, i ≠ off + k.val) → g'[i]? = g[i]? := by
  induction ks generalizing g with
  | nil => exact ⟨g, rfl, rfl, by simp, by simp⟩
  | cons k t ih =>
    obtain ⟨hkt, ht⟩ := List.nodup_cons.mp hk
    have hlt : off + k.val < g.length := by have := k.isLt; omega
    obtain ⟨g', h1, h2, h3, h4⟩ := ih ht (g.set (off + k.val) (g[off + k.val] + f k))
      (by simpa using hg)
    refine ⟨g', ?_, by simpa using h2, ?_, ?_⟩
    · rw [List.foldlM_cons, addSlice_ok _ _ _ hlt]
      exact h1
    · intro k' hk'
      rcases List.mem_cons.mp hk' with rfl | hk'
      · rw [h4 _ (fun k'' hk'' he => hkt (by
          have : k''= k' := Fin.ext (by omega)
          rw [← this]; exact hk''))]
        simp [hlt]
      · rw [h3 k' hk']
        have hne : off + k.val ≠ off + k'.val := by
          intro he
          have : k = k' := Fin.ext (by omega)
          exact hkt (this ▸ hk')
        rw [List.getElem?_set_ne hne]
    · intro i hi
      rw [h4 i fun k' hk' => hi k' (by simp [hk'])]
      rw [List.getElem?_set_ne (fun he => hi k (by simp) he.symm)]

/-- The factor of the lengthscale derivatives: `-φ'(r) / r`. -/
noncomputable def preProfile (name : String) (r : ℝ) : ℝ :=
  if name = "matern32" then 3 * Real.exp (-(√3 * r))
  else if name = "matern52" then 5 / 3 * (1 + √5 * r) * Real.exp (-(√5 * r))
  else Real.exp (-(r ^ 2 / 2))

theorem profile_deriv (name : String) (r : ℝ) :
    HasDerivAt (profile name) (-(r * preProfile name r)) r := by
  unfold profile preProfile
  split_ifs
  · exact (m32Profile_deriv r).congr_deriv (by ring)
  · exact (m52Profile_deriv r).congr_deriv (by ring)
  · exact (seProfile_deriv r).congr_deriv (by ring)

/-- Derivative of the profile of a distance whose lengthscales move with `t`. -/
theorem profile_dist_deriv {d : ℕ} (name : String) (L : ℝ → Fin d → ℝ) (x y : Point d)
    (t D : ℝ) (hnz : ∀ k, L t k ≠ 0)
    (hq : HasDerivAt (fun t => ∑ k, ((x k - y k) / L t k) ^ 2) (-2 * D) t)
    (hz : x = y → D = 0) :
    HasDerivAt (fun t => profile name (scaledDistance (L t) x y))
      (preProfile name (scaledDistance (L t) x y) * D) t := by
  by_cases hxy : x = y
  · rw [hz hxy, mul_zero]
    subst hxy
    simp only [scaledDistance_self]
    exact hasDerivAt_const _ _
  · have hpos : 0 < ∑ k, ((x k - y k) / L t k) ^ 2 := by
      obtain ⟨k, hk⟩ := Function.ne_iff.mp hxy
      refine Finset.sum_pos' (fun k _ => sq_nonneg _) ⟨k, Finset.mem_univ k, ?_⟩
      have : (x k - y k) / L t k ≠ 0 := div_ne_zero (sub_ne_zero.mpr hk) (hnz k)
      positivity
    have hr : 0 < scaledDistance (L t) x y := Real.sqrt_pos.mpr hpos
    have h1 : HasDerivAt (fun t => scaledDistance (L t) x y)
        (-2 * D / (2 * √(∑ k, ((x k - y k) / L t k) ^ 2))) t := hq.sqrt hpos.ne'
    have h2 := (profile_deriv name (scaledDistance (L t) x y)).comp t h1
    refine h2.congr_deriv ?_
    have e : √(∑ k, ((x k - y k) / L t k) ^ 2) = scaledDistance (L t) x y := rfl
    rw [e]
    field_simp

/-- Derivative with respect to one lengthscale. -/
theorem kernel_deriv_ard {d : ℕ} (name : String) (s : ℝ) (l : Fin d → ℝ) (hl : ∀ k, l k ≠ 0)
    (x y : Point d) (k : Fin d) :
    HasDerivAt (fun t => kernel name s (Function.update l k t) x y)
      (s ^ 2 * (preProfile name (scaledDistance l x y) * ((x k - y k) ^ 2 / l k ^ 3))) (l k) := by
  have hu : Function.update l k (l k) = l := Function.update_eq_self k l
  have hq : HasDerivAt (fun t => ∑ j, ((x j - y j) / Function.update l k t j) ^ 2)
      (-2 * ((x k - y k) ^ 2 / l k ^ 3)) (l k) := by
    have h1 : HasDerivAt (fun t => ∑ j, ((x j - y j) / Function.update l k t j) ^ 2)
        (∑ j, if j = k then -2 * ((x k - y k) ^ 2 / l k ^ 3) else 0) (l k) := by
      refine HasDerivAt.fun_sum fun j _ => ?_
      by_cases hj : j = k
      · subst hj
        simp only [Function.update_self, if_true]
        have hi := ((hasDerivAt_inv (hl j)).const_mul (x j - y j)).pow 2
        refine hi.congr_deriv ?_
        have := hl j
        simp only [Nat.cast_ofNat, Nat.add_one_sub_one, pow_one]
        field_simp
      · simp only [Function.update_of_ne hj, hj, if_false]
        exact hasDerivAt_const _ _
    simpa using h1
  have h := profile_dist_deriv name (fun t => Function.update l k t) x y (l k)
    ((x k - y k) ^ 2 / l k ^ 3) (by simpa [hu] using hl) hq (by rintro rfl; simp)
  simp only [hu] at h
  exact h.const_mul (s ^ 2)

/-- Derivative with respect to a common lengthscale. -/
theorem kernel_deriv_iso {d : ℕ} (name : String) (s a : ℝ) (ha : a ≠ 0) (x y : Point d) :
    HasDerivAt (fun t => kernel name s (fun _ => t) x y)
      (s ^ 2 * (preProfile name (scaledDistance (fun _ => a) x y) *
        (scaledDistance (fun _ => a) x y ^ 2 / a))) a := by
  have hsq : scaledDistance (fun _ : Fin d => a) x y ^ 2 = ∑ k, ((x k - y k) / a) ^ 2 :=
    Real.sq_sqrt (Finset.sum_nonneg fun k _ => sq_nonneg _)
  have hq : HasDerivAt (fun t => ∑ j, ((x j - y j) / t) ^ 2)
      (-2 * (scaledDistance (fun _ : Fin d => a) x y ^ 2 / a)) a := by
    have h1 : HasDerivAt (fun t => ∑ j, ((x j - y j) / t) ^ 2)
        (∑ j, -2 * (((x j - y j) / a) ^ 2 / a)) a := by
      refine HasDerivAt.fun_sum fun j _ => ?_
      have hi := ((hasDerivAt_inv ha).const_mul (x j - y j)).pow 2
      refine hi.congr_deriv ?_
      simp only [Nat.cast_ofNat, Nat.add_one_sub_one, pow_one]
      field_simp
    rw [hsq, Finset.sum_div, Finset.mul_sum]
    exact h1
  have h := profile_dist_deriv name (fun t _ => t) x y a _ (fun _ => ha) hq
    (by rintro rfl; simp [scaledDistance_self])
  exact h.const_mul (s ^ 2)

theorem kernel_deriv_signal {d : ℕ} (name : String) (s : ℝ) (hs : s ≠ 0) (l : Fin d → ℝ)
    (x y : Point d) :
    HasDerivAt (fun t => kernel name t l x y) (2 * kernel name s l x y / s) s := by
  have := (hasDerivAt_pow 2 s).mul_const (profile name (scaledDistance l x y))
  refine this.congr_deriv ?_
  simp only [kernel, Nat.cast_ofNat, Nat.add_one_sub_one, pow_one]
  field_simp

theorem addSlice_fill {n m d : ℕ} (f : Fin d → Matrix (Fin n) (Fin m) ℝ)
    (P : List (Matrix (Fin n) (Fin m) ℝ)) :
    (List.finRange d).foldlM (fun g k => addSlice g (P.length + k.val) (f k))
      (P ++ List.replicate d 0) = .ok (P ++ List.ofFn f) := by
  obtain ⟨g', h1, h2, h3, h4⟩ := addSlice_fold f P.length (List.finRange d)
    (List.nodup_finRange d) (P ++ List.replicate d 0) (by simp)
  rw [h1]
  congr 1
  refine List.ext_getElem? fun i => ?_
  by_cases hi : i < P.length
  · rw [h4 i (fun k _ => by omega), List.getElem?_append_left hi, List.getElem?_append_left hi]
  · by_cases hi2 : i < P.length + d
    · have e : i = P.length + (i - P.length) := by omega
      have := h3 ⟨i - P.length, by omega⟩ (by simp)
      rw [← e] at this
      rw [this, List.getElem?_append_right (by omega), List.getElem?_append_right (by omega)]
      simp [show i - P.length < d by omega]
    · rw [List.getElem?_eq_none (by simp [h2]; omega), List.getElem?_eq_none (by simp; omega)]

/-- The slices of `grad_cov_main` before the lengthscales. -/
noncomputable def gradHead {n d : ℕ} (base : String) (σ s : ℝ) (l : Fin d → ℝ)
    (X : Fin n → Point d) (fix : Bool) : List (Matrix (Fin n) (Fin n) ℝ) :=
  (if fix then [] else [(2 * σ) • (1 : Matrix (Fin n) (Fin n) ℝ)]) ++
    [Matrix.of fun i j => 2 * (kernel base s l (X i) (X j) +
      if i = j then 1 / 100000 else 0) / s]

theorem npEye_one (n : ℕ) : npEye n n = (1 : Matrix (Fin n) (Fin n) ℝ) := by
  ext i j
  simp [npEye, Matrix.one_apply, Fin.ext_iff]

theorem termPre_ok {name : String} (h : name ∈ baseNames) {c : CovName}
    (hc : chooseFunCov name = .ok c) {n d : ℕ} (K : Matrix (Fin n) (Fin n) ℝ)
    (X : Fin n → Point d) (L : Lengthscales d) (l : Fin d → ℝ) (hL : Stands L l) (s : ℝ)
    (i j : Fin n) (D : ℝ) (hK : K i j = kernel name s l (X i) (X j) +
      if i = j then 1 / 100000 else 0) (hD : i = j → D = 0) :
    c.termPre K X X L s i j * D =
      s ^ 2 * (preProfile name (scaledDistance l (X i) (X j)) * D) := by
  by_cases hij : i = j
  · rw [hD hij]; ring
  simp only [hij, if_false, add_zero] at hK
  simp only [baseNames, List.mem_cons, List.not_mem_nil, or_false] at h
  rcases h with rfl | rfl | rfl | rfl <;> simp [chooseFunCov] at hc <;> subst hc <;>
    simp only [CovName.termPre, hL.dist, hK, preProfile, kernel, profile, seProfile,
      String.reduceEq, if_true, if_false, neg_mul] <;> ring

theorem gradCovMain_ard {n d : ℕ} {name : String} (hn : name ∈ baseNames) {h : HypDict}
    {σ s : ℝ} {l : Fin d → ℝ} (hd : Describes h σ s l) (hs : s ≠ 0)
    (hl : h.lengthscales = some (.arr (List.ofFn fun k => .fin (l k))))
    (X : Fin n → Point d) (fix : Bool) :
    gradCovMain name (.vec X) (.vec X) h fix = .ok (gradHead name σ s l X fix ++
      List.ofFn fun k => Matrix.of fun i j => s ^ 2 * (preProfile name
        (scaledDistance l (X i) (X j)) * ((X i k - X j k) ^ 2 / l k ^ 3))) := by
  obtain ⟨L, hL, hst, hA, -⟩ := lengthscalesKey_ok hd
  obtain rfl := hA hl
  obtain ⟨c, hc, -⟩ := chooseFunCov_ok hn
  have hcov := covMain_same (X := .vec X) ⟨hn, .inl ⟨rfl, X, rfl⟩⟩ hd JITTER_COV
  have hno : numKey h.noise = .ok σ := by rw [hd.noise]; exact numKey_fin σ
  have hsi : numKey h.signal = .ok s := by rw [hd.signal]; exact numKey_fin s
  have hK : ∀ i j, (gram name s l (.vec X) (.vec X) +
      JITTER_COV • (1 : Matrix (Fin n) (Fin n) ℝ)) i j = kernel name s l (X i) (X j) +
      if i = j then 1 / 100000 else 0 := by
    intro i j
    simp only [gram, Matrix.add_apply, Matrix.of_apply, itemKernel_vec, Matrix.smul_apply,
      Matrix.one_apply, JITTER_COV]
    split_ifs <;> norm_num
  generalize gram name s l (.vec X) (.vec X) + JITTER_COV • (1 : Matrix (Fin n) (Fin n) ℝ) = K
    at hcov hK
  have hfill := addSlice_fill (fun k => Matrix.of fun i j => s ^ 2 * (preProfile name
        (scaledDistance l (X i) (X j)) * ((X i k - X j k) ^ 2 / l k ^ 3)))
        (gradHead name σ s l X fix)
  have hf : (fun (g : List (Matrix (Fin n) (Fin n) ℝ)) (k : Fin d) =>
      addSlice g ((if fix then 0 else 1) + k.val + 1)
      (Matrix.of fun i j => c.termPre K X X (.ard l) s i j * coordDist X X k i j ^ 2 * (l k ^ 3)⁻¹)) =
      fun g k => addSlice g ((gradHead name σ s l X fix).length + k.val)
        (Matrix.of fun i j => s ^ 2 * (preProfile name
        (scaledDistance l (X i) (X j)) * ((X i k - X j k) ^ 2 / l k ^ 3))) := by
    funext g k
    congr 1
    · cases fix <;> simp [gradHead] <;> omega
    · ext i j
      have := termPre_ok hn hc K X _ l hst s i j ((X i k - X j k) ^ 2 / l k ^ 3) (hK i j)
        (by rintro rfl; simp)
      rw [Matrix.of_apply, Matrix.of_apply, ← this]
      have e : coordDist X X k i j ^ 2 = (X i k - X j k) ^ 2 := by
        simp [coordDist, norm2, Real.sq_sqrt (sq_nonneg _)]
      rw [e]
      ring
  simp only [gradCovMain, gradCov, base_allowed' hn, hl, getKey, hcov, hc, hL, hno, hsi, hs,
    pyAssert, bind, Except.bind, pure, Except.pure, if_true, if_false]
  rw [hl] at hL
  simp only [hL]
  have hsig : (Matrix.of fun i j => 2 * K i j / s) =
      Matrix.of fun i j => 2 * (kernel name s l (X i) (X j) +
        if i = j then 1 / 100000 else 0) / s := by
    ext i j; simp only [hK, Matrix.of_apply]
  cases fix
  · simp only [Bool.false_eq_true, if_false, Bool.not_false, if_true, List.replicate_succ] at hf ⊢
    rw [addSlice_ok _ _ _ (by simp)]
    simp only [List.set_cons_zero, List.getElem_cons_zero, zero_add]
    rw [addSlice_ok _ _ _ (by simp)]
    simp only [List.set_cons_succ, List.set_cons_zero, List.getElem_cons_succ,
      List.getElem_cons_zero, zero_add, hsig, npEye_one]
    rw [hf]
    exact hfill
  · simp only [if_true, Bool.not_true, Bool.false_eq_true, if_false, List.replicate_succ] at hf ⊢
    rw [addSlice_ok _ _ _ (by simp)]
    simp only [List.set_cons_zero, List.getElem_cons_zero, zero_add, hsig]
    simp only [zero_add] at hf
    rw [hf]
    exact hfill

theorem gradCovMain_iso {n d : ℕ} {name : String} (hn : name ∈ baseNames) {h : HypDict}
    {σ s a : ℝ} (hd : Describes h σ s (fun _ : Fin d => a)) (hs : s ≠ 0)
    (hl : h.lengthscales = some (.flt (.fin a)))
    (X : Fin n → Point d) (fix : Bool) :
    gradCovMain name (.vec X) (.vec X) h fix = .ok (gradHead name σ s (fun _ => a) X fix ++
      [Matrix.of fun i j => s ^ 2 * (preProfile name
        (scaledDistance (fun _ => a) (X i) (X j)) *
          (scaledDistance (fun _ => a) (X i) (X j) ^ 2 / a))]) := by
  obtain ⟨L, hL, hst, -, hI⟩ := lengthscalesKey_ok hd
  obtain rfl := hI a hl
  obtain ⟨c, hc, -⟩ := chooseFunCov_ok hn
  have hcov := covMain_same (X := .vec X) ⟨hn, .inl ⟨rfl, X, rfl⟩⟩ hd JITTER_COV
  have hno : numKey h.noise = .ok σ := by rw [hd.noise]; exact numKey_fin σ
  have hsi : numKey h.signal = .ok s := by rw [hd.signal]; exact numKey_fin s
  have hK : ∀ i j, (gram name s (fun _ => a) (.vec X) (.vec X) +
      JITTER_COV • (1 : Matrix (Fin n) (Fin n) ℝ)) i j = kernel name s (fun _ => a) (X i) (X j) +
      if i = j then 1 / 100000 else 0 := by
    intro i j
    simp only [gram, Matrix.add_apply, Matrix.of_apply, itemKernel_vec, Matrix.smul_apply,
      Matrix.one_apply, JITTER_COV]
    split_ifs <;> norm_num
  generalize gram name s (fun _ => a) (.vec X) (.vec X) +
    JITTER_COV • (1 : Matrix (Fin n) (Fin n) ℝ) = K at hcov hK
  have hlast : (Matrix.of fun i j =>
      c.termPre K X X (.iso a) s i j * scaledDist X X (.iso a) i j ^ 2 * a⁻¹) = Matrix.of fun i j => s ^ 2 * (preProfile name
        (scaledDistance (fun _ => a) (X i) (X j)) *
          (scaledDistance (fun _ => a) (X i) (X j) ^ 2 / a)) := by
    ext i j
    have := termPre_ok hn hc K X _ _ hst s i j
      (scaledDistance (fun _ => a) (X i) (X j) ^ 2 / a) (hK i j)
      (by rintro rfl; simp [scaledDistance_self])
    rw [Matrix.of_apply, Matrix.of_apply, ← this, hst.dist]
    simp [div_eq_mul_inv, mul_assoc]
  simp only [gradCovMain, gradCov, base_allowed' hn, hl, getKey, hcov, hc, hno, hsi, hs,
    pyAssert, bind, Except.bind, pure, Except.pure, if_true, if_false]
  rw [hl] at hL
  simp only [hL]
  have hsig : (Matrix.of fun i j => 2 * K i j / s) =
      Matrix.of fun i j => 2 * (kernel name s (fun _ => a) (X i) (X j) +
        if i = j then 1 / 100000 else 0) / s := by
    ext i j; simp only [hK, Matrix.of_apply]
  cases fix
  · simp only [Bool.false_eq_true, if_false, Bool.not_false, if_true, List.replicate_succ,
      List.replicate_zero]
    rw [addSlice_ok _ _ _ (by simp)]
    simp only [List.set_cons_zero, List.getElem_cons_zero, zero_add]
    rw [addSlice_ok _ _ _ (by simp)]
    simp only [List.set_cons_succ, List.set_cons_zero, List.getElem_cons_succ,
      List.getElem_cons_zero, zero_add, hsig, npEye_one]
    rw [addSlice_ok _ _ _ (by simp)]
    simp [gradHead, hlast]
  · simp only [if_true, Bool.not_true, Bool.false_eq_true, if_false, List.replicate_succ,
      List.replicate_zero]
    rw [addSlice_ok _ _ _ (by simp)]
    simp only [List.set_cons_zero, List.getElem_cons_zero, zero_add, hsig]
    rw [addSlice_ok _ _ _ (by simp)]
    simp [gradHead, hlast]

end Verif.Lemmas
