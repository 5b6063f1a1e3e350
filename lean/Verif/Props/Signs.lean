import Verif.Props.HypSearch

/-! C134: signs of hyperparameters. -/

namespace Verif.Props

open Verif.Spec Verif.Covariance Verif.UtilsCovariance Verif.Constants Verif.Lemmas Verif.Gp

variable {n m d : ℕ}

/-- Two dictionaries with the same numbers up to sign. The lengthscales may be one float in one
dictionary and an array in the other. -/
def SameUpToSign (d : ℕ) (h h' : HypDict) : Prop :=
  ∃ (σ s σ' s' : ℝ) (l l' : Fin d → ℝ), Describes h σ s l ∧ Describes h' σ' s' l' ∧
    |σ| = |σ'| ∧ |s| = |s'| ∧ ∀ k, |l k| = |l' k|

theorem kernel_signs (base : String) {s s' : ℝ} {l l' : Fin d → ℝ} (hs : |s| = |s'|)
    (hl : ∀ k, |l k| = |l' k|) (x y : Point d) : kernel base s l x y = kernel base s' l' x y := by
  have h : scaledDistance l x y = scaledDistance l' x y := by
    unfold scaledDistance
    congr 1
    refine Finset.sum_congr rfl fun k _ => ?_
    rw [div_pow, div_pow, sq_eq_sq_iff_abs_eq_abs (l k) (l' k) |>.2 (hl k)]
  rw [kernel, kernel, h, (sq_eq_sq_iff_abs_eq_abs s s').2 hs]

theorem gram_signs (base : String) {s s' : ℝ} {l l' : Fin d → ℝ} (hs : |s| = |s'|)
    (hl : ∀ k, |l k| = |l' k|) (X : Inputs n d) (Z : Inputs m d) :
    gram base s l X Z = gram base s' l' X Z := by
  ext i j
  simp only [gram, Matrix.of_apply, itemKernel, setKernel, kernel_signs base hs hl]

theorem noisyGram_signs (base : String) {σ σ' s s' : ℝ} {l l' : Fin d → ℝ} (hσ : |σ| = |σ'|)
    (hs : |s| = |s'|) (hl : ∀ k, |l k| = |l' k|) (X : Inputs n d) :
    noisyGram base σ s l X = noisyGram base σ' s' l' X := by
  rw [noisyGram, noisyGram, gram_signs base hs hl, (sq_eq_sq_iff_abs_eq_abs σ σ').2 hσ]

/-- C134, covariances. -/
theorem C134_cov {name base : String} {X : Inputs n d} {Z : Inputs m d} (hX : Suits name base X)
    (hZ : Suits name base Z) {h h' : HypDict} (hh : SameUpToSign d h h') (jit : ℝ) :
    covMain name X Z h false jit = covMain name X Z h' false jit ∧
    covMain name X X h true jit = covMain name X X h' true jit ∧
    noisyCov X h name = noisyCov X h' name ∧
    getKernelInverse X h name = getKernelInverse X h' name := by
  obtain ⟨σ, s, σ', s', l, l', h1, h2, e1, e2, e3⟩ := hh
  refine ⟨?_, ?_, ?_, ?_⟩
  · rw [covMain_diff hX hZ h1, covMain_diff hX hZ h2, gram_signs base e2 e3]
  · rw [covMain_same hX h1, covMain_same hX h2, gram_signs base e2 e3]
  · rw [noisyCov_ok hX h1, noisyCov_ok hX h2, noisyGram_signs base e1 e2 e3]
  · rw [getKernelInverse_ok hX h1, getKernelInverse_ok hX h2, noisyGram_signs base e1 e2 e3]

/-- C134, Gaussian process predictions, for any prior mean. -/
theorem C134_gp_predict {name base : String} {X : Inputs n d} {Xs : Inputs m d}
    (hX : Suits name base X) (hXs : Suits name base Xs) {h h' : HypDict}
    (hh : SameUpToSign d h h') (Y : Fin n → ℝ) (prior : PriorMu d) :
    predictWithHyps X Y Xs h name prior = predictWithHyps X Y Xs h' name prior := by
  have c1 := fun jit => (C134_cov hX hXs hh jit).1
  have c2 := fun jit => (C134_cov hXs hXs hh jit).2.1
  have c3 := (C134_cov hX hXs hh 0).2.2.2
  simp only [predictWithHyps, predictWithCov, c1, c2, c3]

/-- C134, Student-t predictions, for any prior mean and the same degrees of freedom. -/
theorem C134_tp_predict {name base : String} {X : Inputs n d} {Xs : Inputs m d}
    (hX : Suits name base X) (hXs : Suits name base Xs) {h h' : HypDict}
    (hh : SameUpToSign d h h') (hd : h.dof = h'.dof) (Y : Fin n → ℝ) (prior : PriorMu d) :
    Tp.predictWithHyps X Y Xs h name prior = Tp.predictWithHyps X Y Xs h' name prior := by
  have c1 := fun jit => (C134_cov hX hXs hh jit).1
  have c2 := fun jit => (C134_cov hXs hXs hh jit).2.1
  have c3 := (C134_cov hX hXs hh 0).2.2.2
  simp only [Tp.predictWithHyps, Tp.predictWithCov, c1, c2, c3, hd]

/-! ### The objectives of the search for hyperparameters -/

section

variable {gp ard fix : Bool} {v v' : Fin (vectorLength gp ard fix d) → ℝ}

theorem extend_signs {N : ℕ} {v v' : Fin N → ℝ} (hv : ∀ i, |v i| = |v' i|) (k : ℕ) :
    |extend v k| = |extend v' k| := by
  unfold extend
  split_ifs
  · exact hv _
  · rfl

theorem nonzero_signs {N : ℕ} {v v' : Fin N → ℝ} (hv : ∀ i, |v i| = |v' i|)
    (h0 : ∀ i, v i ≠ 0) (i : Fin N) : v' i ≠ 0 := by
  have := hv i
  intro h
  rw [h, abs_zero, abs_eq_zero] at this
  exact h0 i this

theorem vecNoise_signs {N : ℕ} {v v' : Fin N → ℝ} (hv : ∀ i, |v i| = |v' i|) :
    |vecNoise fix (extend v)| = |vecNoise fix (extend v')| := by
  unfold vecNoise
  split_ifs
  · rfl
  · exact extend_signs hv 0

theorem vecDict_signs (hv : ∀ i, |v i| = |v' i|) (h0 : ∀ i, v i ≠ 0) :
    SameUpToSign d (vecDict d gp ard fix (extend v)) (vecDict d gp ard fix (extend v')) :=
  ⟨_, _, _, _, _, _, vecDict_describes fun k _ => extend_ne_zero h0 k,
    vecDict_describes fun k _ => extend_ne_zero (nonzero_signs hv h0) k, vecNoise_signs hv,
    extend_signs hv _, fun _ => extend_signs hv _⟩

theorem vecGram_signs {N : ℕ} {v v' : Fin N → ℝ} (hv : ∀ i, |v i| = |v' i|) (base : String)
    (X : Inputs n d) : vecGram base X gp ard fix v = vecGram base X gp ard fix v' :=
  noisyGram_signs base (vecNoise_signs hv) (extend_signs hv _) (fun _ => extend_signs hv _) X

end

/-- C134, marginal likelihood: changing signs in the vector of hyperparameters does not change
the value; so a search without bounds has its best points in groups of mirror images. -/
theorem C134_ml {name base : String} {X : Inputs n d} (hX : Suits name base X) (hn : n ≠ 0)
    (Y μ : Fin n → ℝ) (ard fix chol : Bool) {v v' : Fin (vectorLength true ard fix d) → ℝ}
    (hv : ∀ i, |v i| = |v' i|) (h0 : ∀ i, v i ≠ 0) :
    ∃ y, negLogMl X Y ((List.ofFn v).map .fin) name μ ard fix chol false = .ok (y, none) ∧
      negLogMl X Y ((List.ofFn v').map .fin) name μ ard fix chol false = .ok (y, none) := by
  have r1 := restore_ofFn (suits_allowed hX) true ard fix v
  have r2 := restore_ofFn (suits_allowed hX) true ard fix v'
  have d1 := vecDict_describes (gp := true) (ard := ard) (fix := fix) (d := d)
    fun k _ => extend_ne_zero h0 k
  have d2 := vecDict_describes (gp := true) (ard := ard) (fix := fix) (d := d)
    fun k _ => extend_ne_zero (nonzero_signs hv h0) k
  have hK := vecGram_signs (gp := true) (ard := ard) (fix := fix) hv base X
  unfold vecGram at hK
  cases chol
  · exact ⟨_, negLogMl_inverse_ok hX r1 d1 hn Y μ false, by
      rw [negLogMl_inverse_ok hX r2 d2 hn Y μ false, hK]⟩
  · obtain ⟨L, hL, e1⟩ := negLogMl_chol_ok hX r1 d1 hn Y μ
    obtain ⟨M, hM, e2⟩ := negLogMl_chol_ok hX r2 d2 hn Y μ
    rw [hK] at hL e1
    obtain rfl := cholesky_unique hL hM
    exact ⟨_, e1, e2⟩

/-- C134, leave-one-out likelihood. -/
theorem C134_loocv {name base : String} {X : Inputs n d} (hX : Suits name base X) (hn : n ≠ 0)
    (Y μ : Fin n → ℝ) (fix : Bool) {v v' : Fin (vectorLength true true fix d) → ℝ}
    (hv : ∀ i, |v i| = |v' i|) (h0 : ∀ i, v i ≠ 0) :
    ∃ y, negLogPseudoLLoocv X Y ((List.ofFn v).map .fin) name μ fix = .ok y ∧
      negLogPseudoLLoocv X Y ((List.ofFn v').map .fin) name μ fix = .ok y := by
  have r1 := restore_ofFn (suits_allowed hX) true true fix v
  have r2 := restore_ofFn (suits_allowed hX) true true fix v'
  have d1 := vecDict_describes (gp := true) (ard := true) (fix := fix) (d := d)
    fun k _ => extend_ne_zero h0 k
  have d2 := vecDict_describes (gp := true) (ard := true) (fix := fix) (d := d)
    fun k _ => extend_ne_zero (nonzero_signs hv h0) k
  have hK := vecGram_signs (gp := true) (ard := true) (fix := fix) hv base X
  unfold vecGram at hK
  exact ⟨_, loocv_value hX hn Y μ r1 d1, by rw [loocv_value hX hn Y μ r2 d2, hK]⟩

/-- C134, Student-t likelihood; the degrees of freedom stay as they are, as both vectors have
more than two. -/
theorem C134_tp {name base : String} {X : Inputs n d} (hX : Suits name base X) (hn : n ≠ 0)
    (Y μ : Fin n → ℝ) (ard fix : Bool) {v v' : Fin (vectorLength false ard fix d) → ℝ}
    (hv : ∀ i, |v i| = |v' i|) (h0 : v ∈ DofAboveTwo ard fix d) (h1 : v' ∈ DofAboveTwo ard fix d) :
    ∃ y, Tp.negLogMl X Y ((List.ofFn v).map .fin) name μ ard fix false = .ok (y, none) ∧
      Tp.negLogMl X Y ((List.ofFn v').map .fin) name μ ard fix false = .ok (y, none) := by
  refine ⟨_, tp_value hX hn Y μ ard fix h0, ?_⟩
  have hd : extend v (dofPlace fix) = extend v' (dofPlace fix) := by
    have a := dof_extend h0
    have b := dof_extend h1
    have := extend_signs hv (dofPlace fix)
    rwa [abs_of_pos (by linarith), abs_of_pos (by linarith)] at this
  rw [tp_value hX hn Y μ ard fix h1, hd, vecGram_signs hv]

theorem zipWith_ofFn {α β γ : Type} {k : ℕ} (f : α → β → γ) (a : Fin k → α) (b : Fin k → β) :
    List.zipWith f (List.ofFn a) (List.ofFn b) = List.ofFn fun i => f (a i) (b i) :=
  List.ext_getElem (by simp) fun i h1 h2 => by simp

/-- The vector, written out. -/
theorem ofFn_places (ard fix : Bool) (v : Fin (vectorLength true ard fix d) → ℝ) :
    List.ofFn v = (if fix then [] else [vecNoise fix (extend v)]) ++
      extend v (signalPlace true fix) :: (if ard then
        List.ofFn (vecScale (d := d) true true fix (extend v))
      else [extend v (signalPlace true fix + 1)]) := by
  have e : ∀ (b : ℕ) (w : ℕ → ℝ), List.ofFn (fun k : Fin d => w (b + k)) =
      (List.range d).map (w ∘ fun k => b + k) := by
    intro b w
    exact List.ext_getElem (by simp) fun i h1 h2 => by simp
  rw [ofFn_extend]
  unfold vecScale
  cases fix <;> cases ard <;>
    simp [vectorLength, signalPlace, vecNoise, List.range_add, e, List.range_succ]

/-- The slices of the gradient of the kernel matrix, each times its hyperparameter. -/
theorem slices {name : String} (hb : name ∈ baseNames) (X : Fin n → Point d) (ard fix : Bool)
    {v : Fin (vectorLength true ard fix d) → ℝ} (h0 : ∀ i, v i ≠ 0) :
    ∃ G, gradCovMain name (.vec X) (.vec X) (vecDict d true ard fix (extend v)) fix = .ok G ∧
      G.length = vectorLength true ard fix d ∧
      List.zipWith (fun (x : ℝ) (A : Matrix (Fin n) (Fin n) ℝ) => x • A) (List.ofFn v) G =
        (if fix then [] else [(2 * vecNoise fix (extend v) ^ 2) • 1]) ++
        (Matrix.of fun i j => 2 * (kernel name (extend v (signalPlace true fix))
          (vecScale true ard fix (extend v)) (X i) (X j) + if i = j then 1 / 100000 else 0)) ::
        (if ard then List.ofFn fun k => Matrix.of fun i j => extend v (signalPlace true fix) ^ 2 *
            (preProfile name (scaledDistance (vecScale true ard fix (extend v)) (X i) (X j)) *
            ((X i k - X j k) ^ 2 / vecScale true ard fix (extend v) k ^ 2))
        else [Matrix.of fun i j => extend v (signalPlace true fix) ^ 2 *
            (preProfile name (scaledDistance (vecScale true ard fix (extend v)) (X i) (X j)) *
            scaledDistance (vecScale true ard fix (extend v)) (X i) (X j) ^ 2)]) := by
  have hs := extend_ne_zero h0 (signalPlace true fix)
  have hd := vecDict_describes (gp := true) (ard := ard) (fix := fix) (d := d)
    fun k _ => extend_ne_zero h0 k
  have hsig : ∀ l : Fin d → ℝ, extend v (signalPlace true fix) • (Matrix.of fun i j =>
      2 * (kernel name (extend v (signalPlace true fix)) l (X i) (X j) +
        if i = j then 1 / 100000 else 0) / extend v (signalPlace true fix) :
          Matrix (Fin n) (Fin n) ℝ) = Matrix.of fun i j =>
      2 * (kernel name (extend v (signalPlace true fix)) l (X i) (X j) +
        if i = j then 1 / 100000 else 0) := by
    intro l
    ext i j
    simp only [Matrix.smul_apply, Matrix.of_apply, smul_eq_mul]
    exact mul_div_cancel₀ _ hs
  have hnoise : ∀ σ : ℝ, σ • (2 * σ) • (1 : Matrix (Fin n) (Fin n) ℝ) = (2 * σ ^ 2) • 1 := by
    intro σ
    rw [smul_smul]
    congr 1
    ring
  cases ard
  · refine ⟨_, gradCovMain_iso hb hd hs rfl X fix, ?_, ?_⟩
    · cases fix <;> simp [gradHead, vectorLength]
    · have ha := extend_ne_zero h0 (signalPlace true fix + 1)
      rw [ofFn_places, gradHead]
      have e : vecScale (d := d) true false fix (extend v) =
        fun _ => extend v (signalPlace true fix + 1) := rfl
      have hl : extend v (signalPlace true fix + 1) • (Matrix.of fun i j =>
          extend v (signalPlace true fix) ^ 2 * (preProfile name (scaledDistance
            (fun _ => extend v (signalPlace true fix + 1)) (X i) (X j)) *
            (scaledDistance (fun _ => extend v (signalPlace true fix + 1)) (X i) (X j) ^ 2 /
              extend v (signalPlace true fix + 1))) : Matrix (Fin n) (Fin n) ℝ) =
          Matrix.of fun i j => extend v (signalPlace true fix) ^ 2 * (preProfile name
            (scaledDistance (fun _ => extend v (signalPlace true fix + 1)) (X i) (X j)) *
            scaledDistance (fun _ => extend v (signalPlace true fix + 1)) (X i) (X j) ^ 2) := by
        ext i j
        simp only [Matrix.smul_apply, Matrix.of_apply, smul_eq_mul]
        field_simp
      cases fix <;> simp only [if_true, Bool.false_eq_true, if_false, List.nil_append,
        List.cons_append, List.zipWith_cons_cons, List.zipWith_nil_left, hnoise, hsig, e, hl]
  · refine ⟨_, gradCovMain_ard hb hd hs
      (by simp [vecDict, vecScale, List.map_ofFn, Function.comp_def]) X fix, ?_, ?_⟩
    · cases fix <;> simp [gradHead, vectorLength] <;> omega
    · rw [ofFn_places, gradHead]
      have hl : ∀ k : Fin d, vecScale true true fix (extend v) k • (Matrix.of fun i j =>
          extend v (signalPlace true fix) ^ 2 * (preProfile name (scaledDistance
            (vecScale true true fix (extend v)) (X i) (X j)) *
            ((X i k - X j k) ^ 2 / vecScale true true fix (extend v) k ^ 3)) :
              Matrix (Fin n) (Fin n) ℝ) = Matrix.of fun i j =>
          extend v (signalPlace true fix) ^ 2 * (preProfile name (scaledDistance
            (vecScale true true fix (extend v)) (X i) (X j)) *
            ((X i k - X j k) ^ 2 / vecScale true true fix (extend v) k ^ 2)) := by
        intro k
        have ha : vecScale true true fix (extend v) k ≠ 0 := extend_ne_zero h0 _
        ext i j
        simp only [Matrix.smul_apply, Matrix.of_apply, smul_eq_mul]
        field_simp
      cases fix <;> simp only [if_true, Bool.false_eq_true, if_false, List.nil_append,
        List.cons_append, List.zipWith_cons_cons, List.zipWith_nil_left, hnoise, hsig, zipWith_ofFn, hl]

/-- C134, gradient of the marginal likelihood: where the sign of an entry changes, the sign of
the derivative changes with it, so entry times derivative is the same. -/
theorem C134_gradient {name : String} (hb : name ∈ baseNames) (X : Fin n → Point d) (hn : n ≠ 0)
    (Y μ : Fin n → ℝ) (ard fix : Bool) {v v' : Fin (vectorLength true ard fix d) → ℝ}
    (hv : ∀ i, |v i| = |v' i|) (h0 : ∀ i, v i ≠ 0) :
    ∃ y g g',
      negLogMl (.vec X) Y ((List.ofFn v).map .fin) name μ ard fix true true = .ok (y, some g) ∧
      negLogMl (.vec X) Y ((List.ofFn v').map .fin) name μ ard fix true true = .ok (y, some g') ∧
      g.length = vectorLength true ard fix d ∧ g'.length = vectorLength true ard fix d ∧
      ∀ (i : Fin (vectorLength true ard fix d)) (a a' : ℝ), g[i.val]? = some a →
        g'[i.val]? = some a' → v i * a = v' i * a' := by
  have hX : Suits name name (Inputs.vec X) := ⟨hb, .inl ⟨rfl, X, rfl⟩⟩
  have h0' := nonzero_signs hv h0
  obtain ⟨G, hG, hlen, hz⟩ := slices hb X ard fix h0
  obtain ⟨G', hG', hlen', hz'⟩ := slices hb X ard fix h0'
  obtain ⟨L, hL, e1⟩ := negLogMl_chol_grad_ok hb X (restore_ofFn (suits_allowed hX) true ard fix v)
    (vecDict_describes fun k _ => extend_ne_zero h0 k) hn Y μ hG
  obtain ⟨M, hM, e2⟩ := negLogMl_chol_grad_ok hb X (restore_ofFn (suits_allowed hX) true ard fix v')
    (vecDict_describes fun k _ => extend_ne_zero h0' k) hn Y μ hG'
  have hK := vecGram_signs (gp := true) (ard := ard) (fix := fix) hv name (.vec X)
  unfold vecGram at hK
  rw [hK] at hL e1
  obtain rfl := cholesky_unique hL hM
  refine ⟨_, _, _, e1, e2, by simp [hlen], by simp [hlen'], fun i a a' ha ha' => ?_⟩
  have hsq : ∀ k, extend v k ^ 2 = extend v' k ^ 2 :=
    fun k => (sq_eq_sq_iff_abs_eq_abs _ _).2 (extend_signs hv k)
  have hsc : ∀ k, vecScale (d := d) true ard fix (extend v) k ^ 2 =
      vecScale true ard fix (extend v') k ^ 2 := fun k => hsq _
  have hdist : ∀ x y, scaledDistance (vecScale (d := d) true ard fix (extend v)) x y =
      scaledDistance (vecScale true ard fix (extend v')) x y := by
    intro x y
    unfold scaledDistance
    congr 1
    refine Finset.sum_congr rfl fun k _ => ?_
    rw [div_pow, div_pow, hsc]
  have hker : ∀ x y, kernel name (extend v (signalPlace true fix))
      (vecScale (d := d) true ard fix (extend v)) x y = kernel name (extend v' (signalPlace true fix))
      (vecScale true ard fix (extend v')) x y :=
    kernel_signs name (extend_signs hv _) fun k => extend_signs hv _
  have hno : vecNoise fix (extend v) ^ 2 = vecNoise fix (extend v') ^ 2 :=
    (sq_eq_sq_iff_abs_eq_abs _ _).2 (vecNoise_signs hv)
  have hzz : List.zipWith (fun (x : ℝ) (A : Matrix (Fin n) (Fin n) ℝ) => x • A) (List.ofFn v) G =
      List.zipWith (fun (x : ℝ) (A : Matrix (Fin n) (Fin n) ℝ) => x • A) (List.ofFn v') G' := by
    rw [hz, hz']
    simp only [hker, hdist, hsq, hsc, hno]
  have hi : i.val < G.length := by rw [hlen]; exact i.2
  have hi' : i.val < G'.length := by rw [hlen']; exact i.2
  have hA : v i • G[i.val] = v' i • G'[i.val] := by
    have := congrArg (fun l => l[i.val]?) hzz
    simpa [List.getElem?_zipWith, hi, hi'] using this
  rw [List.getElem?_map, List.getElem?_eq_getElem hi] at ha
  rw [List.getElem?_map, List.getElem?_eq_getElem hi'] at ha'
  rw [← Option.some.inj ha, ← Option.some.inj ha']
  generalize noisyGram name _ _ _ _ = K
  generalize G[i.val] = A at hA
  generalize G'[i.val] = A' at hA
  have t : ∀ (x : ℝ) (A : Matrix (Fin n) (Fin n) ℝ), x * ((-(1 / 2) * ((Y - μ) ⬝ᵥ
      ((K⁻¹ * A * K⁻¹).mulVec (Y - μ))) + 1 / 2 * Matrix.trace (K⁻¹ * A)) / n) =
      (-(1 / 2) * ((Y - μ) ⬝ᵥ ((K⁻¹ * (x • A) * K⁻¹).mulVec (Y - μ))) +
        1 / 2 * Matrix.trace (K⁻¹ * (x • A))) / n := by
    intro x A
    rw [Matrix.mul_smul, Matrix.smul_mul, Matrix.smul_mulVec, dotProduct_smul, Matrix.trace_smul,
      smul_eq_mul, smul_eq_mul]
    ring
  rw [t, t, hA]

/-- Concrete case of C134: signal 2, lengthscale -3 and signal -2, lengthscale 3 have the same
likelihood, also where both inputs are the same point. -/
example (Y : Fin 2 → ℝ) : ∃ y,
    negLogMl (.vec ![![0], ![0]] : Inputs 2 1) Y [.fin 2, .fin (-3)] "se" 0 true true true false =
      .ok (y, none) ∧
    negLogMl (.vec ![![0], ![0]] : Inputs 2 1) Y [.fin (-2), .fin 3] "se" 0 true true true false =
      .ok (y, none) := by
  have := C134_ml (name := "se") (base := "se") (X := (.vec ![![0], ![0]] : Inputs 2 1))
    ⟨by simp [baseNames], .inl ⟨rfl, _, rfl⟩⟩ two_ne_zero Y 0 true true true
    (v := (![2, -3] : Fin 2 → ℝ)) (v' := (![-2, 3] : Fin 2 → ℝ))
    (fun i => Fin.cases (by show |(2 : ℝ)| = |-2|; simp) (fun i => Fin.cases (by
      show |(-3 : ℝ)| = |3|; simp) (fun i => i.elim0) i) i)
    (fun i => Fin.cases (by show (2 : ℝ) ≠ 0; norm_num) (fun i => Fin.cases (by
      show (-3 : ℝ) ≠ 0; norm_num) (fun i => i.elim0) i) i)
  exact this

/-- Concrete case of C134 for dictionaries: a float lengthscale of -3 and an array of threes. -/
example (Y : Fin 2 → ℝ) (X : Fin 2 → Point 2) (Xs : Fin 5 → Point 2) :
    predictWithHyps (.vec X) Y (.vec Xs) ⟨some (.flt (.fin 1)), none,
        some (.flt (.fin 2)), some (.flt (.fin (-3)))⟩ "matern32" =
      predictWithHyps (.vec X) Y (.vec Xs) ⟨some (.flt (.fin (-1))), none,
        some (.flt (.fin 2)), some (.arr [.fin 3, .fin 3])⟩ "matern32" :=
  C134_gp_predict (base := "matern32") ⟨by simp [baseNames], .inl ⟨rfl, _, rfl⟩⟩
    ⟨by simp [baseNames], .inl ⟨rfl, _, rfl⟩⟩
    ⟨1, 2, -1, 2, fun _ => -3, fun _ => 3, ⟨rfl, rfl, .inr ⟨-3, by norm_num, fun _ => rfl, rfl⟩,
      fun _ => by norm_num⟩, ⟨rfl, rfl, .inl (by simp), fun _ => by norm_num⟩, by simp, rfl,
      fun _ => by simp⟩ Y none

end Verif.Props
