import Verif.Model.Tp
import Verif.Lemmas.Gp
import Verif.Lemmas.Student
import Verif.Lemmas.MatrixCalculus
import Verif.Spec.Densities
import Mathlib.Analysis.SpecialFunctions.Gamma.BohrMollerup
import Mathlib.Analysis.Convex.Deriv

/-! Student-t process regression in closed form. -/

namespace Verif.Lemmas

open Verif.Spec Verif.Covariance Verif.UtilsCovariance Verif.Constants
open Matrix

/-- The misfit of the responses. -/
noncomputable def misfit {n : ℕ} (K : Matrix (Fin n) (Fin n) ℝ) (y : Fin n → ℝ) : ℝ :=
  y ⬝ᵥ (K⁻¹ *ᵥ y)

theorem misfit_nonneg {n : ℕ} {K : Matrix (Fin n) (Fin n) ℝ} (hK : K.PosDef) (y : Fin n → ℝ) :
    0 ≤ misfit K y := by
  have := hK.inv.posSemidef.dotProduct_mulVec_nonneg y
  rwa [star_trivial] at this

theorem tpPredictWithHyps_ok {n m d : ℕ} {name base : String} {X : Inputs n d} {Xs : Inputs m d}
    (hX : Suits name base X) (hXs : Suits name base Xs) {h : HypDict} {σ s : ℝ} {l : Fin d → ℝ}
    (hd : Describes h σ s l) {ν : ℝ} (hν : 2 < ν) (hdof : h.dof = some (.flt (.fin ν)))
    (Y : Fin n → ℝ) {prior : Gp.PriorMu d} {μ : Fin n → ℝ} {μs : Fin m → ℝ}
    (hμ : Gp.getPriorMu prior X = .ok μ) (hμs : Gp.getPriorMu prior Xs = .ok μs) :
    Tp.predictWithHyps X Y Xs h name prior =
      let c := (ν + misfit (noisyGram base σ s l X) (Y - μ) - 2) / (ν + n - 2)
      .ok (ν + n, postMean base σ s l X Xs (Y - μ) + μs,
        fun i => √(max ((c • postCov base σ s l X Xs) i i) 0), c • postCov base σ s l X Xs) := by
  have hsym : (Matrix.of fun i j => ((gram base s l Xs Xs + JITTER_COV •
      (1 : Matrix (Fin m) (Fin m) ℝ)) i j + (gram base s l Xs Xs + JITTER_COV •
      (1 : Matrix (Fin m) (Fin m) ℝ)) j i) / 2) = gram base s l Xs Xs +
      (1 / 100000 : ℝ) • (1 : Matrix (Fin m) (Fin m) ℝ) := by
    ext i j
    have hj : JITTER_COV = 1 / 100000 := by norm_num [JITTER_COV]
    have hs := gram_symm base s l Xs Xs j i
    simp only [Matrix.of_apply, Matrix.add_apply, Matrix.smul_apply, hs, Matrix.one_apply, hj,
      eq_comm (a := j)]
    ring
  have h0 : ¬ ν + n - 2 = 0 := by
    have : (0 : ℝ) ≤ n := Nat.cast_nonneg n
    intro h; linarith
  have hY : (fun i => Y i - μ i) = Y - μ := rfl
  simp only [Tp.predictWithHyps, Tp.predictWithCov, validateCommonArgs_suits hX hXs,
    checkStrCov_suits2 hX hXs, getKernelInverse_ok hX hd, hμ, hμs, hdof, numKey, getKey, finite, h0, if_false,
    covMain_diff hX hXs hd, covMain_same hXs hd, bind, Except.bind, pure, Except.pure, hsym, hY,
    ← Matrix.dotProduct_mulVec]
  rfl

/-- The exact negative log likelihood per response. -/
noncomputable def tllExact {n : ℕ} (ν : ℝ) (K : Matrix (Fin n) (Fin n) ℝ) (y : Fin n → ℝ) : ℝ :=
  (n / 2 * Real.log ((ν - 2) * Real.pi) + 1 / 2 * Real.log K.det
    - Real.log (Real.Gamma ((ν + n) / 2) / Real.Gamma (ν / 2))
    + (ν + n) / 2 * Real.log (1 + misfit K y / (ν - 2))) / n

theorem tllExact_eq {n : ℕ} {ν : ℝ} (hν : 2 < ν) {K : Matrix (Fin n) (Fin n) ℝ} (hK : K.PosDef)
    (m y : Fin n → ℝ) : tllExact ν K (y - m) = -Real.log (mvtDensity ν m K y) / n := by
  have h1 : 0 < Real.Gamma ((ν + n) / 2) :=
    Real.Gamma_pos_of_pos (by have : (0 : ℝ) ≤ n := Nat.cast_nonneg n; linarith)
  have h2 : 0 < Real.Gamma (ν / 2) := Real.Gamma_pos_of_pos (by linarith)
  rw [log_mvtDensity hν m hK, tllExact, misfit, Fintype.card_fin, Real.log_div h1.ne' h2.ne']
  congr 1
  ring

theorem tpNegLogMl_of_noisyCov {n d : ℕ} {name base : String} {X : Inputs n d}
    (hX : Suits name base X) {v : List Flt} {ard fix : Bool} {h : HypDict}
    (hr : restoreHyps name v false ard fix = .ok h) {ν : ℝ} (hν : 2 < ν)
    (hdof : h.dof = some (.flt (.fin ν))) {K : Matrix (Fin n) (Fin n) ℝ}
    (hc : noisyCov X h name = .ok K) (hdet : 0 < K.det) (hn : n ≠ 0) (Y μ : Fin n → ℝ) :
    Tp.negLogMl X Y v name μ ard fix false = .ok (tllExact ν K (Y - μ), none) := by
  have hsign : ¬ Real.sign K.det ≤ 0 := by
    rw [Real.sign_of_pos hdet]; norm_num
  have hY : (fun i => Y i - μ i) = Y - μ := rfl
  simp only [Tp.negLogMl, checkStrCov_suits hX, hr, getKernelInverse, hc, npInv, hdet.ne', hdof,
    numKey, getKey, finite, Gp.slogdet, not_le.mpr hν,
    hsign, hn, hY, abs_of_pos hdet, bind, Except.bind, pure, Except.pure, if_false,
    Bool.false_eq_true, dite_false]
  congr 2
  rw [tllExact, ← Matrix.dotProduct_mulVec, misfit]
  norm_num
  ring

/-! ### The degrees of freedom in the dictionary -/

theorem covMain_dof {n m d : ℕ} (name : String) (X : Inputs n d) (Xp : Inputs m d) (h : HypDict)
    (x : Option HVal) (same : Bool) :
    covMain name X Xp { h with dof := x } same = covMain name X Xp h same := by
  have hv : ∀ nm, (validateHypsDict { h with dof := x } nm d).2 =
      (validateHypsDict h nm d).2.map fun h => { h with dof := x } := by
    intro nm
    obtain ⟨n1, n2, n3, n4⟩ := h
    unfold validateHypsDict validateNoise validateDof
    by_cases hn : nm ∉ ALLOWED_COV
    · simp [hn, Except.map]
    · simp only [hn, if_false]
      rcases n1 with _ | ⟨_ | _ | _⟩
      all_goals simp [Except.map, validLengthscales, validSignal]
      all_goals split_ifs <;> simp
  unfold covMain
  cases X <;> cases Xp <;> simp only [hv]
  · generalize (validateHypsDict h name d).2 = r
    cases r <;> rfl
  · cases hsb : setBaseName name with
    | error e => rfl
    | ok nm =>
      simp only [bind, Except.bind, hv]
      generalize (validateHypsDict h nm d).2 = r
      cases r <;> rfl

/-! ### The gradient as a list -/

private theorem foldl_set (f : α → ℝ) : ∀ (G : List α) (k : ℕ) (pre : List ℝ),
    pre.length = k + 1 → (G.zipIdx k).foldl (fun g p => g.set (p.2 + 1) (f p.1))
      (pre ++ List.replicate G.length 0) = pre ++ G.map f
  | [], _, _, _ => by simp
  | a :: G, k, pre, h => by
    rw [List.zipIdx_cons, List.foldl_cons]
    have : (pre ++ List.replicate (a :: G).length 0).set (k + 1) (f a) =
        (pre ++ [f a]) ++ List.replicate G.length 0 := by
      rw [List.set_append_right _ _ (by omega), h, Nat.sub_self, List.length_cons,
        List.replicate_succ]
      simp
    rw [this, foldl_set f G (k + 1) (pre ++ [f a]) (by simp [h])]
    simp

/-- One entry of the gradient before negation and division. -/
noncomputable def sliceGrad {n : ℕ} (nu beta : ℝ) (alpha : Fin n → ℝ)
    (P A : Matrix (Fin n) (Fin n) ℝ) : ℝ :=
  0.5 * ((Matrix.of fun i j => (nu + n) / (nu + beta - 2) * (alpha i * alpha j) - P i j) *
    A).trace

theorem gradLogMl_fix {n : ℕ} (nu beta : ℝ) (alpha : Fin n → ℝ) (P : Matrix (Fin n) (Fin n) ℝ)
    (G : List (Matrix (Fin n) (Fin n) ℝ)) :
    Tp.gradLogMl nu n beta alpha P G true =
      Tp.nuGrad nu n beta :: G.map (sliceGrad nu beta alpha P) := by
  have := foldl_set (sliceGrad nu beta alpha P) G 0 [Tp.nuGrad nu n beta] rfl
  simpa [Tp.gradLogMl, sliceGrad, List.replicate_succ] using this

theorem gradLogMl_noise {n : ℕ} (nu beta : ℝ) (alpha : Fin n → ℝ) (P : Matrix (Fin n) (Fin n) ℝ)
    (A : Matrix (Fin n) (Fin n) ℝ) (G : List (Matrix (Fin n) (Fin n) ℝ)) :
    Tp.gradLogMl nu n beta alpha P (A :: G) false =
      sliceGrad nu beta alpha P A :: Tp.nuGrad nu n beta :: G.map (sliceGrad nu beta alpha P) := by
  have := foldl_set (sliceGrad nu beta alpha P) G 1
    [sliceGrad nu beta alpha P A, Tp.nuGrad nu n beta] rfl
  have h2 : ∀ g : List ℝ, (G.zipIdx 1).foldl (fun g p => g.set (if p.2 = 0 then 0 else p.2 + 1)
      (sliceGrad nu beta alpha P p.1)) g =
      (G.zipIdx 1).foldl (fun g p => g.set (p.2 + 1) (sliceGrad nu beta alpha P p.1)) g := by
    intro g
    refine List.foldl_ext _ _ g fun a p hp => ?_
    have : 1 ≤ p.2 := by
      obtain ⟨x, i⟩ := p
      exact (List.mem_zipIdx hp).1
    rw [if_neg (by omega)]
  rw [← h2] at this
  simpa [Tp.gradLogMl, sliceGrad, List.replicate_succ] using this

theorem tpNegLogMl_grad_ok {n d : ℕ} {name : String} (hb : name ∈ baseNames)
    (X : Fin n → Point d) {v : List Flt} {ard fix : Bool} {h : HypDict}
    (hr : restoreHyps name v false ard fix = .ok h) {ν : ℝ} (hν : 2 < ν)
    (hdof : h.dof = some (.flt (.fin ν))) {σ s : ℝ} {l : Fin d → ℝ}
    (hd : Describes h σ s l) (hn : n ≠ 0) (Y μ : Fin n → ℝ)
    {G : List (Matrix (Fin n) (Fin n) ℝ)}
    (hG : gradCovMain name (.vec X) (.vec X) h fix = .ok G) :
    Tp.negLogMl (.vec X) Y v name μ ard fix true =
      let K := noisyGram name σ s l (.vec X)
      .ok (tllExact ν K (Y - μ), some ((Tp.gradLogMl ν n (misfit K (Y - μ)) (K⁻¹ *ᵥ (Y - μ)) K⁻¹
        G fix).map fun g => -1 * g / n)) := by
  have hX : Suits name name (Inputs.vec X) := ⟨hb, .inl ⟨rfl, X, rfl⟩⟩
  have hp := noisyGram_posDef name σ s l (.vec X)
  have hdet := hp.det_pos
  have hsign : ¬ Real.sign (noisyGram name σ s l (.vec X)).det ≤ 0 := by
    rw [Real.sign_of_pos hdet]; norm_num
  have hY : (fun i => Y i - μ i) = Y - μ := rfl
  have hk : getKernelInverse (.vec X) h name fix true = .ok (noisyGram name σ s l (.vec X),
      (noisyGram name σ s l (.vec X))⁻¹, some G) := by
    simp only [getKernelInverse, checkStrCov_suits hX, noisyCov_ok hX hd, npInv, hdet.ne', hG,
      bind, Except.bind, pure, Except.pure, if_true, if_false, dite_false]
  simp only [Tp.negLogMl, checkStrCov_suits hX, hr, hk, hdof, numKey, getKey, finite, Gp.slogdet,
    not_le.mpr hν, hsign, hn, hY, abs_of_pos hdet, bind, Except.bind, pure, Except.pure, if_false,
    if_true]
  rw [← Matrix.dotProduct_mulVec]
  congr 2
  rw [tllExact, misfit]
  norm_num
  ring

/-! ### Derivatives -/

theorem hasDerivAt_tll_cov {n : ℕ} {ν : ℝ} (hν : 2 < ν) {M : ℝ → Matrix (Fin n) (Fin n) ℝ}
    {A : Matrix (Fin n) (Fin n) ℝ} {x : ℝ} (hM : (M x).PosDef)
    (hder : ∀ i j, HasDerivAt (fun t => M t i j) (A i j) x) (y : Fin n → ℝ) :
    HasDerivAt (fun t => tllExact ν (M t) y)
      (-1 * sliceGrad ν (misfit (M x) y) ((M x)⁻¹ *ᵥ y) (M x)⁻¹ A / n) x := by
  have hdet := hM.det_pos
  have hKt : ((M x)⁻¹)ᵀ = (M x)⁻¹ := by
    have := hM.inv.isHermitian
    rwa [IsHermitian, conjTranspose_eq_transpose_of_trivial] at this
  have hA : 0 < ν - 2 := by linarith
  have hβ := misfit_nonneg hM y
  have q1 := hasDerivAt_quad_inv hdet.ne' hder y
  have q2 := hasDerivAt_log_det hdet hder
  have hpos : 1 + misfit (M x) y / (ν - 2) ≠ 0 := by positivity
  have q3 := ((q1.div_const (ν - 2)).const_add 1).log hpos
  have q := ((((q2.const_mul (1 / 2)).const_add (n / 2 * Real.log ((ν - 2) * Real.pi))).sub_const
    (Real.log (Real.Gamma ((ν + n) / 2) / Real.Gamma (ν / 2)))).add
    (q3.const_mul ((ν + n) / 2))).div_const (n : ℝ)
  refine q.congr_deriv ?_
  have e1 : sliceGrad ν (misfit (M x) y) ((M x)⁻¹ *ᵥ y) (M x)⁻¹ A =
      1 / 2 * ((ν + n) / (ν + misfit (M x) y - 2) * (y ⬝ᵥ (((M x)⁻¹ * A * (M x)⁻¹) *ᵥ y)) -
        trace ((M x)⁻¹ * A)) := by
    rw [sliceGrad, ← Matrix.mulVec_mulVec, ← Matrix.mulVec_mulVec, Matrix.dotProduct_mulVec,
      ← Matrix.mulVec_transpose, hKt]
    generalize (M x)⁻¹ *ᵥ y = a
    generalize (M x)⁻¹ = P
    have h05 : (0.5 : ℝ) = 1 / 2 := by norm_num
    rw [h05]
    congr 1
    simp only [Matrix.trace, Matrix.diag, Matrix.mul_apply, Matrix.of_apply, dotProduct, mulVec,
      sub_mul, Finset.sum_sub_distrib]
    congr 1
    rw [Finset.sum_comm]
    simp only [Finset.mul_sum]
    exact Finset.sum_congr rfl fun i _ => Finset.sum_congr rfl fun j _ => by ring
  rw [e1]
  change (1 / 2 * trace ((M x)⁻¹ * A) + (ν + n) / 2 *
    (-(y ⬝ᵥ (((M x)⁻¹ * A * (M x)⁻¹) *ᵥ y)) / (ν - 2) / (1 + misfit (M x) y / (ν - 2)))) / n = _
  generalize misfit (M x) y = β at *
  generalize y ⬝ᵥ (((M x)⁻¹ * A * (M x)⁻¹) *ᵥ y) = q
  have e2 : -q / (ν - 2) / (1 + β / (ν - 2)) = -(q / (ν + β - 2)) := by
    have h1 : ν + β - 2 ≠ 0 := by linarith
    have h2 : ν - 2 ≠ 0 := hA.ne'
    rw [show 1 + β / (ν - 2) = (ν + β - 2) / (ν - 2) by field_simp; ring]
    field_simp
  rw [e2]
  ring

theorem hasDerivAt_log_Gamma {x : ℝ} (hx : 0 < x) :
    HasDerivAt (fun t => Real.log (Real.Gamma t)) (Tp.digamma x) x := by
  have h : DifferentiableAt ℝ Real.Gamma x :=
    Real.differentiableAt_Gamma fun m => by
      have : (0 : ℝ) ≤ m := Nat.cast_nonneg m
      intro h; linarith
  exact (h.hasDerivAt.log (Real.Gamma_pos_of_pos hx).ne').congr_deriv rfl

theorem digamma_mono {a b : ℝ} (ha : 0 < a) (hab : a ≤ b) : Tp.digamma a ≤ Tp.digamma b := by
  rcases hab.eq_or_lt with rfl | hlt
  · exact le_rfl
  · have hb : 0 < b := ha.trans hlt
    exact (Real.convexOn_log_Gamma.le_slope_of_hasDerivAt ha hb hlt (hasDerivAt_log_Gamma ha)).trans
      (Real.convexOn_log_Gamma.slope_le_of_hasDerivAt ha hb hlt (hasDerivAt_log_Gamma hb))

theorem digamma_add_one {a : ℝ} (ha : 0 < a) : Tp.digamma (a + 1) = Tp.digamma a + 1 / a := by
  have h1 : HasDerivAt (fun t => Real.log (Real.Gamma (t + 1))) (Tp.digamma (a + 1)) a := by
    have := (hasDerivAt_log_Gamma (x := a + 1) (by linarith)).comp a
      ((hasDerivAt_id a).add_const 1)
    exact this.congr_deriv (by ring)
  have h2 : HasDerivAt (fun t => Real.log (Real.Gamma (t + 1))) (Tp.digamma a + 1 / a) a := by
    refine ((hasDerivAt_log_Gamma ha).add ((hasDerivAt_id a).log ha.ne')).congr_of_eventuallyEq ?_
    filter_upwards [lt_mem_nhds ha] with t ht
    rw [Real.Gamma_add_one ht.ne', Real.log_mul ht.ne' (Real.Gamma_pos_of_pos ht).ne', add_comm]
    rfl
  exact h1.unique h2

theorem digamma_strictMono {a b : ℝ} (ha : 0 < a) (hab : a < b) :
    Tp.digamma a < Tp.digamma b := by
  have h := digamma_mono (a := a + 1) (b := b + 1) (by linarith) (by linarith)
  rw [digamma_add_one ha, digamma_add_one (ha.trans hab)] at h
  have : 1 / b < 1 / a := one_div_lt_one_div_of_lt ha hab
  linarith

/-- The true derivative in the degrees of freedom: the digamma terms carry a factor `1/2`. -/
theorem hasDerivAt_tll_dof {n : ℕ} {ν : ℝ} (hν : 2 < ν) {K : Matrix (Fin n) (Fin n) ℝ}
    (hK : K.PosDef) (y : Fin n → ℝ) :
    HasDerivAt (fun t => tllExact t K y)
      (-1 * Tp.nuGrad ν n (misfit K y) / n -
        -(Tp.digamma ((ν + n) / 2) - Tp.digamma (ν / 2)) / 2 / n) ν := by
  have hn : (0 : ℝ) ≤ n := Nat.cast_nonneg n
  have hA : 0 < ν - 2 := by linarith
  have hpi := Real.pi_pos
  have hβ := misfit_nonneg hK y
  unfold tllExact
  generalize misfit K y = β at *
  have g1 : HasDerivAt (fun t => Real.log (Real.Gamma ((t + n) / 2) / Real.Gamma (t / 2)))
      (Tp.digamma ((ν + n) / 2) / 2 - Tp.digamma (ν / 2) / 2) ν := by
    have a1 : HasDerivAt (fun t => Real.log (Real.Gamma ((t + n) / 2)))
        (Tp.digamma ((ν + n) / 2) / 2) ν := by
      have := (hasDerivAt_log_Gamma (x := (ν + n) / 2) (by linarith)).comp ν
        (((hasDerivAt_id ν).add_const (n : ℝ)).div_const 2)
      exact this.congr_deriv (by ring)
    have a2 : HasDerivAt (fun t => Real.log (Real.Gamma (t / 2))) (Tp.digamma (ν / 2) / 2) ν := by
      have := (hasDerivAt_log_Gamma (x := ν / 2) (by linarith)).comp ν
        ((hasDerivAt_id ν).div_const 2)
      exact this.congr_deriv (by ring)
    refine (a1.sub a2).congr_of_eventuallyEq ?_
    filter_upwards [lt_mem_nhds hν] with t ht
    rw [Real.log_div (Real.Gamma_pos_of_pos (by linarith)).ne'
      (Real.Gamma_pos_of_pos (by linarith)).ne']
    rfl
  have g2 : HasDerivAt (fun t => Real.log ((t - 2) * Real.pi)) (1 / (ν - 2)) ν := by
    have := ((((hasDerivAt_id ν).sub_const 2).mul_const Real.pi).log (by
      simp only [id]; positivity))
    refine this.congr_deriv ?_
    simp only [id]
    field_simp
  have g3 : HasDerivAt (fun t => 1 + β / (t - 2)) (-β / (ν - 2) ^ 2) ν := by
    have := (((hasDerivAt_const ν β).div ((hasDerivAt_id ν).sub_const 2) hA.ne').const_add 1)
    refine this.congr_deriv ?_
    simp only [id]
    ring
  have hpos : 1 + β / (ν - 2) ≠ 0 := by positivity
  have g4 := (((hasDerivAt_id ν).add_const (n : ℝ)).div_const 2).mul (g3.log hpos)
  have g := (((((g2.const_mul ((n : ℝ) / 2)).add_const (1 / 2 * Real.log K.det)).sub g1)).add
    g4).div_const (n : ℝ)
  refine g.congr_deriv ?_
  rw [Tp.nuGrad, ← sub_div]
  congr 1
  simp only [id]
  have e2 : -β / (ν - 2) ^ 2 / (1 + β / (ν - 2)) =
      -(2 * β / (2 * (ν - 2) ^ 2 + 2 * β * (ν - 2))) := by
    have h1 : ν - 2 + β ≠ 0 := by linarith
    have h2 : ν - 2 ≠ 0 := hA.ne'
    rw [show 1 + β / (ν - 2) = (ν - 2 + β) / (ν - 2) by field_simp,
      show 2 * (ν - 2) ^ 2 + 2 * β * (ν - 2) = 2 * ((ν - 2) * (ν - 2 + β)) by ring]
    field_simp
  rw [e2]
  have e3 : (n : ℝ) / (2 * (ν - 2)) = n / 2 * (1 / (ν - 2)) := by field_simp
  rw [neg_div, e3]
  norm_num
  ring

end Verif.Lemmas
