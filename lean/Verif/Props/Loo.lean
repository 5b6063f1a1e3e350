import Verif.Lemmas.Loo
import Verif.Props.Gp
import Verif.Props.Gradients

/-! C38: leave-one-out scores. -/

namespace Verif.Props

open Verif.Spec Verif.Covariance Verif.UtilsCovariance Verif.Constants Verif.Lemmas Verif.Gp
open Matrix hiding gram
open ProbabilityTheory

private theorem loo_exists {n d : ℕ} {name base : String} {X : Inputs (n + 1) d}
    (hX : Suits name base X) {h : HypDict} {σ s : ℝ} {l : Fin d → ℝ} (hd : Describes h σ s l)
    (Y : Fin (n + 1) → ℝ) (c : ℝ) {prior : PriorMu d}
    (hp : ∀ (k : ℕ) (X' : Inputs k d), getPriorMu prior X' = .ok fun _ => c) :
    ∃ mu var, IsLeaveOneOut X Y h name prior σ mu var ∧
      ∀ i, (noisyGram base σ s l X)⁻¹ i i * var i = 1 ∧
        ((noisyGram base σ s l X)⁻¹ *ᵥ (Y - fun _ => c)) i * var i = Y i - mu i := by
  refine ⟨fun i => postMean base σ s l (selectRows X i.succAbove) (selectRows X fun _ : Fin 1 => i)
      (fun j => Y (i.succAbove j) - c) 0 + c,
    fun i => postCov base σ s l (selectRows X i.succAbove) (selectRows X fun _ : Fin 1 => i) 0 0 + σ ^ 2,
    fun i => ⟨?_, fun j => √(max (postCov base σ s l (selectRows X i.succAbove)
      (selectRows X fun _ : Fin 1 => i) j j) 0), postCov base σ s l (selectRows X i.succAbove)
      (selectRows X fun _ : Fin 1 => i), ?_, rfl⟩, fun i => ?_⟩
  · have := postCov_diag_ge base σ s l (selectRows X i.succAbove) (selectRows X fun _ : Fin 1 => i) 0
    have := sq_nonneg σ
    linarith
  · rw [predictWithHyps_ok (selectRows_suits hX i.succAbove) (selectRows_suits hX fun _ : Fin 1 => i)
      hd _ (hp _ _) (hp _ _)]
    congr 2
    funext j
    rw [Subsingleton.elim j 0]
    rfl
  · obtain ⟨h1, h2⟩ := loo_row base σ s l X (Y - fun _ => c) i
    refine ⟨h1, h2.trans ?_⟩
    simp only [Pi.sub_apply]
    ring

/-- The leave-one-out mean and variance are determined. -/
private theorem loo_unique {n d : ℕ} {name : String} {X : Inputs (n + 1) d} {h : HypDict} {σ : ℝ}
    {Y mu mu' var var' : Fin (n + 1) → ℝ} {prior : PriorMu d}
    (h1 : IsLeaveOneOut X Y h name prior σ mu var)
    (h2 : IsLeaveOneOut X Y h name prior σ mu' var') : mu = mu' ∧ var = var' := by
  have : ∀ i, mu i = mu' i ∧ var i = var' i := by
    intro i
    obtain ⟨-, sd, S, e1, e2⟩ := h1 i
    obtain ⟨-, sd', S', e1', e2'⟩ := h2 i
    rw [e1] at e1'
    obtain ⟨e3, e4⟩ := Prod.mk.inj (Except.ok.inj e1')
    obtain ⟨-, e5⟩ := Prod.mk.inj e4
    exact ⟨congrFun e3 0, by rw [e2, e2', e5]⟩
  exact ⟨funext fun i => (this i).1, funext fun i => (this i).2⟩

private theorem term_eq {m : ℕ} (P : Matrix (Fin m) (Fin m) ℝ) (Y : Fin m → ℝ) (i : Fin m)
    {mu var : ℝ} (hv : 0 < var) (h1 : P i i * var = 1) (h2 : (P *ᵥ Y) i * var = Y i - mu) :
    loocvTerm P Y i = Real.log (gaussianPDFReal mu (1 / (1 / var + 1 / 100000)).toNNReal (Y i)) := by
  have hP : P i i = 1 / var := by field_simp; exact h1
  have hmu : Y i - (P *ᵥ Y) i / P i i = mu := by
    rw [hP, div_div_eq_mul_div, div_one, h2]; ring
  have hw : (0 : ℝ) < 1 / (1 / var + 1 / 100000) := by positivity
  rw [gaussianPDFReal, Real.coe_toNNReal _ hw.le]
  have hj : (JITTER_COV : ℝ) = 1 / 100000 := by norm_num [JITTER_COV]
  simp only [loocvTerm, hmu, hj]
  rw [hP, Real.sq_sqrt hw.le]
  generalize 1 / (1 / var + 1 / 100000) = w at hw
  have h2w : (0 : ℝ) < 2 * Real.pi * w := by positivity
  rw [Real.log_mul (by positivity) (Real.exp_pos _).ne', Real.log_exp, Real.log_inv,
    Real.log_sqrt h2w.le, Real.log_mul (by positivity) hw.ne']
  field_simp
  ring

private theorem loo_value {n d : ℕ} {name base : String} {X : Inputs (n + 1) d}
    (hX : Suits name base X) {v : List Flt} {fix : Bool} {h : HypDict}
    (hr : restoreHyps name v true true fix = .ok h) {σ s : ℝ} {l : Fin d → ℝ}
    (hd : Describes h σ s l) (Y μ : Fin (n + 1) → ℝ) :
    negLogPseudoLLoocv X Y v name μ fix =
      .ok (-(∑ i, loocvTerm (noisyGram base σ s l X)⁻¹ Y i) / (n + 1 : ℕ)) := by
  have hr' : restoreHyps name v (fix_noise := fix) = .ok h := hr
  have hfold : (List.finRange (n + 1)).foldl (fun a i => a +
      loocvTerm (noisyGram base σ s l X)⁻¹ Y i) 0 =
      ∑ i, loocvTerm (noisyGram base σ s l X)⁻¹ Y i := by
    rw [← List.foldl_map (f := loocvTerm (noisyGram base σ s l X)⁻¹ Y) (g := fun a b => a + b),
      ← List.sum_eq_foldl, ← List.ofFn_eq_map, List.sum_ofFn]
  simp only [negLogPseudoLLoocv, checkStrCov_suits hX, hr', getKernelInverse_ok hX hd, hfold, bind,
    Except.bind, pure, Except.pure, Nat.add_one_ne_zero, if_false]
  congr 1
  ring

/-- C38: the score is made of the true leave-one-out predictions, for prior mean zero. Missing
from the full claim: other prior means, for which `C38_prior_violated` shows it false. -/
theorem C38_leave_one_out_partial {n d : ℕ} {name base : String} {X : Inputs (n + 1) d}
    (hX : Suits name base X) {v : List Flt} {fix : Bool} {h : HypDict}
    (hr : restoreHyps name v true true fix = .ok h) {σ s : ℝ} {l : Fin d → ℝ}
    (hd : Describes h σ s l) (Y : Fin (n + 1) → ℝ) :
    ∃ mu var, IsLeaveOneOut X Y h name none σ mu var ∧
      negLogPseudoLLoocv X Y v name (fun _ => 0) fix = .ok (looScore mu var Y) := by
  obtain ⟨mu, var, h1, h2⟩ := loo_exists hX hd Y 0 (prior := none) fun _ _ => rfl
  refine ⟨mu, var, h1, ?_⟩
  rw [loo_value hX hr hd, looScore]
  congr 4
  funext i
  refine term_eq _ _ _ (h1 i).1 (h2 i).1 ?_
  have := (h2 i).2
  rwa [show (Y - fun _ => (0 : ℝ)) = Y from sub_zero Y] at this

/-- C38: the prior mean is ignored. -/
theorem C38_prior_ignored {n d : ℕ} (X : Inputs n d) (Y μ μ' : Fin n → ℝ) (v : List Flt)
    (name : String) (fix : Bool) :
    negLogPseudoLLoocv X Y v name μ fix = negLogPseudoLLoocv X Y v name μ' fix :=
  rfl

/-- C38: with any constant prior mean other than zero there are responses, whatever the inputs,
for which the score is not made of the leave-one-out predictions. -/
theorem C38_prior_violated {n d : ℕ} {name base : String} {X : Inputs (n + 1) d}
    (hX : Suits name base X) {v : List Flt} {fix : Bool} {h : HypDict}
    (hr : restoreHyps name v true true fix = .ok h) {σ s : ℝ} {l : Fin d → ℝ}
    (hd : Describes h σ s l) {c : ℝ} (hc : c ≠ 0) :
    ∃ Y : Fin (n + 1) → ℝ, ∃ mu var,
      IsLeaveOneOut X Y h name (some fun n _ => .ok (List.replicate n c)) σ mu var ∧
      negLogPseudoLLoocv X Y v name (fun _ => c) fix ≠ .ok (looScore mu var Y) := by
  let Y : Fin (n + 1) → ℝ := fun _ => c
  obtain ⟨mu, var, h1, h2⟩ := loo_exists hX hd Y c
    (prior := some fun n _ => .ok (List.replicate n c)) fun _ _ => constPrior_ok c _
  obtain ⟨mu0, var0, h10, h20⟩ := loo_exists hX hd Y 0 (prior := none) fun _ _ => rfl
  refine ⟨Y, mu, var, h1, fun heq => ?_⟩
  rw [loo_value hX hr hd, looScore] at heq
  have heq := Except.ok.inj heq
  have hp := noisyGram_posDef base σ s l X
  set P := (noisyGram base σ s l X)⁻¹ with hP
  have hmu : ∀ i, Y i - mu i = 0 := fun i => by
    rw [← (h2 i).2, show (Y - fun _ => c) = 0 from sub_self _, Matrix.mulVec_zero]
    simp
  have hterm : ∀ i, loocvTerm P Y i = Real.log (gaussianPDFReal (mu i)
      (1 / (1 / var i + 1 / 100000)).toNNReal (Y i)) -
        1 / 2 * (P *ᵥ Y) i ^ 2 * var i ^ 2 * (1 / var i + 1 / 100000) := by
    intro i
    have hv := (h1 i).1
    have hPi : P i i = 1 / var i := by field_simp; exact (h2 i).1
    have hv0 : var0 i = var i := by
      have := (h20 i).1.trans (h2 i).1.symm
      exact mul_left_cancel₀ (by rw [hPi]; positivity) this
    have e1 := term_eq P Y i (h10 i).1 (h20 i).1 (by
      have := (h20 i).2
      rwa [show (Y - fun _ => (0 : ℝ)) = Y from sub_zero Y] at this)
    have hY0 : Y i - mu0 i = (P *ᵥ Y) i * var i := by
      rw [← (h20 i).2, show (Y - fun _ => (0 : ℝ)) = Y from sub_zero Y, hv0]
    rw [e1, hv0]
    have hw : (0 : ℝ) < 1 / (1 / var i + 1 / 100000) := by positivity
    rw [gaussianPDFReal, gaussianPDFReal, Real.coe_toNNReal _ hw.le, hY0, hmu i]
    have h2w : (0 : ℝ) < 2 * Real.pi * (1 / (1 / var i + 1 / 100000)) := by positivity
    rw [Real.log_mul (by positivity) (Real.exp_pos _).ne', Real.log_exp,
      Real.log_mul (by positivity) (Real.exp_pos _).ne', Real.log_exp]
    field_simp
    ring
  have hsum : ∑ i, 1 / 2 * (P *ᵥ Y) i ^ 2 * var i ^ 2 * (1 / var i + 1 / 100000) = 0 := by
    have e2 := Finset.sum_congr rfl fun i (_ : i ∈ Finset.univ) => hterm i
    rw [Finset.sum_sub_distrib] at e2
    rw [e2] at heq
    have hn : ((n + 1 : ℕ) : ℝ) ≠ 0 := by positivity
    rw [div_left_inj' hn] at heq
    linarith
  have hz : P *ᵥ Y = 0 := by
    funext i
    have hv := (h1 i).1
    have e3 := (Finset.sum_eq_zero_iff_of_nonneg fun j _ => by
      have := (h1 j).1
      positivity).mp hsum i (Finset.mem_univ i)
    have e4 : (1 / 2 * var i ^ 2 * (1 / var i + 1 / 100000)) ≠ 0 := by positivity
    have e5 : (P *ᵥ Y) i ^ 2 * (1 / 2 * var i ^ 2 * (1 / var i + 1 / 100000)) = 0 := by
      rw [← e3]; ring
    exact pow_eq_zero_iff (by norm_num) |>.mp ((mul_eq_zero.mp e5).resolve_right e4)
  have hY : Y = 0 := by
    have := congrArg (fun w => noisyGram base σ s l X *ᵥ w) hz
    simpa [hP, Matrix.mulVec_mulVec, Matrix.mul_nonsing_inv _ hp.det_pos.ne'.isUnit] using this
  exact hc (congrFun hY 0)

/-- C38: `neg_log_pseudo_l_loocv` always expects one lengthscale per dimension; a vector with a
single lengthscale for several dimensions is rejected. -/
theorem C38_single_lengthscale_fails {n d : ℕ} {name : String} (hb : name ∈ baseNames)
    (hd : d ≠ 1) (X : Fin n → Point d) (Y μ : Fin n → ℝ) (fix : Bool) (σ s a : ℝ) :
    negLogPseudoLLoocv (.vec X) Y ((hypVector fix σ s [a]).map Flt.fin) name μ fix =
      .error .value := by
  have hcov := checkStrCov_suits (n := n) (X := .vec X) ⟨hb, .inl ⟨rfl, X, rfl⟩⟩
  have hbase : name ∈ ALLOWED_COV_BASE := by
    simp only [baseNames, List.mem_cons, List.not_mem_nil, or_false] at hb
    obtain rfl | rfl | rfl | rfl := hb <;> decide
  have hr : ∃ τ : ℝ, restoreHyps name ((hypVector fix σ s [a]).map Flt.fin) (fix_noise := fix) =
      .ok ⟨some (.flt (.fin τ)), none, some (.flt (.fin s)), some (.arr [.fin a])⟩ := by
    cases fix
    · refine ⟨σ, ?_⟩
      refine Eq.trans ?_ (restore_vec hb false σ s [a])
      simp [restoreHyps]
    · exact ⟨GP_NOISE, restore_vec hb true GP_NOISE s [a]⟩
  obtain ⟨τ, hr⟩ := hr
  have hd' : (1 = d) = False := by simp [eq_comm, hd]
  simp only [negLogPseudoLLoocv, hcov, hr, getKernelInverse, noisyCov, covMain, pyAssert,
    base_allowed' hb, hbase, validateHypsDict, validateNoise, validateDof, validLengthscales, hd',
    bind, Except.bind, pure, Except.pure, if_true, not_true, if_false, List.length_singleton,
    Bool.not_true, Bool.false_eq_true, decide_false, Bool.not_false]

example : Suits "matern32" "matern32" exTrain3 ∧ Describes exHyps 0 2 (fun _ : Fin 1 => 3) :=
  ⟨exTrain3_suits, exHyps_describes⟩

end Verif.Props
