import Verif.Spec.StudentRuns
import Verif.Lemmas.EndToEndMore
import Verif.Lemmas.StudentChoices

/-! # Steps with the Student-t process (lemmas for C152) -/

namespace Verif.Lemmas

open Verif.Spec Verif.Covariance Verif.UtilsCovariance Verif.Acquisition Verif.Constants
  Verif.BoCommon Verif.Gp
open Matrix hiding gram

variable {n d : ℕ}

/-- The misfit of values of a function is at most the square of its norm. -/
theorem misfit_le_norm {base : String} {σ s : ℝ} {l : Fin d → ℝ} {D : Set (Point d)}
    {x : Fin n → Point d} (hx : ∀ i, x i ∈ D) {g : Point d → ℝ} {B : ℝ}
    (hg : NormAtMostOn D base s l B g) :
    misfit (noisyGram base σ s l (.vec x)) (fun i => g (x i)) ≤ B ^ 2 := by
  have hτ : (0 : ℝ) < σ ^ 2 + 1 / 100000 := by positivity
  set τ := σ ^ 2 + 1 / 100000 with hτd
  set K := noisyGram base σ s l (.vec x) with hK
  have hp : K.PosDef := noisyGram_posDef base σ s l (.vec x)
  set y : Fin n → ℝ := fun i => g (x i) with hy
  set c := K⁻¹ *ᵥ y with hc
  have hKc : K *ᵥ c = y := by
    rw [hc, mulVec_mulVec, mul_nonsing_inv _ hp.det_pos.ne'.isUnit, one_mulVec]
  set Q := ∑ i, ∑ j, c i * kernel base s l (x i) (x j) * c j with hQ
  have hβ : misfit K y = Q + τ * ∑ i, c i ^ 2 := by
    have h1 : misfit K y = c ⬝ᵥ (K *ᵥ c) := by
      rw [hKc, misfit, dotProduct_comm]
    rw [h1, hK, noisyGram, add_mulVec, dotProduct_add, smul_mulVec, one_mulVec, dotProduct_smul]
    congr 1
    · simp only [hQ, dotProduct, mulVec, gram, item, itemKernel_one, Matrix.of_apply,
        Finset.mul_sum, mul_assoc]
    · simp only [dotProduct, smul_eq_mul, ← sq]
      rw [hτd]
  have hβ' : misfit K y = ∑ i, c i * g (x i) := by
    rw [misfit, ← hc, dotProduct_comm, dotProduct]
  have hQ0 : 0 ≤ Q := by
    have := (gram_posSemidef base s l (.vec x)).dotProduct_mulVec_nonneg c
    rw [hQ]
    simpa only [star_trivial, dotProduct, mulVec, gram, item, itemKernel_one, Matrix.of_apply,
      Finset.mul_sum, mul_assoc] using this
  have h1 := hg.2 n x hx c
  rw [← hQ, ← hβ'] at h1
  have hW : 0 ≤ τ * ∑ i, c i ^ 2 := by positivity
  have s1 := Real.sq_sqrt hQ0
  have h2 := (le_abs_self _).trans h1
  have h3 := Real.sqrt_nonneg Q
  nlinarith [sq_nonneg (B - √Q)]

/-- The fit of a minimiser that keeps to `H`. -/
theorem student_fit_in {H : Set (ℝ × ℝ × (Fin d → ℝ))}
    (hH : ∀ ν s l, (ν, s, l) ∈ H → 2 < ν ∧ ∀ k, l k ≠ 0) {ard : Bool}
    {mn : Minimize} (hmn : FitsInStudent H ard mn) {name : String} (hb : name ∈ baseNames)
    {X : Fin n → Point d} {Y : Fin n → ℝ} {prior : PriorMu d} {method : String}
    {K P : Matrix (Fin n) (Fin n) ℝ} {h : HypDict}
    (hf : Tp.getOptimizedKernel mn (.vec X) Y prior name method ard true = .ok (K, P, h)) :
    ∃ ν s, ∃ l : Fin d → ℝ, (ν, s, l) ∈ H ∧ DescribesStudent h ν (1 / 100) s l ∧
      K = noisyGram name (1 / 100) s l (.vec X) ∧ P = (noisyGram name (1 / 100) s l (.vec X))⁻¹ := by
  obtain ⟨μ, h0, v0, mt, bounds, jac, v, hr, w, -, -, -, h4, h5, hval, h6⟩ := tpFit_trace hf
  obtain ⟨ν, s, l, v', hsl, rfl, hv⟩ := hmn _ _ _ _ _ _ h4
  have hg : GP_NOISE = 1 / 100 := by norm_num [GP_NOISE]
  obtain ⟨hν, hl⟩ := hH _ _ _ hsl
  have hal : name ∈ ALLOWED_COV := suits_allowed (vec_suits hb X)
  have hcov' : name ∈ getListFirst := Props.listFirst_eq ▸ hal
  obtain ⟨σ', s', l', hd'⟩ := getKernelInverse_describes h6
  have hd : DescribesStudent h ν (1 / 100) s l := by
    rw [← hg]
    rcases hv with ⟨rfl, rfl⟩ | ⟨rfl, a, ha, rfl⟩
    · obtain ⟨v, h1, -, h3⟩ := Props.C19_dict_round_trip name hal
        { noise := some (.flt (.fin GP_NOISE)), dof := some (.flt (.fin ν)), signal := some (.flt (.fin s)),
          lengthscales := some (.arr (List.ofFn fun k => .fin (l k))) } false true true d
        ⟨⟨_, rfl⟩, ⟨_, rfl⟩, by simp, by simp⟩
      simp [convertHyps, pyAssert, hal, hcov', getKey, HVal.scalar, bind,
        Except.bind, pure, Except.pure] at h1
      rw [h1, h3 (.fin GP_NOISE)] at h5
      have h5 := Except.ok.inj h5
      simp only [if_true] at h5
      have hdof : hr.dof = some (.flt (.fin ν)) := by rw [← h5]
      obtain rfl := validate_same hval hd'.noise hdof hν
      subst h5
      exact ⟨⟨rfl, rfl, .inl rfl, hl⟩, rfl, hν⟩
    · simp [restoreHyps, pyAssert, hal, hcov', pyIndex, bind,
        Except.bind, pure, Except.pure] at h5
      have hdof : hr.dof = some (.flt (.fin ν)) := by rw [← h5]
      obtain rfl := validate_same hval hd'.noise hdof hν
      subst h5
      have ha0 : a ≠ 0 := by
        rcases hd'.lengthscales with h | ⟨b, hb0, -, h⟩
        · simp at h
        · simp only [Option.some.injEq, HVal.flt.injEq, Flt.fin.injEq] at h
          rwa [h]
      exact ⟨⟨rfl, rfl, .inr ⟨a, ha0, ha, rfl⟩, hl⟩, rfl, hν⟩
  have h7 := getKernelInverse_ok (vec_suits hb X) hd.describes true
  rw [h6] at h7
  simp only [Except.ok.injEq, Prod.mk.injEq] at h7
  exact ⟨ν, s, l, hsl, hd, h7.1, h7.2.1⟩

/-- What a step of a Student-t process minimises: a continuous function, minus ten times the score by
the acquisition function. -/
theorem tp_scores {bo : BoWTp.BOwTP d} (hcov : bo.str_cov ∈ baseNames)
    (hacq : bo.str_acq ∈ ALLOWED_BO_ACQ) {m : Point d → ℝ} (hm : PriorFunction bo.prior_mu m)
    (hmc : Continuous m) {H : Set (ℝ × ℝ × (Fin d → ℝ))}
    (hH : ∀ ν s l, (ν, s, l) ∈ H → 2 < ν ∧ ∀ k, l k ≠ 0) {o : Oracles d}
    (hfit : FitsInStudent H bo.use_ard o.fitHyps) {sm : String} {ns : ℤ} {clock : ℕ → ℝ} (hn : n ≠ 0)
    {X : Fin n → Point d} {Y : List ℝ} {st r : BoWTp.TpState × ℕ} {p : Point d}
    {info : DictInfo n d}
    (h : BoWTp.optimize bo o clock (.vec X) Y sm ns st = (r, .ok (p, info))) :
    InBox bo.range_X p ∧
    ∃ (Yt : Fin n → ℝ) (hy : HypDict) (ν s : ℝ) (l : Fin d → ℝ),
      (if bo.normalize_Y = true then UtilsBo.normalizeMinMax Y else .ok Y) =
        .ok (List.ofFn Yt) ∧
      (ν, s, l) ∈ H ∧ DescribesStudent hy ν (1 / 100) s l ∧
      r.1.historical_hyps = st.1.historical_hyps ++ [hy] ∧
      ∃ fa, UtilsBo.chooseFunAcquisition bo.str_acq (some (1 / 100)) = .ok fa ∧
      ∃ (f : Point d → Py Flt) (g : Point d → ℝ), Continuous g ∧ (∀ q, f q = .ok (.fin (g q))) ∧
        candidates bo.toBaseBO o f sm ns = .ok info.next_points ∧ p ∈ info.next_points ∧
        (∀ q ∈ info.next_points, g p ≤ g q) ∧
        ∀ q z, ∃ ν' mu sd S v v', Tp.predictWithHyps (.vec X) Yt (.vec ![q, z]) hy
          bo.str_cov bo.prior_mu = .ok (ν', mu, sd, S) ∧
          fa (List.ofFn mu) (List.ofFn sd) (List.ofFn Yt) = .ok [v, v'] ∧ g q = -(10 * v) ∧
          g z = -(10 * v') := by
  obtain ⟨st, t⟩ := st
  obtain ⟨-, -, -, -, -, hnorm, Yt, fit, h2, hfi, h3, hr, h4, h5, -⟩ := tp_optimize_ok h
  obtain ⟨-, hY⟩ := column_ok h2
  refine ⟨h5, ?_⟩
  obtain ⟨K, P, hy⟩ := fit
  obtain ⟨ν, s, l, hsl, hd, hK, hP⟩ := student_fit_in hH hfit hcov h3
  have hYne : List.ofFn Yt ≠ [] := by simpa [List.ofFn_eq_nil_iff] using hn
  set c := (ν - 2 + (Yt - fun i => m (X i)) ⬝ᵥ (P *ᵥ (Yt - fun i => m (X i)))) / (ν - 2 + n) with hcd
  obtain ⟨a, hc, -, fa, hfa, hv⟩ := objective_of_post hacq (e := 1 / 100) (fun _ => by norm_num) hYne
    (m := meanAt bo.str_cov s l X P (fun i => Yt i - m (X i)) m)
    (s := fun x => √(max (c * varAt bo.str_cov s l X P x) 0)) (fun x => Real.sqrt_nonneg _)
  have hca : Continuous a := hc (continuous_meanAt _ _ _ _ _ _ hmc)
    (Real.continuous_sqrt.comp ((continuous_const.mul (continuous_varAt ..)).max continuous_const))
  have hpred : ∀ pts : List (Point d), ∃ S,
      Tp.predictWithCov (.vec X) Yt (.vec pts.get) K P hy bo.str_cov bo.prior_mu =
        .ok (ν + n, fun j => meanAt bo.str_cov s l X P (fun i => Yt i - m (X i)) m (pts.get j),
          fun j => √(max (c * varAt bo.str_cov s l X P (pts.get j)) 0), S) := fun pts => by
    obtain ⟨S, hSd, hS⟩ := predictWithCov_at hcov X Yt pts.get K P hd.describes hm
    obtain ⟨μ, c', e1, e2, e3⟩ := (Props.C39_predict_with_cov (.vec X) Yt (.vec pts.get) K P hy
      bo.str_cov bo.prior_mu hd.more hd.dof).2 _ _ _ hS
    rw [hm n X] at e1
    obtain rfl := Except.ok.inj e1
    have : c' = c := e2
    subst this
    simp only [hSd] at e3
    exact ⟨_, e3⟩
  have hobj : ∀ q, onePoint (BoWTp.negAcquisition bo (.vec X) Yt (K, P, hy)) q =
      .ok (.fin (-a q)) := by
    intro q
    obtain ⟨S, hS⟩ := hpred [q]
    obtain ⟨v, e1, e2⟩ := hv [q]
    have hm := ofFn_get_map (meanAt bo.str_cov s l X P (fun i => Yt i - m (X i)) m) [q]
    have hsd := ofFn_get_map (fun x => √(max (c * varAt bo.str_cov s l X P x) 0)) [q]
    simp only [onePoint, BoWTp.negAcquisition, BoWTp.computeAcquisitions, BoWTp.computePosteriors,
      Gp.validateCommonArgs, noiseArg_describes hd.describes, hfa, hS, hm, hsd, e1, e2, bind,
      Except.bind, pure, Except.pure, pyIndex]
    simp
  obtain ⟨hcand, -⟩ := acq_candidates h4
  obtain ⟨G, hG, k, hbest⟩ := optimizeAcq_ok h4
  have hbest' := firstLowest_of_firstBest (v := fun q => -a q)
    (fun q hq => (Except.ok.inj ((hG q hq).symm.trans (hobj q)))) hbest
  refine ⟨Yt, hy, ν, s, l, ?_, hsl, hd, by rw [hr], fa, hfa, _, fun q => -a q, hca.neg,
    hobj, hcand, List.mem_of_getElem? hbest'.1, hbest'.2.1, fun p z => ?_⟩
  · rw [hY, ← hnorm]
  obtain ⟨S, hS⟩ := hpred [p, z]
  obtain ⟨v, e1, e2⟩ := hv [p, z]
  have hm' := ofFn_get_map (meanAt bo.str_cov s l X P (fun i => Yt i - m (X i)) m) [p, z]
  have hsd := ofFn_get_map (fun x => √(max (c * varAt bo.str_cov s l X P x) 0)) [p, z]
  have hget : ([p, z] : List (Point d)).get = ![p, z] := by
    funext i
    fin_cases i <;> rfl
  have hhy : Tp.predictWithHyps (.vec X) Yt (.vec ![p, z]) hy bo.str_cov bo.prior_mu =
      Tp.predictWithCov (.vec X) Yt (.vec ([p, z] : List (Point d)).get) K P hy bo.str_cov bo.prior_mu := by
    rw [hK, hP, hget]
    simp only [Tp.predictWithHyps, validateCommonArgs_suits (vec_suits hcov X) (vec_suits hcov ![p, z]),
      checkStrCov_suits2 (vec_suits hcov X) (vec_suits hcov ![p, z]),
      getKernelInverse_ok (vec_suits hcov X) hd.describes, bind, Except.bind]
  obtain ⟨v1, v2, rfl⟩ : ∃ v1 v2, v = [v1, v2] := by
    have := congrArg List.length e2
    simp only [List.length_map, List.length_cons, List.length_nil] at this
    exact List.length_eq_two.1 this
  simp only [List.map_cons, List.map_nil, List.cons.injEq, and_true] at e2
  have h10 : MULTIPLIER_ACQ = 10 := by norm_num [MULTIPLIER_ACQ]
  rw [h10] at e2
  refine ⟨_, _, _, S, v1, v2, hhy.trans hS, ?_, by linarith [e2.1], by linarith [e2.2]⟩
  rw [← e1, ← hm', ← hsd]

/-- What pure exploration with the Student-t process knows when the deviation of the Gaussian process
is small at its choice. -/
theorem student_explored {base : String} (hb : base ∈ baseNames) {h : HypDict} {ν s : ℝ}
    {l : Fin d → ℝ} (hd : DescribesStudent h ν (1 / 100) s l) {prior : Gp.PriorMu d} {m f : Point d → ℝ}
    {B V W δ : ℝ} (hδ : 0 ≤ δ) {D : Set (Point d)} (hm : PriorFunction prior m)
    (hf : NormAtMostOn D base s l B (fun z => f z - m z))
    {x : Fin n → Point d} (hxD : ∀ i, x i ∈ D) {p z : Point d} (hz : z ∈ D)
    (hv : postCov base (1 / 100) s l (.vec x) (.vec fun _ : Fin 1 => p) 0 0 ≤ V)
    (hW : √V ≤ W) {ν' : ℝ} {mu sd : Fin 2 → ℝ} {S} {v v' : ℝ}
    (hpr : Tp.predictWithHyps (.vec x) (fun i => f (x i)) (.vec ![p, z]) h base prior =
      .ok (ν', mu, sd, S)) (he : pureExplore (List.ofFn sd) = .ok [v, v']) (hle : v' ≤ v + δ) :
    ∃ ν' mu sd S, Tp.predictWithHyps (.vec x) (fun i => f (x i)) (.vec fun _ : Fin 1 => z) h base prior =
      .ok (ν', mu, sd, S) ∧ sd 0 ≤ √((ν - 2 + B ^ 2) / (ν - 2 + n)) * W + δ ∧
      |f z - mu 0| ≤ B * √((W + δ * √((ν - 2 + n) / (ν - 2))) ^ 2 - 1 / 100000) := by
  have hprt := PriorFunction.total hm
  have hν := hd.more
  have hn : (0 : ℝ) ≤ n := Nat.cast_nonneg n
  obtain ⟨mu1, sd1, S1, μ, c, g1, g2, g3, g4, g5⟩ := student_predicted hb hd.describes hd.more hd.dof hprt x
    (fun i => f (x i)) ![p, z]
  rw [hm n x] at g2
  obtain rfl := Except.ok.inj g2
  rw [g5] at hpr
  simp only [Except.ok.injEq, Prod.mk.injEq] at hpr
  obtain ⟨-, -, rfl, -⟩ := hpr
  obtain ⟨rfl, rfl⟩ : √c * sd1 0 = v ∧ √c * sd1 1 = v' := by
    simpa [pureExplore, List.ofFn_succ, pure, Except.pure] using he
  have hc := Real.sqrt_pos.2 g4
  have hle' : sd1 1 ≤ sd1 0 + δ / √c := by
    have : √c * sd1 1 ≤ √c * (sd1 0 + δ / √c) := by
      rw [mul_add, mul_div_cancel₀ _ hc.ne']
      exact hle
    exact le_of_mul_le_mul_left this hc
  obtain ⟨mu2, sd2, S2, k1, k2, k3⟩ := explored_of_postCov hb hd.describes hm hf hxD hz hv hW g1
    (show pureExplore (List.ofFn sd1) = .ok [sd1 0, sd1 1] by
      simp [pureExplore, List.ofFn_succ, pure, Except.pure]) hle'
  obtain ⟨mu3, sd3, S3, μ', c', j1, j2, j3, j4, j5⟩ := student_predicted hb hd.describes hd.more hd.dof hprt x
    (fun i => f (x i)) (fun _ : Fin 1 => z)
  rw [hm n x] at j2
  obtain rfl := Except.ok.inj j2
  obtain rfl : c' = c := j3.trans g3.symm
  rw [k1] at j1
  simp only [Except.ok.injEq, Prod.mk.injEq] at j1
  obtain ⟨rfl, rfl, rfl⟩ := j1
  have hmis0 := misfit_nonneg (noisyGram_posDef base (1 / 100) s l (.vec x))
    ((fun i => f (x i)) - fun i => m (x i))
  have hmis := misfit_le_norm (σ := 1 / 100) hxD hf
  have hsame : (fun i => f (x i) - m (x i)) = (fun i => f (x i)) - fun i => m (x i) := rfl
  rw [hsame] at hmis
  have hW0 : 0 ≤ W := (Real.sqrt_nonneg V).trans hW
  have h1 : √c' ≤ √((ν - 2 + B ^ 2) / (ν - 2 + n)) := by
    refine Real.sqrt_le_sqrt ?_
    rw [g3]
    exact div_le_div_of_nonneg_right (by linarith) (by linarith)
  have h2 : δ / √c' ≤ δ * √((ν - 2 + n) / (ν - 2)) := by
    rw [div_eq_mul_inv, ← Real.sqrt_inv]
    refine mul_le_mul_of_nonneg_left (Real.sqrt_le_sqrt ?_) hδ
    rw [g3, inv_div]
    exact div_le_div_of_nonneg_left (by linarith) (by linarith) (by linarith)
  refine ⟨_, _, _, _, j5, ?_, k3.trans (mul_le_mul_of_nonneg_left (Real.sqrt_le_sqrt ?_) hf.1)⟩
  · have a1 := mul_le_mul_of_nonneg_left k2 hc.le
    rw [mul_add, mul_div_cancel₀ _ hc.ne'] at a1
    have a2 := mul_le_mul_of_nonneg_right h1 hW0
    show √c' * sd2 0 ≤ _
    linarith
  · have a1 : 0 ≤ δ / √c' := div_nonneg hδ hc.le
    have a2 : (W + δ / √c') ^ 2 ≤ (W + δ * √((ν - 2 + n) / (ν - 2))) ^ 2 :=
      pow_le_pow_left₀ (by linarith) (by linarith) 2
    linarith

end Verif.Lemmas
