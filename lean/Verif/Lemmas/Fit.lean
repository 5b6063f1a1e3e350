import Verif.Spec.Fit
import Verif.Lemmas.StepTotalOthers

/-! What a successful fit of the hyperparameters returned. -/

namespace Verif.Lemmas

open Verif.Spec Verif.UtilsCovariance Verif.Covariance Verif.Constants Verif.Gp

variable {n d : ℕ}

theorem finiteNonzero_ok {x : Flt} {a : ℝ} (h : finiteNonzero x = .ok a) : x = .fin a ∧ a ≠ 0 := by
  obtain ⟨b, h1, h2⟩ := py_bind_ok h
  cases x with
  | fin c =>
    obtain rfl := Except.ok.inj h1
    by_cases hc : c = 0
    · rw [if_pos hc] at h2; cases h2
    · rw [if_neg hc] at h2
      obtain rfl := Except.ok.inj h2
      exact ⟨rfl, hc⟩
  | _ => cases h1

theorem mapM_finiteNonzero_inv {l : List Flt} {r : List ℝ} (h : l.mapM finiteNonzero = .ok r) :
    l = r.map Flt.fin ∧ ∀ a ∈ r, a ≠ 0 := by
  induction l generalizing r with
  | nil =>
    obtain rfl := Except.ok.inj h
    simp
  | cons x t ih =>
    rw [List.mapM_cons] at h
    obtain ⟨a, h1, h⟩ := py_bind_ok h
    obtain ⟨s, h2, h⟩ := py_bind_ok h
    obtain rfl := Except.ok.inj h
    obtain ⟨rfl, ha⟩ := finiteNonzero_ok h1
    obtain ⟨rfl, hs⟩ := ih h2
    exact ⟨by simp, by simpa using ⟨ha, hs⟩⟩

theorem numKey_inv {v : Option HVal} {a : ℝ} (h : numKey v = .ok a) : v = some (.flt (.fin a)) := by
  obtain ⟨w, h1, h2⟩ := py_bind_ok h
  cases v with
  | none => cases h1
  | some u =>
    obtain rfl := Except.ok.inj h1
    cases u with
    | flt x =>
      cases x with
      | fin b => exact congrArg (fun t => some (HVal.flt (.fin t))) (Except.ok.inj h2)
      | _ => cases h2
    | _ => cases h2

theorem lengthscalesKey_inv {v : Option HVal} {L : Lengthscales d}
    (h : lengthscalesKey d v = .ok L) : ∃ l : Fin d → ℝ, (∀ k, l k ≠ 0) ∧
      (v = some (.arr (List.ofFn fun k => .fin (l k))) ∨
        ∃ a, a ≠ 0 ∧ (∀ k, l k = a) ∧ v = some (.flt (.fin a))) := by
  obtain ⟨w, h1, h2⟩ := py_bind_ok h
  cases v with
  | none => cases h1
  | some u =>
    obtain rfl := Except.ok.inj h1
    cases u with
    | flt x =>
      obtain ⟨a, h3, -⟩ := py_bind_ok h2
      obtain ⟨rfl, ha⟩ := finiteNonzero_ok h3
      exact ⟨fun _ => a, fun _ => ha, .inr ⟨a, ha, fun _ => rfl, rfl⟩⟩
    | arr l =>
      obtain ⟨r, h3, h4⟩ := py_bind_ok h2
      obtain ⟨rfl, hr⟩ := mapM_finiteNonzero_inv h3
      by_cases hl : r.length = d
      · subst hl
        refine ⟨r.get, fun k => hr _ (List.get_mem r k), .inl ?_⟩
        congr 2
        conv_lhs => rw [← List.ofFn_get r]
        rw [List.map_ofFn]
        rfl
      · rw [dif_neg hl] at h4; cases h4
    | other => cases h2

/-- Validation keeps the signal and the lengthscales. -/
theorem validate_keeps {h h' : HypDict} {name : String} {gp : Bool}
    (hv : (validateHypsDict h name d gp).2 = .ok h') :
    h'.signal = h.signal ∧ h'.lengthscales = h.lengthscales ∧
      (∀ x, h'.noise = some (.flt (.fin x)) → h.noise = h'.noise) ∧
      (gp = true → h'.dof = h.dof) := by
  have hcov : name ∈ ALLOWED_COV := by
    by_contra hn
    rw [validateHypsDict, if_pos hn] at hv
    cases hv
  obtain ⟨h1, e1, e2, -, -⟩ := (Props.validate_ok_iff h h' name d gp hcov).1 hv
  obtain ⟨x, ex, rfl⟩ := (Props.validateNoise_some h h1).1 e1
  have hx : ∀ y : ℝ, (some (HVal.flt (if x = .pinf ∨ x = .ninf then .pinf else x)) =
      some (.flt (.fin y))) → h.noise = some (.flt (if x = .pinf ∨ x = .ninf then .pinf else x)) := by
    intro y hy
    rw [ex]
    split at hy
    · cases hy
    · next hb => rw [if_neg hb]
  rcases (Props.validateDof_some _ _ _).1 e2 with ⟨rfl, rfl⟩ | ⟨rfl, y, hy, rfl⟩
  · exact ⟨rfl, rfl, hx, fun _ => rfl⟩
  · exact ⟨rfl, rfl, hx, fun h => by cases h⟩

/-- A dictionary for which the kernel matrix could be computed holds usable numbers. -/
theorem noisyCov_describes {X : Inputs n d} {h : HypDict} {name : String}
    {K : Matrix (Fin n) (Fin n) ℝ} (hk : noisyCov X h name = .ok K) :
    ∃ σ s, ∃ l : Fin d → ℝ, Describes h σ s l := by
  obtain ⟨C, h1, h2⟩ := py_bind_ok hk
  obtain ⟨σ, h3, -⟩ := py_bind_ok h2
  have : ∃ (nm : String) (h' : HypDict) (L : Lengthscales d) (s : ℝ),
      (validateHypsDict h nm d).2 = .ok h' ∧ lengthscalesKey d h'.lengthscales = .ok L ∧
      numKey h'.signal = .ok s := by
    unfold covMain at h1
    obtain ⟨_, -, h1⟩ := py_bind_ok h1
    obtain ⟨_, -, h1⟩ := py_bind_ok h1
    simp only at h1
    split at h1
    · cases X with
      | vec x =>
        obtain ⟨h', e1, h1⟩ := py_bind_ok h1
        obtain ⟨_, -, h1⟩ := py_bind_ok h1
        obtain ⟨L, e2, h1⟩ := py_bind_ok h1
        obtain ⟨s, e3, h1⟩ := py_bind_ok h1
        exact ⟨name, h', L, s, e1, e2, e3⟩
      | set p x => cases h1
    · split at h1
      · obtain ⟨nm, -, h1⟩ := py_bind_ok h1
        cases X with
        | vec x => cases h1
        | set p x =>
          obtain ⟨h', e1, h1⟩ := py_bind_ok h1
          obtain ⟨L, e2, h1⟩ := py_bind_ok h1
          obtain ⟨s, e3, h1⟩ := py_bind_ok h1
          exact ⟨nm, h', L, s, e1, e2, e3⟩
      · cases h1
  obtain ⟨nm, h', L, s, e1, e2, e3⟩ := this
  obtain ⟨k1, k2, -⟩ := validate_keeps e1
  rw [k2] at e2
  rw [k1] at e3
  obtain ⟨l, l1, l2⟩ := lengthscalesKey_inv e2
  exact ⟨σ, s, l, numKey_inv h3, numKey_inv e3, l2, l1⟩

theorem getKernelInverse_describes {X : Inputs n d} {h : HypDict} {name : String} {fix ug : Bool} {r}
    (hk : getKernelInverse X h name fix ug = .ok r) : ∃ σ s, ∃ l : Fin d → ℝ, Describes h σ s l := by
  obtain ⟨_, -, hk⟩ := py_bind_ok hk
  obtain ⟨K, h1, -⟩ := py_bind_ok hk
  exact noisyCov_describes h1

/-- What a fit of a Gaussian process went through. -/
theorem gpFit_trace {m : Minimize} {X : Inputs n d} {Y : Fin n → ℝ} {prior : PriorMu d}
    {name method ms : String} {ard fix : Bool} {K P : Matrix (Fin n) (Fin n) ℝ} {h : HypDict}
    (hf : getOptimizedKernel m X Y prior name method ms ard fix = .ok (K, P, h)) :
    ∃ μ h0 v0 mt bounds jac v w, ∃ ug : Bool, (ug = true → name ∈ baseNames) ∧
      getPriorMu prior X = .ok μ ∧
      getHyps name d true ard = .ok h0 ∧ convertHyps name h0 true fix = .ok v0 ∧
      m mt (if ms = "ml" then fun hyps => negLogMl X Y hyps name μ ard fix true ug
        else fun hyps => do
          let v ← negLogPseudoLLoocv X Y hyps name μ fix
          return (v, none)) v0 bounds jac = .ok v ∧
      restoreHyps name v true ard fix = .ok h ∧ getKernelInverse X h name fix = .ok (K, P, w) := by
  unfold getOptimizedKernel at hf
  obtain ⟨_, -, hf⟩ := py_bind_ok hf
  obtain ⟨_, -, hf⟩ := py_bind_ok hf
  obtain ⟨_, -, hf⟩ := py_bind_ok hf
  obtain ⟨μ, e1, hf⟩ := py_bind_ok hf
  obtain ⟨h0, e2, hf⟩ := py_bind_ok hf
  obtain ⟨v0, e3, hf⟩ := py_bind_ok hf
  have key : ∃ mt bounds jac v, m mt (if ms = "ml" then fun hyps => negLogMl X Y hyps name μ ard fix
        true (if name ∈ ALLOWED_COV_BASE then decide (method ≠ "Nelder-Mead") else false)
        else fun hyps => do
          let v ← negLogPseudoLLoocv X Y hyps name μ fix
          return (v, none)) v0 bounds jac = .ok v ∧ (do
      let hyps ← restoreHyps name v true ard fix
      let hyps ← (validateHypsDict hyps name d).2
      let (cov_X_X, inv_cov_X_X, _) ← getKernelInverse X hyps name fix
      return (cov_X_X, inv_cov_X_X, hyps)) = .ok (K, P, h) := by
    dsimp only at hf
    split at hf
    · obtain ⟨v, e4, hf⟩ := py_bind_ok hf
      exact ⟨_, _, _, v, e4, hf⟩
    split at hf
    · obtain ⟨b, -, hf⟩ := py_bind_ok hf
      obtain ⟨v, e4, hf⟩ := py_bind_ok hf
      exact ⟨_, _, _, v, e4, hf⟩
    split at hf
    · obtain ⟨v, e4, hf⟩ := py_bind_ok hf
      exact ⟨_, _, _, v, e4, hf⟩
    · obtain ⟨v, e4, hf⟩ := py_bind_ok hf
      cases e4
  obtain ⟨mt, bounds, jac, v, hm, hf⟩ := key
  obtain ⟨hr, e5, hf⟩ := py_bind_ok hf
  obtain ⟨h', e6, hf⟩ := py_bind_ok hf
  obtain ⟨⟨K', P', w⟩, e7, hf⟩ := py_bind_ok hf
  simp only [pure, Except.pure, Except.ok.injEq, Prod.mk.injEq] at hf
  obtain ⟨rfl, rfl, rfl⟩ := hf
  obtain ⟨σ, s, l, hd⟩ := getKernelInverse_describes e7
  have heq : hr = h' := by
    obtain ⟨k1, k2, k3, k4⟩ := validate_keeps e6
    have k5 := k3 σ hd.noise
    have k6 := k4 rfl
    rcases hr with ⟨a, b, c, e⟩
    rcases h' with ⟨a', b', c', e'⟩
    simp only at k1 k2 k5 k6
    rw [k1, k2, k6, k5]
  subst heq
  refine ⟨μ, h0, v0, mt, bounds, jac, v, w, _, ?_, e1, e2, e3, hm, e5, e7⟩
  intro hb
  by_contra hc
  rw [if_neg (show name ∉ ALLOWED_COV_BASE from hc)] at hb
  cases hb

/-- The gradient does not change the value. -/
theorem negLogMl_without {X : Inputs n d} {Y μ : Fin n → ℝ} {v : List Flt} {name : String}
    {ard fix : Bool} {ug : Bool} {y : ℝ} {g : Option (List ℝ)}
    (h : negLogMl X Y v name μ ard fix true ug = .ok (y, g)) :
    negLogMl X Y v name μ ard fix true false = .ok (y, none) := by
  unfold negLogMl at h ⊢
  obtain ⟨_, e1, h⟩ := py_bind_ok h
  obtain ⟨hy, e2, h⟩ := py_bind_ok h
  simp only [if_true] at h
  obtain ⟨⟨C, L, G⟩, e4, h⟩ := py_bind_ok h
  have e5 : getKernelCholesky X hy name fix false = .ok (C, L, none) := by
    unfold getKernelCholesky at e4 ⊢
    obtain ⟨_, f1, e4⟩ := py_bind_ok e4
    obtain ⟨K, f2, e4⟩ := py_bind_ok e4
    obtain ⟨⟨C', L'⟩, f3, e4⟩ := py_bind_ok e4
    simp only [f1, f2, f3, bind, Except.bind, Bool.false_eq_true, if_false, pure, Except.pure]
    cases ug with
    | false =>
      simp only [Bool.false_eq_true, if_false, pure, Except.pure, Except.ok.injEq,
        Prod.mk.injEq] at e4
      obtain ⟨rfl, rfl, -⟩ := e4
      rfl
    | true =>
      simp only [if_true] at e4
      obtain ⟨gr, -, e4⟩ := py_bind_ok e4
      simp only [pure, Except.pure, Except.ok.injEq, Prod.mk.injEq] at e4
      obtain ⟨rfl, rfl, -⟩ := e4
      rfl
  simp only [e1, e2, e5, bind, Except.bind, if_true, Bool.false_eq_true, if_false, pure, Except.pure]
  by_cases hn : n = 0
  · exfalso
    cases ug with
    | false =>
      simp only [hn, pure, Except.pure, bind, Except.bind, Bool.false_eq_true, if_false,
        if_true] at h
      cases h
    | true =>
      cases G with
      | none => simp [bind, Except.bind] at h
      | some G =>
        simp only [hn, pure, Except.pure, bind, Except.bind, if_true] at h
        cases h
  · cases ug with
    | false =>
      simp only [if_neg hn, pure, Except.pure, bind, Except.bind, Bool.false_eq_true, if_false,
        Except.ok.injEq, Prod.mk.injEq] at h ⊢
      exact ⟨h.1, rfl⟩
    | true =>
      cases G with
      | none => simp [bind, Except.bind] at h
      | some G =>
        simp only [if_neg hn, pure, Except.pure, bind, Except.bind, if_true,
          Except.ok.injEq, Prod.mk.injEq] at h ⊢
        exact ⟨h.1, rfl⟩

/-- The start of the fit. -/
theorem start_describes {name : String} (hn : name ∈ ALLOWED_COV) {ard gp : Bool} {h0 : HypDict}
    (h : getHyps name d gp ard = .ok h0) : Describes h0 GP_NOISE 1 (fun _ : Fin d => 1) ∧
      (gp = false → h0.dof = some (.flt (.fin 5))) ∧ (gp = true → h0.dof = none) := by
  have h2 : name ∈ getListFirst := Props.listFirst_eq ▸ hn
  cases ard <;> cases gp <;>
    simp [getHyps, pyAssert, hn, h2, bind, Except.bind, pure, Except.pure] at h <;> subst h
  · exact ⟨⟨rfl, rfl, .inr ⟨1, one_ne_zero, fun _ => rfl, rfl⟩, fun _ => one_ne_zero⟩, by simp⟩
  · exact ⟨⟨rfl, rfl, .inr ⟨1, one_ne_zero, fun _ => rfl, rfl⟩, fun _ => one_ne_zero⟩, by simp⟩
  · exact ⟨⟨rfl, rfl, .inl (by simp), fun _ => one_ne_zero⟩, by simp⟩
  · exact ⟨⟨rfl, rfl, .inl (by simp), fun _ => one_ne_zero⟩, by simp⟩

/-- Writing the start into a vector and reading it back. -/
theorem start_restore {name : String} (hn : name ∈ ALLOWED_COV) {ard gp fix : Bool} {h0 : HypDict}
    (h : getHyps name d gp ard = .ok h0) {v0 : List Flt}
    (hv : convertHyps name h0 gp fix = .ok v0) : restoreHyps name v0 gp ard fix = .ok h0 := by
  have h2 : name ∈ getListFirst := Props.listFirst_eq ▸ hn
  have hs : Shaped h0 gp ard d := by
    cases ard <;> cases gp <;>
      simp [getHyps, pyAssert, hn, h2, bind, Except.bind, pure, Except.pure] at h <;> subst h <;>
      exact ⟨⟨_, rfl⟩, ⟨_, rfl⟩, by simp, by simp⟩
  obtain ⟨v, e1, -, e2⟩ := Props.C19_dict_round_trip name hn h0 gp ard fix d hs
  rw [hv] at e1
  obtain rfl := Except.ok.inj e1
  rw [e2]
  have := (start_describes hn h).1.noise
  cases fix
  · rfl
  · simp only [if_true]
    rw [← this]

/-- What a fit of a Student-t process went through. -/
theorem tpFit_trace {m : Minimize} {X : Inputs n d} {Y : Fin n → ℝ} {prior : PriorMu d}
    {name method : String} {ard fix : Bool} {K P : Matrix (Fin n) (Fin n) ℝ} {h : HypDict}
    (hf : Tp.getOptimizedKernel m X Y prior name method ard fix = .ok (K, P, h)) :
    ∃ μ h0 v0 mt bounds jac v hr w, getPriorMu prior X = .ok μ ∧
      getHyps name d false ard = .ok h0 ∧ convertHyps name h0 false fix = .ok v0 ∧
      m mt (fun hyps => Tp.negLogMl X Y hyps name μ ard fix false) v0 bounds jac = .ok v ∧
      restoreHyps name v false ard fix = .ok hr ∧ (validateHypsDict hr name d false).2 = .ok h ∧
      getKernelInverse X h name fix = .ok (K, P, w) := by
  unfold Tp.getOptimizedKernel at hf
  obtain ⟨_, -, hf⟩ := py_bind_ok hf
  obtain ⟨_, -, hf⟩ := py_bind_ok hf
  obtain ⟨μ, e1, hf⟩ := py_bind_ok hf
  obtain ⟨h0, e2, hf⟩ := py_bind_ok hf
  obtain ⟨v0, e3, hf⟩ := py_bind_ok hf
  dsimp only at hf
  split at hf
  · obtain ⟨b, -, hf⟩ := py_bind_ok hf
    obtain ⟨v, e4, hf⟩ := py_bind_ok hf
    obtain ⟨hr, e5, hf⟩ := py_bind_ok hf
    obtain ⟨h', e6, hf⟩ := py_bind_ok hf
    obtain ⟨⟨K', P', w⟩, e7, hf⟩ := py_bind_ok hf
    simp only [pure, Except.pure, Except.ok.injEq, Prod.mk.injEq] at hf
    obtain ⟨rfl, rfl, rfl⟩ := hf
    exact ⟨μ, h0, v0, _, _, _, v, hr, w, e1, e2, e3, e4, e5, e6, e7⟩
  · obtain ⟨v, e4, hf⟩ := py_bind_ok hf
    cases e4

theorem suits_allowed {name base : String} {X : Inputs n d} (h : Suits name base X) :
    name ∈ ALLOWED_COV := by
  obtain ⟨hb, ⟨rfl, -⟩ | ⟨rfl, -⟩⟩ := h
  · exact base_allowed' hb
  · exact (setName hb).1

theorem suits_vec {name base : String} {X : Inputs n d} (h : Suits name base X)
    (hn : name ∈ baseNames) : ∃ x, X = .vec x := by
  obtain ⟨hb, ⟨rfl, x, rfl⟩ | ⟨rfl, -⟩⟩ := h
  · exact ⟨x, rfl⟩
  · exact absurd hn (setName hb).2.1

theorem restore_fixed {name : String} {v : List Flt} {gp ard : Bool} {h : HypDict}
    (hr : restoreHyps name v gp ard true = .ok h) : h.noise = some (.flt (.fin GP_NOISE)) := by
  unfold restoreHyps at hr
  obtain ⟨_, -, hr⟩ := py_bind_ok hr
  simp only [Bool.not_true, Bool.false_eq_true, if_false] at hr
  have tail : ∀ (i : ℕ) (D : HypDict), D.noise = some (.flt (.fin GP_NOISE)) →
      (if name ∈ getListFirst then do
        let s ← pyIndex v i
        let dict_hyps : HypDict := { D with signal := some (.flt s) }
        if ard then
          let list_lengthscales ←
            (List.range' (i + 1) (v.length - (i + 1))).mapM (pyIndex v)
          return { dict_hyps with lengthscales := some (.arr list_lengthscales) }
        else
          pyAssert (v.length = i + 2)
          let l ← pyIndex v (i + 1)
          return { dict_hyps with lengthscales := some (.flt l) }
      else .error .notImplemented) = .ok h → h.noise = some (.flt (.fin GP_NOISE)) := by
    intro i D hD ht
    split at ht
    · obtain ⟨s, -, ht⟩ := py_bind_ok ht
      dsimp only at ht
      split at ht
      · obtain ⟨_, -, ht⟩ := py_bind_ok ht
        obtain rfl := Except.ok.inj ht
        exact hD
      · obtain ⟨_, -, ht⟩ := py_bind_ok ht
        obtain ⟨_, -, ht⟩ := py_bind_ok ht
        obtain rfl := Except.ok.inj ht
        exact hD
    · cases ht
  obtain ⟨x, e1, hr⟩ := py_bind_ok hr
  obtain rfl := Except.ok.inj e1
  cases gp with
  | true =>
    simp only [Bool.not_true, Bool.false_eq_true, if_false] at hr
    obtain ⟨x, e1, hr⟩ := py_bind_ok hr
    obtain rfl := Except.ok.inj e1
    exact tail 0 { noise := some (.flt (.fin GP_NOISE)) } rfl hr
  | false =>
    simp only [Bool.not_false, if_true] at hr
    obtain ⟨a, -, hr⟩ := py_bind_ok hr
    obtain ⟨x, e1, hr⟩ := py_bind_ok hr
    obtain rfl := Except.ok.inj e1
    exact tail (0 + 1) { noise := some (.flt (.fin GP_NOISE)), dof := some (.flt a) } rfl hr

/-- The likelihood with its gradient has a value at the start. -/
theorem start_grad_total {name : String} (hb : name ∈ baseNames) (hn : n ≠ 0) (X : Fin n → Point d)
    (Y μ : Fin n → ℝ) {ard fix : Bool} {h0 : HypDict} (h : getHyps name d true ard = .ok h0)
    {v0 : List Flt} (hv : convertHyps name h0 true fix = .ok v0) :
    ∃ y g, negLogMl (.vec X) Y v0 name μ ard fix true true = .ok (y, g) := by
  have h1 := base_allowed' hb
  have h2 : name ∈ getListFirst := Props.listFirst_eq ▸ h1
  cases ard
  · obtain ⟨_, y, g, _, _, -, h3, -⟩ := Props.C37_iso_partial hb hn X Y μ fix GP_NOISE 1
      (fun _ => rfl) one_ne_zero 1 one_ne_zero
    refine ⟨y, some g, ?_⟩
    rw [← h3]
    congr 1
    simp [getHyps, pyAssert, h1, h2, bind, Except.bind, pure, Except.pure] at h
    subst h
    cases fix <;>
      simp [convertHyps, pyAssert, h1, h2, bind, Except.bind, pure, Except.pure, getKey,
        HVal.scalar] at hv <;> subst hv <;> rfl
  · obtain ⟨_, y, g, _, _, -, h3, -⟩ := Props.C37_ard_partial hb hn X Y μ fix GP_NOISE 1
      (fun _ => rfl) one_ne_zero (fun _ => 1) fun _ => one_ne_zero
    refine ⟨y, some g, ?_⟩
    rw [← h3]
    congr 1
    simp [getHyps, pyAssert, h1, h2, bind, Except.bind, pure, Except.pure] at h
    subst h
    cases fix <;>
      simp [convertHyps, pyAssert, h1, h2, bind, Except.bind, pure, Except.pure, getKey,
        HVal.scalar] at hv <;> subst hv <;> simp [Props.hypVector]

/-- The Student-t likelihood has a value only for more than two degrees of freedom. -/
theorem tpNegLogMl_dof {X : Inputs n d} {Y μ : Fin n → ℝ} {v : List Flt} {name : String}
    {ard fix ug : Bool} {h : HypDict} (hr : restoreHyps name v false ard fix = .ok h) {r}
    (hv : Tp.negLogMl X Y v name μ ard fix ug = .ok r) :
    ∃ ν, 2 < ν ∧ h.dof = some (.flt (.fin ν)) := by
  unfold Tp.negLogMl at hv
  obtain ⟨_, -, hv⟩ := py_bind_ok hv
  obtain ⟨h', e1, hv⟩ := py_bind_ok hv
  rw [hr] at e1
  obtain rfl := Except.ok.inj e1
  obtain ⟨ν, e2, hv⟩ := py_bind_ok hv
  obtain ⟨_, -, hv⟩ := py_bind_ok hv
  refine ⟨ν, ?_, numKey_inv e2⟩
  by_contra hc
  dsimp only at hv
  rw [if_pos (not_lt.1 hc)] at hv
  cases hv

theorem validate_same {h h' : HypDict} {name : String} {σ ν : ℝ}
    (hv : (validateHypsDict h name d false).2 = .ok h') (hσ : h'.noise = some (.flt (.fin σ)))
    (hd : h.dof = some (.flt (.fin ν))) (hν : 2 < ν) : h = h' := by
  obtain ⟨k1, k2, k3, -⟩ := validate_keeps hv
  have hcov : name ∈ ALLOWED_COV := by
    by_contra hn
    rw [validateHypsDict, if_pos hn] at hv
    cases hv
  obtain ⟨h1, e1, e2, -, -⟩ := (Props.validate_ok_iff h h' name d false hcov).1 hv
  obtain ⟨x, ex, rfl⟩ := (Props.validateNoise_some h h1).1 e1
  have k5 := k3 σ hσ
  rcases (Props.validateDof_some _ _ _).1 e2 with ⟨h, -⟩ | ⟨-, y, hy, rfl⟩
  · cases h
  · have : y = .fin ν := by
      simp only at hy
      rw [hd] at hy
      simpa using hy.symm
    subst this
    have : ¬ (Flt.fin ν ≤ Flt.fin 2) := by simpa using hν
    rcases h with ⟨a, b, c, e⟩
    simp only at k5 hd ⊢
    rw [if_neg this, hd, ← k5]

theorem gpFit_method {m : Minimize} {X : Inputs n d} {Y : Fin n → ℝ} {prior : PriorMu d}
    {name method ms : String} {ard fix : Bool} {r}
    (hf : getOptimizedKernel m X Y prior name method ms ard fix = .ok r) :
    method ∈ ALLOWED_OPTIMIZER_METHOD_GP := by
  unfold getOptimizedKernel at hf
  obtain ⟨_, -, hf⟩ := py_bind_ok hf
  obtain ⟨_, h, hf⟩ := py_bind_ok hf
  by_contra hn
  simp [pyAssert, hn] at h

theorem tpFit_method {m : Minimize} {X : Inputs n d} {Y : Fin n → ℝ} {prior : PriorMu d}
    {name method : String} {ard fix : Bool} {r}
    (hf : Tp.getOptimizedKernel m X Y prior name method ard fix = .ok r) :
    method ∈ ALLOWED_OPTIMIZER_METHOD_GP := by
  unfold Tp.getOptimizedKernel at hf
  obtain ⟨_, -, hf⟩ := py_bind_ok hf
  obtain ⟨_, h, hf⟩ := py_bind_ok hf
  by_cases hn : method ∈ ALLOWED_OPTIMIZER_METHOD_TP
  · simp only [ALLOWED_OPTIMIZER_METHOD_TP, List.mem_cons, List.not_mem_nil, or_false] at hn
    obtain rfl | rfl := hn <;> decide
  · simp [pyAssert, hn] at h

end Verif.Lemmas
