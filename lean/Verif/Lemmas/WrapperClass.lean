import Verif.Spec.Wrapper
import Verif.Lemmas.StepTotalOthers

/-! Construction of a `BayesianOptimization` object. -/

namespace Verif.Lemmas

open Verif.Spec Verif.BoCommon Verif.UtilsBo Verif.Constants Verif.BaseBo Verif.WrapperClass

variable {d : ℕ}

theorem optimizer_checked (env : Installed) (m : String) (dim : ℕ)
    (h : m ∈ ["L-BFGS-B", "DIRECT", "CMA-ES", "random_search"]) :
    ∃ m', checkOptimizerMethodBo env m dim = .ok m' ∧ (m = "random_search" → m' = m) ∧
      (m ≠ "random_search" → m' ∈ ALLOWED_OPTIMIZER_METHOD_BO) := by
  have h' : m ∈ ALLOWED_OPTIMIZER_METHOD_BO ++ ALLOWED_OPTIMIZER_METHOD_BO_TREES := h
  simp only [checkOptimizerMethodBo, assert_true h', bind, Except.bind]
  have hl : "L-BFGS-B" ∈ ALLOWED_OPTIMIZER_METHOD_BO := by decide
  split
  · next c => exact ⟨_, rfl, by rw [c.1]; decide, fun _ => hl⟩
  split
  · next c => exact ⟨_, rfl, by rw [c.1]; decide, fun _ => hl⟩
  split
  · next c => exact ⟨_, rfl, by rw [c.1]; decide, fun _ => hl⟩
  · refine ⟨_, rfl, fun _ => rfl, fun hne => ?_⟩
    simp only [List.mem_cons, List.not_mem_nil, or_false] at h
    rcases h with rfl | rfl | rfl | rfl
    · decide
    · decide
    · decide
    · exact (hne rfl).elim

theorem used_optimizer {env : Installed} {m m' : String}
    (h : checkOptimizerMethodBo env m d = .ok m') :
    m' = usedOptimizer env d m ∧ usedOptimizer env d m' = m' := by
  unfold checkOptimizerMethodBo at h
  obtain ⟨_, -, h⟩ := py_bind_ok h
  obtain ⟨dd, cc⟩ := env
  unfold usedOptimizer
  by_cases h1 : m = "DIRECT" <;> by_cases h2 : m = "CMA-ES" <;> cases dd <;> cases cc <;>
    by_cases hd : d = 1 <;> simp_all [pure, Except.pure] <;> subst h <;> simp_all

theorem initBase_total (env : Installed) {B : Bounds d} (hB : ∀ i, (B i).1 ≤ (B i).2)
    {sur acq mb : String} (hs : sur ∈ ALLOWED_SURROGATE ++ ALLOWED_SURROGATE_TREES)
    (ha : acq ∈ ALLOWED_BO_ACQ)
    (hm : mb ∈ ALLOWED_OPTIMIZER_METHOD_BO ++ ALLOWED_OPTIMIZER_METHOD_BO_TREES) (nY : Bool) :
    ∃ b, initBase env B sur acq mb nY = .ok b := by
  obtain ⟨m', e, -⟩ := optimizer_checked env mb d hm
  simp only [initBase, assert_true hB, assert_true hs, assert_true ha, assert_true hm, e, bind,
    Except.bind]
  exact ⟨_, rfl⟩

/-- The three ways a construction can succeed. -/
theorem create_ok {env : Installed} {a : Args d} {w : BayesianOptimization d} {st : ModelState}
    (h : create env a = .ok (w, st)) :
    ownChecks a = .ok () ∧ st = {} ∧ w.num_iter = a.num_iter ∧ w.str_surrogate = a.str_surrogate ∧
    w.str_initial_method_bo = a.str_initial_method_bo ∧
    w.str_sampling_method_ao = a.str_sampling_method_ao ∧ w.num_samples_ao = a.num_samples_ao ∧
    ∃ m', checkOptimizerMethodBo env a.str_optimizer_method_bo d = .ok m' ∧
    ((a.str_surrogate = "rf" ∧ w.str_mlm_method = none ∧ ∃ bo, w.model_bo = .trees bo ∧
        BoWTrees.init env a.range_X "rf" a.str_acq a.normalize_Y m' = .ok bo) ∨
     (a.str_surrogate = "gp" ∧ w.str_mlm_method = some a.str_mlm_method ∧ ∃ bo, w.model_bo = .gp bo ∧
        BoWGp.init env a.range_X a.str_cov a.str_acq a.normalize_Y a.use_ard a.prior_mu
          a.str_optimizer_method_gp m' a.str_modelselection_method = .ok (bo, {})) ∨
     (a.str_surrogate = "tp" ∧ w.str_mlm_method = none ∧ ∃ bo, w.model_bo = .tp bo ∧
        BoWTp.init env a.range_X a.str_cov a.str_acq a.normalize_Y a.use_ard a.prior_mu
          a.str_optimizer_method_tp m' = .ok (bo, {}))) := by
  unfold create at h
  obtain ⟨_, h1, h⟩ := py_bind_ok h
  obtain ⟨m', h2, h⟩ := py_bind_ok h
  obtain ⟨⟨mo, st'⟩, h3, h⟩ := py_bind_ok h
  obtain ⟨rfl, rfl⟩ := Prod.mk.inj (Except.ok.inj h)
  unfold getModelBo at h3
  split at h3
  · next c =>
    have c' : a.str_surrogate = "rf" := by simpa [ALLOWED_SURROGATE_TREES] using c
    obtain ⟨bo, h4, h3⟩ := py_bind_ok h3
    obtain ⟨rfl, rfl⟩ := Prod.mk.inj (Except.ok.inj h3)
    rw [c'] at h4
    refine ⟨h1, rfl, rfl, rfl, rfl, rfl, rfl, m', h2, .inl ⟨c', ?_, bo, rfl, h4⟩⟩
    simp [c']
  split at h3
  · next c' =>
    obtain ⟨⟨bo, g⟩, h4, h3⟩ := py_bind_ok h3
    obtain ⟨rfl, rfl⟩ := Prod.mk.inj (Except.ok.inj h3)
    obtain rfl := (gp_init_ok h4).1
    refine ⟨h1, rfl, rfl, rfl, rfl, rfl, rfl, m', h2, .inr (.inl ⟨c', ?_, bo, rfl, h4⟩)⟩
    simp [c']
  split at h3
  · next c' =>
    obtain ⟨⟨bo, g⟩, h4, h3⟩ := py_bind_ok h3
    obtain ⟨rfl, rfl⟩ := Prod.mk.inj (Except.ok.inj h3)
    have hg : g = {} := by
      have h4' := h4
      unfold BoWTp.init at h4'
      obtain ⟨_, -, h4'⟩ := py_bind_ok h4'
      obtain ⟨_, -, h4'⟩ := py_bind_ok h4'
      obtain ⟨_, -, h4'⟩ := py_bind_ok h4'
      obtain ⟨_, -, h4'⟩ := py_bind_ok h4'
      obtain ⟨_, -, h4'⟩ := py_bind_ok h4'
      obtain ⟨_, -, h4'⟩ := py_bind_ok h4'
      obtain ⟨_, -, h4'⟩ := py_bind_ok h4'
      exact (Prod.mk.inj (Except.ok.inj h4')).2.symm
    subst hg
    refine ⟨h1, rfl, rfl, rfl, rfl, rfl, rfl, m', h2, .inr (.inr ⟨c', ?_, bo, rfl, h4⟩)⟩
    simp [c']
  · cases h3

/-- The only exception is an `AssertionError`. -/
def OnlyAsserts {α : Type} (p : Py α) : Prop := ∀ e, p = .error e → e = .assertion

theorem OnlyAsserts.assert (p : Prop) [Decidable p] : OnlyAsserts (pyAssert p) := by
  intro e h
  unfold pyAssert at h
  split at h
  · cases h
  · exact (Except.error.inj h).symm

theorem OnlyAsserts.ok {α : Type} (a : α) : OnlyAsserts (.ok a : Py α) := by
  intro e h
  cases h

theorem OnlyAsserts.bind {α β : Type} {p : Py α} {f : α → Py β} (h : OnlyAsserts p)
    (hf : ∀ a, OnlyAsserts (f a)) : OnlyAsserts (p >>= f) := by
  intro e he
  rcases p with e' | a
  · obtain rfl := Except.error.inj he
    exact h _ rfl
  · exact hf a e he

theorem OnlyAsserts.checkOptimizer (env : Installed) (m : String) (dim : ℕ) :
    OnlyAsserts (checkOptimizerMethodBo env m dim) := by
  unfold checkOptimizerMethodBo
  refine .bind (.assert _) fun _ => ?_
  split
  · exact .ok _
  split
  · exact .ok _
  split <;> exact .ok _

theorem OnlyAsserts.initBase (env : Installed) (B : Bounds d) (sur acq mb : String) (nY : Bool) :
    OnlyAsserts (initBase env B sur acq mb nY) := by
  unfold BaseBo.initBase
  exact .bind (.assert _) fun _ => .bind (.assert _) fun _ => .bind (.assert _) fun _ =>
    .bind (.assert _) fun _ => .bind (.checkOptimizer _ _ _) fun _ => .ok _

theorem create_onlyAsserts {env : Installed} {a : Args d}
    (hs : a.str_surrogate ∈ ["gp", "tp", "rf"]) : OnlyAsserts (create env a) := by
  unfold create ownChecks
  refine .bind ?_ fun _ => .bind (.checkOptimizer _ _ _) fun m' => .bind ?_ fun _ => .ok _
  · exact .bind (.assert _) fun _ => .bind (.assert _) fun _ => .bind (.assert _) fun _ =>
      .bind (.assert _) fun _ => .bind (.assert _) fun _ => .bind (.assert _) fun _ =>
      .bind (.assert _) fun _ => .bind (.assert _) fun _ => .bind (.assert _) fun _ =>
      .bind (.assert _) fun _ => .bind (.assert _) fun _ => .bind (.assert _) fun _ => .assert _
  · unfold getModelBo
    split
    · unfold BoWTrees.init
      exact .bind (.bind (.assert _) fun _ => .bind (.assert _) fun _ => .bind (.assert _) fun _ =>
        .bind (.assert _) fun _ => .initBase _ _ _ _ _ _) fun _ => .ok _
    split
    · unfold BoWGp.init
      exact .bind (.bind (.assert _) fun _ => .bind (.assert _) fun _ => .bind (.assert _) fun _ =>
        .bind (.assert _) fun _ => .bind (.assert _) fun _ => .bind (.assert _) fun _ =>
        .bind (.assert _) fun _ => .bind (.initBase _ _ _ _ _ _) fun _ => .ok _) fun _ => .ok _
    split
    · unfold BoWTp.init
      exact .bind (.bind (.assert _) fun _ => .bind (.assert _) fun _ => .bind (.assert _) fun _ =>
        .bind (.assert _) fun _ => .bind (.assert _) fun _ => 
        .bind (.assert _) fun _ => .bind (.initBase _ _ _ _ _ _) fun _ => .ok _) fun _ => .ok _
    · next h1 h2 h3 =>
      simp only [List.mem_cons, List.not_mem_nil, or_false] at hs
      rcases hs with hs | hs | hs
      · exact (h2 hs).elim
      · exact (h3 hs).elim
      · exact (h1 (by rw [hs]; decide)).elim

end Verif.Lemmas
