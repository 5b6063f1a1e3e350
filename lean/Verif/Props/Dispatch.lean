import Verif.Model.UtilsBo

/-! # C46, C57: choice of acquisition function and of acquisition optimiser -/

namespace Verif.Props

open Verif.UtilsBo Verif.Constants

/-- The documented table of acquisition functions. -/
noncomputable def acqTable (noise : Option ℝ) : List (String × Option AcqFun) :=
  [("pi", some fun m s Y => Acquisition.pi m s Y),
   ("ei", some fun m s Y => Acquisition.ei m s Y),
   ("ucb", some fun m s Y => Acquisition.ucb m s (some Y)),
   ("aei", noise.map fun v => fun m s Y => Acquisition.aei m s Y v),
   ("pure_exploit", some fun m _ _ => Acquisition.pureExploit m),
   ("pure_explore", some fun _ s _ => Acquisition.pureExplore s)]

/-- C46. Exactly the names of the table are accepted and give the function of that name
(`'aei'` only together with a noise). -/
theorem C46_accepts_iff (name : String) (noise : Option ℝ) (f : AcqFun) :
    chooseFunAcquisition name noise = .ok f ↔ (name, some f) ∈ acqTable noise := by
  by_cases h : name ∈ ALLOWED_BO_ACQ
  · have h' := h
    simp only [ALLOWED_BO_ACQ, List.mem_cons, List.not_mem_nil, or_false] at h'
    rcases h' with rfl | rfl | rfl | rfl | rfl | rfl
    case inr.inr.inr.inl =>
      cases noise <;>
        simp [chooseFunAcquisition, pyAssert, h, bind, Except.bind, pure, Except.pure, acqTable,
          eq_comm]
    all_goals
      simp [chooseFunAcquisition, pyAssert, h, bind, Except.bind, pure, Except.pure, acqTable,
        eq_comm]
  · have h' := h
    simp only [ALLOWED_BO_ACQ, List.mem_cons, List.not_mem_nil, or_false, not_or] at h'
    simp [chooseFunAcquisition, pyAssert, h, bind, Except.bind, acqTable, h']

/-- C46. Every rejection is an `AssertionError`: the "not implemented" branch is dead. -/
theorem C46_only_assertion (name : String) (noise : Option ℝ) (e : PyErr)
    (he : chooseFunAcquisition name noise = .error e) : e = .assertion := by
  by_cases h : name ∈ ALLOWED_BO_ACQ
  · have h' := h
    simp only [ALLOWED_BO_ACQ, List.mem_cons, List.not_mem_nil, or_false] at h'
    rcases h' with rfl | rfl | rfl | rfl | rfl | rfl
    case inr.inr.inr.inl =>
      cases noise <;>
        simp [chooseFunAcquisition, pyAssert, h, bind, Except.bind, pure, Except.pure] at he
      exact he.symm
    all_goals
      simp [chooseFunAcquisition, pyAssert, h, bind, Except.bind, pure, Except.pure] at he
  · simp [chooseFunAcquisition, pyAssert, h, bind, Except.bind] at he
    exact he.symm

/-- Concrete case of C46: names accepted with and without noise. -/
example : (∃ f, chooseFunAcquisition "ei" none = .ok f) ∧
    (∀ f, chooseFunAcquisition "aei" none ≠ .ok f) ∧
    (∃ f, chooseFunAcquisition "aei" (some 1) = .ok f) := by
  simp [C46_accepts_iff, acqTable]

/-- What can be run: DIRECT and CMA-ES need their packages, CMA-ES more than one dimension. -/
def Runnable (env : Installed) (dim : ℕ) (name : String) : Prop :=
  name = "L-BFGS-B" ∨ name = "random_search" ∨ (name = "DIRECT" ∧ env.direct = true) ∨
    (name = "CMA-ES" ∧ env.cma = true ∧ dim ≠ 1)

/-- C57. The call fails exactly for names that are not allowed. -/
theorem C57_fails_iff (env : Installed) (name : String) (dim : ℕ) (e : PyErr) :
    checkOptimizerMethodBo env name dim = .error e ↔
      name ∉ ["L-BFGS-B", "DIRECT", "CMA-ES", "random_search"] ∧ e = .assertion := by
  by_cases h : name ∈ ALLOWED_OPTIMIZER_METHOD_BO ++ ALLOWED_OPTIMIZER_METHOD_BO_TREES
  · have h' : name ∈ ["L-BFGS-B", "DIRECT", "CMA-ES", "random_search"] := h
    simp only [checkOptimizerMethodBo, pyAssert, h, if_true, bind, Except.bind, pure, Except.pure,
      h', not_true, false_and, iff_false]
    split_ifs <;> simp
  · have h' : name ∉ ["L-BFGS-B", "DIRECT", "CMA-ES", "random_search"] := h
    simp only [checkOptimizerMethodBo, pyAssert, h, if_false, bind, Except.bind, h',
      not_false_eq_true, true_and, Except.error.injEq]
    exact eq_comm

/-- C57. A runnable request is returned as it is; otherwise the answer is `'L-BFGS-B'`. The
answer is always runnable. -/
theorem C57_fallback (env : Installed) (name res : String) (dim : ℕ)
    (h : checkOptimizerMethodBo env name dim = .ok res) :
    Runnable env dim res ∧ (Runnable env dim name → res = name) ∧
      (¬ Runnable env dim name → res = "L-BFGS-B") := by
  have hmem : name ∈ ["L-BFGS-B", "DIRECT", "CMA-ES", "random_search"] := by
    by_contra hc
    rw [(C57_fails_iff env name dim .assertion).2 ⟨hc, rfl⟩] at h
    cases h
  have hm : name ∈ ALLOWED_OPTIMIZER_METHOD_BO ++ ALLOWED_OPTIMIZER_METHOD_BO_TREES := hmem
  simp only [checkOptimizerMethodBo, pyAssert, hm, if_true, bind, Except.bind, pure,
    Except.pure] at h
  simp only [List.mem_cons, List.not_mem_nil, or_false] at hmem
  obtain ⟨d, c⟩ := env
  rcases hmem with rfl | rfl | rfl | rfl <;> cases d <;> cases c <;> by_cases hd : dim = 1 <;>
    simp [hd] at h <;> subst h <;> simp [Runnable, hd]

/-- Concrete case of C57. -/
example : checkOptimizerMethodBo ⟨true, true⟩ "CMA-ES" 1 = .ok "L-BFGS-B" ∧
    checkOptimizerMethodBo ⟨true, true⟩ "CMA-ES" 2 = .ok "CMA-ES" := ⟨rfl, rfl⟩

end Verif.Props
