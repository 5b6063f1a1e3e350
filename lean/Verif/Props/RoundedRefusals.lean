import Verif.Props.RoundedTpLikelihood
import Verif.Model.RoundedTpStep
import Verif.Props.Checks

/-! # C127, C129, C156, C158, C159, C161, C162: names the rounded functions refuse

Input arrays are of rank 2. A covariance function for sets asks for rank 3 and is refused with an
`AssertionError`; a name that is unknown is refused with a `ValueError`.
-/

namespace Verif.Props

open Verif.Spec Verif.Covariance Verif.UtilsCovariance Verif.Rounded Verif.RoundedPredict Verif.Gp

/-- What a function for inputs of rank 2 raises, given a name that is none of the covariance functions for
vectors. -/
def rankTwoRefusal (name : String) : PyErr :=
  if name ∈ ["set_eq", "set_se", "set_matern32", "set_matern52"] then .assertion else .value

theorem refused_name {name : String} (hn : name ∉ baseNames) (r : Option ℕ) :
    checkStrCov name 2 r = .error (rankTwoRefusal name) := by
  have hb : name ∉ ["eq", "se", "matern32", "matern52"] := hn
  rw [C66_check_str_cov, requiredRank, if_neg hb, rankTwoRefusal]
  by_cases hs : name ∈ ["set_eq", "set_se", "set_matern32", "set_matern52"] <;> simp [hs]

section

variable {fl ex lg gm : ℝ → ℝ} {n m d : ℕ} {o o' : SumOrder} {mm : MatMul} {name : String}

/-- C127: the kernel matrix. -/
theorem C127_refuses (hn : name ∉ baseNames) (X : Fin n → Point d) (h : HypDict) :
    RoundedKernels.kernelMatrix fl ex o X h name = .error (rankTwoRefusal name) := by
  simp only [RoundedKernels.kernelMatrix, refused_name hn, bind, Except.bind]
  rfl

/-- C129: predictions of the Gaussian process. -/
theorem C129_refuses (hn : name ∉ baseNames) (X : Fin n → Point d) (Y : Fin n → ℝ) (Xs : Fin m → Point d)
    (K V : Matrix (Fin n) (Fin n) ℝ) (h : HypDict) (μ : PriorMu d) :
    RoundedPredict.predictWithCov fl ex o mm X Y Xs K V h name μ = .error (rankTwoRefusal name) := by
  simp only [RoundedPredict.predictWithCov, validateCommonArgs, refused_name hn, bind, Except.bind]

/-- C159: predictions of the Student-t process. -/
theorem C159_refuses (hn : name ∉ baseNames) (X : Fin n → Point d) (Y : Fin n → ℝ) (Xs : Fin m → Point d)
    (K V : Matrix (Fin n) (Fin n) ℝ) (h : HypDict) (μ : PriorMu d) :
    RoundedTp.predictWithCov fl ex o mm X Y Xs K V h name μ = .error (rankTwoRefusal name) := by
  simp only [RoundedTp.predictWithCov, validateCommonArgs, refused_name hn, bind, Except.bind]

/-- C156: the likelihood of the Gaussian process. -/
theorem C156_refuses {chol : Matrix (Fin n) (Fin n) ℝ → Py (Matrix (Fin n) (Fin n) ℝ)}
    {solve : Matrix (Fin n) (Fin n) ℝ → (Fin n → ℝ) → Fin n → ℝ} (hn : name ∉ baseNames)
    (X : Fin n → Point d) (Y μ : Fin n → ℝ) (v : List Flt) (ard fix : Bool) :
    RoundedLikelihood.negLogMl fl ex lg o o' mm chol solve X Y v name μ ard fix =
      .error (rankTwoRefusal name) := by
  simp only [RoundedLikelihood.negLogMl, refused_name hn, bind, Except.bind]

/-- C162: the likelihood of the Student-t process. -/
theorem C162_refuses {inv : Matrix (Fin n) (Fin n) ℝ → Py (Matrix (Fin n) (Fin n) ℝ)}
    {sld : Matrix (Fin n) (Fin n) ℝ → ℝ × ℝ} (hn : name ∉ baseNames) (X : Fin n → Point d)
    (Y μ : Fin n → ℝ) (v : List Flt) (ard fix : Bool) :
    RoundedTpLikelihood.negLogMl fl ex lg gm o mm inv sld X Y v name μ ard fix =
      .error (rankTwoRefusal name) := by
  simp only [RoundedTpLikelihood.negLogMl, refused_name hn, bind, Except.bind]

/-- C158: the fit of the Gaussian process, before anything is optimised. -/
theorem C158_refuses {lib : RoundedStep.Library n} (hn : name ∉ baseNames) (min : Minimize)
    (X : Fin n → Point d) (Y : Fin n → ℝ) (μ : PriorMu d) (method selection : String) (ard fix : Bool) :
    RoundedStep.getOptimizedKernel lib min X Y μ name method selection ard fix =
      .error (rankTwoRefusal name) := by
  simp only [RoundedStep.getOptimizedKernel, refused_name hn, bind, Except.bind]

/-- C161: the fit of the Student-t process, before anything is optimised. -/
theorem C161_refuses {lib : RoundedStep.Library n} {nll : List Flt → Py ℝ} (hn : name ∉ baseNames)
    (min : Minimize) (X : Fin n → Point d) (μ : PriorMu d) (method : String) (ard fix : Bool) :
    RoundedTpStep.getOptimizedKernel lib nll min X μ name method ard fix =
      .error (rankTwoRefusal name) := by
  simp only [RoundedTpStep.getOptimizedKernel, refused_name hn, bind, Except.bind]

end

/-- Names these theorems are about: a covariance function for sets and an unknown one. -/
example : "set_se" ∉ baseNames ∧ rankTwoRefusal "set_se" = .assertion ∧ "cosine" ∉ baseNames ∧
    rankTwoRefusal "cosine" = .value := by
  refine ⟨?_, ?_, ?_, ?_⟩ <;> simp [baseNames, rankTwoRefusal]

/-- A likelihood asked for with the covariance function for sets, and with an unknown one. -/
example (X : Fin 2 → Point 1) (Y : Fin 2 → ℝ) :
    RoundedTpLikelihood.negLogMl id Real.exp Real.log Real.Gamma (.entry 0) (fun A B => A * B) npInv slogdet X Y
        [.fin 5, .fin 1, .fin 1] "set_se" 0 true true = .error .assertion ∧
      RoundedTpLikelihood.negLogMl id Real.exp Real.log Real.Gamma (.entry 0) (fun A B => A * B) npInv slogdet X Y
        [.fin 5, .fin 1, .fin 1] "cosine" 0 true true = .error .value := by
  constructor <;> rw [C162_refuses (by simp [baseNames])] <;> simp [rankTwoRefusal]

end Verif.Props
