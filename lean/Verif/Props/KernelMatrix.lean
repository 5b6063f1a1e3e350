import Verif.Lemmas.Kernel
import Verif.Lemmas.GradCov

/-! C30, C31: kernel matrices of training data and their factorisations. -/

namespace Verif.Props

open Verif.Spec Verif.Covariance Verif.UtilsCovariance Verif.Constants Verif.Lemmas

/-- C30: for every data set (repetitions allowed) `get_kernel_inverse` succeeds; its first
result is kernel matrix + (noise² + 1e-5)·1, its second the two-sided inverse of the first;
both are symmetric with positive quadratic forms. -/
theorem C30_inverse {n d : ℕ} {name base : String} {X : Inputs n d} (hX : Suits name base X)
    {h : HypDict} {σ s : ℝ} {l : Fin d → ℝ} (hd : Describes h σ s l) (fix_noise : Bool) :
    ∃ K Kinv : Matrix (Fin n) (Fin n) ℝ,
      getKernelInverse X h name fix_noise false = .ok (K, Kinv, none) ∧
      (∀ i j, K i j = itemKernel base s l (item X i) (item X j) +
        if i = j then σ ^ 2 + 1 / 100000 else 0) ∧
      K * Kinv = 1 ∧ Kinv * K = 1 ∧ (∀ i j, K i j = K j i) ∧ QuadPos K ∧
      (∀ i j, Kinv i j = Kinv j i) ∧ QuadPos Kinv := by
  have hp := noisyGram_posDef base σ s l X
  have hu : IsUnit (noisyGram base σ s l X).det := hp.det_pos.ne'.isUnit
  refine ⟨_, _, getKernelInverse_ok hX hd fix_noise, fun i j => ?_,
    Matrix.mul_nonsing_inv _ hu, Matrix.nonsing_inv_mul _ hu,
    noisyGram_symm base σ s l X, quadPos_of_posDef hp, fun i j => ?_, quadPos_of_posDef hp.inv⟩
  · simp [noisyGram, gram, Matrix.one_apply]
  · have := congrFun (congrFun hp.inv.isHermitian j) i
    simpa using this

/-- C30: asking for gradients as well changes neither matrix, for the kernels on points (the
set kernels have no gradient). -/
theorem C30_with_gradient {n d : ℕ} {name : String} (hn : name ∈ baseNames) (X : Fin n → Point d)
    {h : HypDict} {σ s : ℝ} {l : Fin d → ℝ} (hd : Describes h σ s l) (hs : s ≠ 0)
    (fix_noise : Bool) :
    ∃ K Kinv G, getKernelInverse (.vec X) h name fix_noise false = .ok (K, Kinv, none) ∧
      getKernelInverse (.vec X) h name fix_noise true = .ok (K, Kinv, some G) ∧
      gradCovMain name (.vec X) (.vec X) h fix_noise = .ok G := by
  have hX : Suits name name (Inputs.vec X) := ⟨hn, .inl ⟨rfl, X, rfl⟩⟩
  have hdet : (noisyGram name σ s l (.vec X)).det ≠ 0 :=
    (noisyGram_posDef name σ s l (.vec X)).det_pos.ne'
  have hG : ∃ G, gradCovMain name (.vec X) (.vec X) h fix_noise = .ok G := by
    rcases hd.lengthscales with hl | ⟨a, ha, hla, hl⟩
    · exact ⟨_, gradCovMain_ard hn hd hs hl X fix_noise⟩
    · have e : l = fun _ => a := funext hla
      subst e
      exact ⟨_, gradCovMain_iso hn hd hs hl X fix_noise⟩
  obtain ⟨G, hG⟩ := hG
  refine ⟨_, _, G, getKernelInverse_ok hX hd fix_noise, ?_, hG⟩
  simp [getKernelInverse, checkStrCov_suits hX, noisyCov_ok hX hd, npInv, hdet, hG, bind,
    Except.bind, pure, Except.pure]

/-- C31: for every data set `get_kernel_cholesky` succeeds and returns the same matrix as
`get_kernel_inverse` — no jitter beyond `1e-5` — with a lower triangular factor that has a
positive diagonal; that factor is the only one. -/
theorem C31_cholesky {n d : ℕ} {name base : String} {X : Inputs n d} (hX : Suits name base X)
    {h : HypDict} {σ s : ℝ} {l : Fin d → ℝ} (hd : Describes h σ s l) (fix_noise : Bool) :
    ∃ K L : Matrix (Fin n) (Fin n) ℝ,
      getKernelCholesky X h name fix_noise false = .ok (K, L, none) ∧
      (∀ i j, K i j = itemKernel base s l (item X i) (item X j) +
        if i = j then σ ^ 2 + 1 / 100000 else 0) ∧
      (∀ i j, K i j = K j i) ∧
      (∀ i j, i < j → L i j = 0) ∧ (∀ i, 0 < L i i) ∧ (∀ i j, ∑ k, L i k * L j k = K i j) ∧
      ∀ L' : Matrix (Fin n) (Fin n) ℝ, (∀ i j, i < j → L' i j = 0) → (∀ i, 0 < L' i i) →
        (∀ i j, ∑ k, L' i k * L' j k = K i j) → L' = L := by
  obtain ⟨L, hL, hok⟩ := getKernelCholesky_ok hX hd fix_noise
  refine ⟨_, L, hok, fun i j => ?_, noisyGram_symm base σ s l X, hL.1, hL.2.1,
    fun i j => ?_, fun L' h1 h2 h3 => ?_⟩
  · simp [noisyGram, gram, Matrix.one_apply]
  · rw [← hL.2.2]
    simp [Matrix.mul_apply]
  · refine cholesky_unique ⟨h1, h2, ?_⟩ hL
    ext i j
    rw [← h3]
    simp [Matrix.mul_apply]

/-- C31: the same with gradients. -/
theorem C31_with_gradient {n d : ℕ} {name : String} (hn : name ∈ baseNames) (X : Fin n → Point d)
    {h : HypDict} {σ s : ℝ} {l : Fin d → ℝ} (hd : Describes h σ s l) (hs : s ≠ 0)
    (fix_noise : Bool) :
    ∃ K L G, getKernelCholesky (.vec X) h name fix_noise false = .ok (K, L, none) ∧
      getKernelCholesky (.vec X) h name fix_noise true = .ok (K, L, some G) ∧
      gradCovMain name (.vec X) (.vec X) h fix_noise = .ok G := by
  have hX : Suits name name (Inputs.vec X) := ⟨hn, .inl ⟨rfl, X, rfl⟩⟩
  obtain ⟨-, -, G, -, -, hG⟩ := C30_with_gradient hn X hd hs fix_noise
  obtain ⟨L, hL, hc⟩ := spCholesky_posDef (noisyGram_posDef name σ s l (.vec X))
  refine ⟨noisyGram name σ s l (.vec X), L, G, ?_, ?_, hG⟩ <;>
    simp [getKernelCholesky, checkStrCov_suits hX, noisyCov_ok hX hd, choleskyLoop, jitters, hL,
      hG, bind, Except.bind, pure, Except.pure]

/-- Concrete data for C30 and C31: a duplicated input, noise zero, and two one-element sets. -/
def exHyps : HypDict :=
  { noise := some (.flt (.fin 0)), signal := some (.flt (.fin 2)),
    lengthscales := some (.flt (.fin 3)) }

theorem exHyps_describes : Describes exHyps 0 2 (fun _ : Fin 1 => 3) where
  noise := rfl
  signal := rfl
  lengthscales := .inr ⟨3, by norm_num, fun _ => rfl, rfl⟩
  nonzero := by intro; norm_num

example : Suits "matern32" "matern32" (Inputs.vec (fun _ : Fin 2 => (fun _ : Fin 1 => (5 : ℝ)))) ∧
    Suits "set_se" "se" (Inputs.set 1 (fun (_ : Fin 2) (_ : Fin 1) => (fun _ : Fin 1 => (5 : ℝ)))) ∧
    Describes exHyps 0 2 (fun _ : Fin 1 => 3) :=
  ⟨⟨by simp [baseNames], .inl ⟨rfl, _, rfl⟩⟩,
    ⟨by simp [baseNames], .inr ⟨by decide, 1, _, by norm_num, rfl⟩⟩, exHyps_describes⟩

/-- On the duplicated input with noise zero the kernel matrix alone is singular; the result is
`4 + 1e-5` on and `4` off the diagonal. -/
example : ∃ K Kinv : Matrix (Fin 2) (Fin 2) ℝ,
    getKernelInverse (.vec (fun _ : Fin 2 => (fun _ : Fin 1 => (5 : ℝ)))) exHyps "matern32" false
      false = .ok (K, Kinv, none) ∧ K 0 0 = 4 + 1 / 100000 ∧ K 0 1 = 4 ∧ Kinv * K = 1 := by
  obtain ⟨K, Kinv, h1, h2, -, h3, -⟩ := C30_inverse (name := "matern32") (base := "matern32")
    (X := .vec (fun _ : Fin 2 => (fun _ : Fin 1 => (5 : ℝ))))
    ⟨by simp [baseNames], .inl ⟨rfl, _, rfl⟩⟩ exHyps_describes false
  refine ⟨K, Kinv, h1, ?_, ?_, h3⟩
  · rw [h2, itemKernel_vec, kernel_self]; norm_num
  · rw [h2, itemKernel_vec, kernel_self]; norm_num

end Verif.Props
