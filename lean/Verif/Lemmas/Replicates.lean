import Verif.Lemmas.Gp
import Verif.Lemmas.Tp
import Verif.Lemmas.Likelihood
import Verif.Spec.Replicates

/-! Kernel matrices of training sets in which inputs are repeated (for C96, C97). -/

namespace Verif.Lemmas

open Verif.Spec Verif.Covariance
open Matrix

variable {n m d : ℕ}

/-- A sum weighted by a function of the input vanishes if the sums over repeated inputs do. -/
theorem sum_repeats_zero {X : Inputs n d} {z : Fin n → ℝ} (hz : ∀ i, ∑ j ∈ repeats X i, z j = 0)
    (f : Fin n → ℝ) (hf : ∀ i j, item X i = item X j → f i = f j) : ∑ j, f j * z j = 0 := by
  classical
  rw [← Finset.sum_fiberwise_of_maps_to (s := Finset.univ)
    (t := Finset.univ.image fun j => item X j) (g := fun j => item X j)
    (fun j _ => Finset.mem_image_of_mem _ (Finset.mem_univ j))]
  refine Finset.sum_eq_zero fun x hx => ?_
  obtain ⟨i, -, rfl⟩ := Finset.mem_image.1 hx
  have h1 : ∀ j ∈ Finset.univ.filter (fun j => item X j = item X i), f j * z j = f i * z j := by
    intro j hj
    rw [hf j i (Finset.mem_filter.1 hj).2]
  rw [Finset.sum_congr rfl h1, ← Finset.mul_sum]
  have h2 := hz i
  have h3 : Finset.univ.filter (fun j => item X j = item X i) = repeats X i := by
    ext j; simp [repeats]
  rw [h3, h2, mul_zero]

theorem gram_mulVec_zero (base : String) (s : ℝ) (l : Fin d → ℝ) {X : Inputs n d} (Xs : Inputs m d)
    {z : Fin n → ℝ} (hz : ∀ i, ∑ j ∈ repeats X i, z j = 0) :
    (gram base s l X Xs)ᵀ *ᵥ z = 0 := by
  ext i
  simp only [mulVec, dotProduct, Matrix.transpose_apply, gram, Matrix.of_apply, Pi.zero_apply]
  exact sum_repeats_zero hz _ fun a b hab => by rw [hab]

theorem noisyGram_mulVec_repeats (base : String) (σ s : ℝ) (l : Fin d → ℝ) {X : Inputs n d}
    {z : Fin n → ℝ} (hz : ∀ i, ∑ j ∈ repeats X i, z j = 0) :
    noisyGram base σ s l X *ᵥ z = (σ ^ 2 + 1 / 100000) • z := by
  have h1 := gram_mulVec_zero base s l X hz
  have hg : (gram base s l X X)ᵀ = gram base s l X X := by
    ext i j; exact gram_symm base s l X X j i
  rw [hg] at h1
  rw [noisyGram, Matrix.add_mulVec, h1, zero_add, Matrix.smul_mulVec, Matrix.one_mulVec]

theorem noisyGram_inv_repeats (base : String) (σ s : ℝ) (l : Fin d → ℝ) {X : Inputs n d}
    {z : Fin n → ℝ} (hz : ∀ i, ∑ j ∈ repeats X i, z j = 0) :
    (noisyGram base σ s l X)⁻¹ *ᵥ z = (σ ^ 2 + 1 / 100000)⁻¹ • z := by
  have hu : IsUnit (noisyGram base σ s l X).det := (noisyGram_posDef base σ s l X).det_pos.ne'.isUnit
  have hc : (σ ^ 2 + 1 / 100000 : ℝ) ≠ 0 := by positivity
  have h1 := congrArg ((noisyGram base σ s l X)⁻¹ *ᵥ ·) (noisyGram_mulVec_repeats base σ s l hz)
  simp only [Matrix.mulVec_mulVec, Matrix.nonsing_inv_mul _ hu, Matrix.one_mulVec,
    Matrix.mulVec_smul] at h1
  have h2 : (σ ^ 2 + 1 / 100000)⁻¹ • z = (σ ^ 2 + 1 / 100000)⁻¹ •
      ((σ ^ 2 + 1 / 100000) • ((noisyGram base σ s l X)⁻¹ *ᵥ z)) := by rw [← h1]
  rw [h2, smul_smul, inv_mul_cancel₀ hc, one_smul]

theorem postMean_repeats (base : String) (σ s : ℝ) (l : Fin d → ℝ) {X : Inputs n d}
    (Xs : Inputs m d) {y y' : Fin n → ℝ} (hy : SameTotals X y y') :
    postMean base σ s l X Xs y = postMean base σ s l X Xs y' := by
  have hz : ∀ i, ∑ j ∈ repeats X i, (y - y') j = 0 := fun i => by
    simp only [Pi.sub_apply, Finset.sum_sub_distrib, hy i, sub_self]
  have h1 : postMean base σ s l X Xs (y - y') = 0 := by
    rw [postMean, ← Matrix.mulVec_mulVec, noisyGram_inv_repeats base σ s l hz, Matrix.mulVec_smul,
      gram_mulVec_zero base s l Xs hz, smul_zero]
  rw [postMean, Matrix.mulVec_sub] at h1
  exact sub_eq_zero.1 h1

theorem misfit_repeats (base : String) (σ s : ℝ) (l : Fin d → ℝ) {X : Inputs n d}
    {y z : Fin n → ℝ} (hz : ∀ i, ∑ j ∈ repeats X i, z j = 0)
    (hy : ∀ i j, item X i = item X j → y i = y j) :
    misfit (noisyGram base σ s l X) (y + z) =
      misfit (noisyGram base σ s l X) y + (∑ i, z i ^ 2) / (σ ^ 2 + 1 / 100000) := by
  have h1 : y ⬝ᵥ z = 0 := sum_repeats_zero hz y hy
  have hs : ((noisyGram base σ s l X)⁻¹)ᵀ = (noisyGram base σ s l X)⁻¹ := by
    have := (noisyGram_posDef base σ s l X).inv.isHermitian
    rwa [Matrix.IsHermitian, Matrix.conjTranspose_eq_transpose_of_trivial] at this
  have h2 : z ⬝ᵥ ((noisyGram base σ s l X)⁻¹ *ᵥ y) = 0 := by
    rw [Matrix.dotProduct_mulVec, ← Matrix.mulVec_transpose, hs,
      noisyGram_inv_repeats base σ s l hz, smul_dotProduct, dotProduct_comm, h1, smul_zero]
  rw [misfit, misfit, Matrix.mulVec_add, add_dotProduct, dotProduct_add, dotProduct_add, h2,
    noisyGram_inv_repeats base σ s l hz, dotProduct_smul, dotProduct_smul, h1, smul_zero]
  simp only [dotProduct, smul_eq_mul, ← sq]
  ring

theorem avgAt_const {X : Inputs n d} (Y : Fin n → ℝ) {i j : Fin n} (h : item X i = item X j) :
    avgAt X Y i = avgAt X Y j := by
  simp only [avgAt, repeats, h]

theorem mem_repeats_self (X : Inputs n d) (i : Fin n) : i ∈ repeats X i := by
  simp [repeats]

theorem sameTotals_avgAt (X : Inputs n d) (Y : Fin n → ℝ) : SameTotals X Y (avgAt X Y) := by
  intro i
  have h1 : ∀ j ∈ repeats X i, avgAt X Y j = avgAt X Y i := fun j hj =>
    avgAt_const Y (by simpa [repeats] using hj)
  have hc : ((repeats X i).card : ℝ) ≠ 0 := by
    have := Finset.card_pos.2 ⟨i, mem_repeats_self X i⟩
    exact_mod_cast this.ne'
  rw [Finset.sum_congr rfl h1, Finset.sum_const, nsmul_eq_mul, avgAt, mul_div_cancel₀ _ hc]

/-! ### Every input observed equally often -/

/-- Row `a` of the larger training set repeats row `e a`. -/
noncomputable def copies {N : ℕ} (e : Fin N → Fin n) : Matrix (Fin N) (Fin n) ℝ :=
  Matrix.of fun a i => if e a = i then 1 else 0

theorem copies_mul {N : ℕ} (e : Fin N → Fin n) (A : Matrix (Fin n) (Fin m) ℝ) :
    copies e * A = Matrix.of fun a j => A (e a) j := by
  ext a j
  simp [copies, Matrix.mul_apply]

theorem copies_transpose_mul {N k : ℕ} (e : Fin N → Fin n)
    (hk : ∀ i, (Finset.univ.filter fun a => e a = i).card = k) :
    (copies e)ᵀ * copies e = (k : ℝ) • (1 : Matrix (Fin n) (Fin n) ℝ) := by
  ext i j
  simp only [copies, Matrix.mul_apply, Matrix.transpose_apply, Matrix.of_apply, Matrix.smul_apply,
    Matrix.one_apply, smul_eq_mul, mul_ite, mul_one, mul_zero, ite_mul, one_mul, zero_mul]
  by_cases h : i = j
  · subst h
    have : ∀ a, (if e a = i then (if e a = i then (1 : ℝ) else 0) else 0) =
        if e a = i then 1 else 0 := fun a => by split_ifs <;> rfl
    simp only [this, Finset.sum_boole, hk i, if_true]
  · rw [if_neg h]
    refine Finset.sum_eq_zero fun a _ => ?_
    by_cases h1 : e a = j
    · rw [if_pos h1, if_neg fun h2 => h (h2.symm.trans h1)]
    · rw [if_neg h1]

theorem gram_copies {N : ℕ} (base : String) (s : ℝ) (l : Fin d → ℝ) {X : Inputs n d}
    {X' : Inputs N d} (Xs : Inputs m d) {e : Fin N → Fin n}
    (he : ∀ a, item X' a = item X (e a)) :
    gram base s l X' Xs = copies e * gram base s l X Xs := by
  rw [copies_mul]
  ext a j
  simp [gram, he]

theorem noisyGram_copies {N : ℕ} (base : String) (σ s : ℝ) (l : Fin d → ℝ) {X : Inputs n d}
    {X' : Inputs N d} {e : Fin N → Fin n} (he : ∀ a, item X' a = item X (e a)) :
    noisyGram base σ s l X' = copies e * gram base s l X X * (copies e)ᵀ +
      (σ ^ 2 + 1 / 100000) • (1 : Matrix (Fin N) (Fin N) ℝ) := by
  have h1 : gram base s l X' X' = copies e * gram base s l X X * (copies e)ᵀ := by
    ext a b
    rw [copies_mul]
    simp [gram, he, copies, Matrix.mul_apply]
  rw [noisyGram, h1]

theorem copies_inv {N k : ℕ} (base : String) {σ σ' s : ℝ} (l : Fin d → ℝ) {X : Inputs n d}
    {X' : Inputs N d} {e : Fin N → Fin n} (he : ∀ a, item X' a = item X (e a)) (hk0 : k ≠ 0)
    (hk : ∀ i, (Finset.univ.filter fun a => e a = i).card = k)
    (hσ : σ' ^ 2 + 1 / 100000 = (σ ^ 2 + 1 / 100000) / k) :
    (copies e)ᵀ * (noisyGram base σ s l X')⁻¹ =
      (k : ℝ)⁻¹ • ((noisyGram base σ' s l X)⁻¹ * (copies e)ᵀ) := by
  have hu : IsUnit (noisyGram base σ' s l X).det := (noisyGram_posDef base σ' s l X).det_pos.ne'.isUnit
  have hu' : IsUnit (noisyGram base σ s l X').det :=
    (noisyGram_posDef base σ s l X').det_pos.ne'.isUnit
  have hkr : (k : ℝ) ≠ 0 := by exact_mod_cast hk0
  have h1 : noisyGram base σ' s l X * (copies e)ᵀ =
      (k : ℝ)⁻¹ • ((copies e)ᵀ * noisyGram base σ s l X') := by
    rw [noisyGram_copies base σ s l he, Matrix.mul_add, ← Matrix.mul_assoc, ← Matrix.mul_assoc,
      copies_transpose_mul e hk, noisyGram, Matrix.add_mul, hσ, smul_add, Matrix.smul_mul,
      Matrix.one_mul, Matrix.smul_mul, Matrix.smul_mul, smul_smul, inv_mul_cancel₀ hkr, one_smul,
      Matrix.one_mul, Matrix.mul_smul, Matrix.mul_one, smul_smul]
    congr 2
    rw [div_eq_inv_mul]
  have h2 := congrArg (fun M => (noisyGram base σ' s l X)⁻¹ * M * (noisyGram base σ s l X')⁻¹) h1
  simp only [← Matrix.mul_assoc, Matrix.nonsing_inv_mul _ hu, Matrix.one_mul, Matrix.mul_smul,
    Matrix.smul_mul] at h2
  rw [h2, Matrix.mul_assoc ((noisyGram base σ' s l X)⁻¹ * (copies e)ᵀ), Matrix.mul_nonsing_inv _ hu',
    Matrix.mul_one]

theorem postMean_copies {N k : ℕ} (base : String) {σ σ' s : ℝ} (l : Fin d → ℝ) {X : Inputs n d}
    {X' : Inputs N d} (Xs : Inputs m d) {e : Fin N → Fin n} (he : ∀ a, item X' a = item X (e a))
    (hk0 : k ≠ 0) (hk : ∀ i, (Finset.univ.filter fun a => e a = i).card = k)
    (hσ : σ' ^ 2 + 1 / 100000 = (σ ^ 2 + 1 / 100000) / k) (y : Fin N → ℝ) (y' : Fin n → ℝ)
    (hy : ∀ i, y' i = (∑ a with e a = i, y a) / k) :
    postMean base σ s l X' Xs y = postMean base σ' s l X Xs y' := by
  have h1 : (copies e)ᵀ *ᵥ y = (k : ℝ) • y' := by
    ext i
    have hkr : (k : ℝ) ≠ 0 := by exact_mod_cast hk0
    simp only [mulVec, dotProduct, copies, Matrix.transpose_apply, Matrix.of_apply, ite_mul, one_mul,
      zero_mul, Pi.smul_apply, smul_eq_mul, hy i, mul_div_cancel₀ _ hkr, Finset.sum_filter]
  have hkr : (k : ℝ) ≠ 0 := by exact_mod_cast hk0
  rw [postMean, gram_copies base s l Xs he, Matrix.transpose_mul, Matrix.mul_assoc,
    copies_inv base l he hk0 hk hσ, Matrix.mul_smul, Matrix.smul_mulVec, ← Matrix.mul_assoc,
    ← Matrix.mulVec_mulVec, h1, Matrix.mulVec_smul, smul_smul, inv_mul_cancel₀ hkr, one_smul, postMean]

theorem postCov_copies {N k : ℕ} (base : String) {σ σ' s : ℝ} (l : Fin d → ℝ) {X : Inputs n d}
    {X' : Inputs N d} (Xs : Inputs m d) {e : Fin N → Fin n} (he : ∀ a, item X' a = item X (e a))
    (hk0 : k ≠ 0) (hk : ∀ i, (Finset.univ.filter fun a => e a = i).card = k)
    (hσ : σ' ^ 2 + 1 / 100000 = (σ ^ 2 + 1 / 100000) / k) :
    postCov base σ s l X' Xs = postCov base σ' s l X Xs := by
  have hkr : (k : ℝ) ≠ 0 := by exact_mod_cast hk0
  rw [postCov, postCov, gram_copies base s l Xs he, Matrix.transpose_mul,
    Matrix.mul_assoc _ (copies e)ᵀ, copies_inv base l he hk0 hk hσ, Matrix.mul_smul,
    Matrix.smul_mul, ← Matrix.mul_assoc, ← Matrix.mul_assoc, Matrix.mul_assoc _ (copies e)ᵀ,
    copies_transpose_mul e hk, Matrix.mul_smul, Matrix.mul_one, Matrix.smul_mul, smul_smul,
    inv_mul_cancel₀ hkr, one_smul]

end Verif.Lemmas
