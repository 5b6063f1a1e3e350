import Verif.Model.RoundedPredict
import Verif.Spec.RoundedPredict
import Verif.Lemmas.RoundedKernels
import Verif.Lemmas.Robust
import Verif.Lemmas.Gp

/-! Helpers for C129. -/

namespace Verif.Lemmas

open Verif.Spec Verif.Rounded Verif.RoundedPredict Verif.Covariance Verif.UtilsCovariance Matrix

variable {fl ex : ℝ → ℝ} {n m d : ℕ}

/-- The signed version of `sumList_error`. -/
theorem sumList_error_signed (h : Nearest fl) {d : ℕ} {o : SumOrder} (ho : o.Covers d)
    (hd : (d : ℝ) ≤ 2 ^ 20) {q : Fin d → ℝ} (hq : ∀ k, q k ∈ Double) :
    |RoundedKernels.sumList fl (List.ofFn q) o - ∑ k, q k| ≤ 2 * d * (1 / 2 ^ 53) * ∑ k, |q k| := by
  rw [sumList_eq]
  have h1 := sumR_error h (List.ofFn q) (by simpa [List.mem_ofFn] using hq) o
  have hl : o.entries.length = d := by simpa using ho.length_eq
  have habs : (o.entries.map fun i => |(List.ofFn q)[i]?.getD 0|) =
      o.entries.map fun i => (List.ofFn fun k => |q k|)[i]?.getD 0 := by
    apply List.map_congr_left
    intro i _
    rcases Nat.lt_or_ge i d with hi | hi
    · simp [hi]
    · simp [hi]
  rw [habs, sum_covers ho, sum_covers ho, hl] at h1
  refine h1.trans (mul_le_mul_of_nonneg_right ?_ (Finset.sum_nonneg fun k _ => abs_nonneg _))
  have h2 := pow_sub_one_le (u := 1 / 2 ^ 53) (by positivity) d (by
    have : (2 * (d : ℝ)) * (1 / 2 ^ 53) ≤ (2 * 2 ^ 20) * (1 / 2 ^ 53) := by gcongr
    exact this.trans (by norm_num))
  have h3 : ((1 : ℝ) + 1 / 2 ^ 53) ^ (d - 1) ≤ (1 + 1 / 2 ^ 53) ^ d :=
    pow_le_pow_right₀ (by norm_num) (Nat.sub_le d 1)
  linarith

theorem sumList_mem (h : Nearest fl) {v : List ℝ} (hv : ∀ x ∈ v, x ∈ Double) (o : SumOrder) :
    RoundedKernels.sumList fl v o ∈ Double := by
  rw [sumList_eq]
  exact sumR_mem h v hv o

/-- Rounded products added in any order multiply within `4 n u`. -/
theorem orderedMul_within (h : Nearest fl) {b : ℕ} {o : SumOrder} (ho : o.Covers b)
    (hb : (b : ℝ) ≤ 2 ^ 20) :
    MultipliesWithin b ((4 * b + 1) / 2 ^ 53) (2 * b * (2 : ℝ) ^ (-1075 : ℤ)) (orderedMul fl o) := by
  intro a c A B hA hB i j
  refine ⟨sumList_mem h (by simp [List.mem_ofFn, h.mem]) o, ?_⟩
  have h1 := sumList_error_signed h ho hb (q := fun k => fl (A i k * B k j)) fun k => h.mem _
  have hu : (1 : ℝ) / 2 ^ 53 ≤ 1 := by norm_num
  have ht : (0 : ℝ) < (2 : ℝ) ^ (-1075 : ℤ) := by positivity
  have hu0 : (0 : ℝ) < 1 / 2 ^ 53 := by positivity
  have hbu : 2 * (b : ℝ) * (1 / 2 ^ 53) ≤ 1 := by
    have : 2 * (b : ℝ) * (1 / 2 ^ 53) ≤ 2 * 2 ^ 20 * (1 / 2 ^ 53) := by gcongr
    exact this.trans (by norm_num)
  have h2 : ∀ k, |fl (A i k * B k j) - A i k * B k j| ≤
      1 / 2 ^ 53 * (|A i k| * |B k j|) + (2 : ℝ) ^ (-1075 : ℤ) := fun k => by
    rw [← abs_mul]
    exact fl_error h _
  have e : (4 * (b : ℝ) + 1) / 2 ^ 53 = 4 * b * (1 / 2 ^ 53) + 1 / 2 ^ 53 := by ring
  rw [e]
  change |RoundedKernels.sumList fl (List.ofFn fun k => fl (A i k * B k j)) o - _| ≤ _
  generalize RoundedKernels.sumList fl (List.ofFn fun k => fl (A i k * B k j)) o = S at h1 ⊢
  generalize hu' : (1 : ℝ) / 2 ^ 53 = u at *
  generalize (2 : ℝ) ^ (-1075 : ℤ) = t at *
  have h3 : |∑ k, fl (A i k * B k j) - ∑ k, A i k * B k j| ≤ u * ∑ k, |A i k| * |B k j| + b * t := by
    rw [← Finset.sum_sub_distrib]
    refine (Finset.abs_sum_le_sum_abs _ _).trans ((Finset.sum_le_sum fun k _ => h2 k).trans_eq ?_)
    rw [Finset.sum_add_distrib, Finset.mul_sum]
    simp
  have h4 : ∑ k, |fl (A i k * B k j)| ≤ 2 * (∑ k, |A i k| * |B k j|) + b * t := by
    have : ∀ k, |fl (A i k * B k j)| ≤ 2 * (|A i k| * |B k j|) + t := fun k => by
      have a1 := h2 k
      have a2 : |A i k * B k j| = |A i k| * |B k j| := abs_mul _ _
      have a3 := abs_sub_abs_le_abs_sub (fl (A i k * B k j)) (A i k * B k j)
      have a4 : u * (|A i k| * |B k j|) ≤ 1 * (|A i k| * |B k j|) :=
        mul_le_mul_of_nonneg_right hu (by positivity)
      linarith
    refine (Finset.sum_le_sum fun k _ => this k).trans_eq ?_
    rw [Finset.sum_add_distrib, Finset.mul_sum]
    simp
  set P := ∑ k, |A i k| * |B k j| with hP
  have h5 := mul_le_mul_of_nonneg_left h4 (show 0 ≤ 2 * (b : ℝ) * u by positivity)
  have h6 : 2 * (b : ℝ) * u * (b * t) ≤ 1 * (b * t) :=
    mul_le_mul_of_nonneg_right hbu (by positivity)
  have h7 := abs_sub_le S (∑ k, fl (A i k * B k j)) (∑ k, A i k * B k j)
  have h8 : 2 * (b : ℝ) * u * (2 * P + b * t) = 4 * b * u * P + 2 * b * u * (b * t) := by ring
  linarith

/-- A double product: `p` stands for `(kᵀ V) r`, computed with errors in the vectors and in both
products. -/
theorem chain_error {κ e B γ t P Δ Q p : ℝ} {k k' r r' W : Fin n → ℝ}
    {V : Matrix (Fin n) (Fin n) ℝ} (hγ : 0 ≤ γ) (hγ1 : γ ≤ 1) (ht : 0 ≤ t)
    (hB : 0 ≤ B) (hκ : 0 ≤ κ)
    (hk : ∀ i, |k' i| ≤ κ) (hke : ∀ i, |k' i - k i| ≤ e) (hV : ∀ i j, |V i j| ≤ B)
    (hW : ∀ j, |W j - ∑ i, k' i * V i j| ≤ γ * ∑ i, |k' i| * |V i j| + t)
    (hp : |p - ∑ j, W j * r' j| ≤ γ * ∑ j, |W j| * |r' j| + t)
    (hP : ∑ j, |r' j| ≤ P) (hΔ : ∑ j, |r' j - r j| ≤ Δ) (hQ : ∑ j, |r j| ≤ Q) :
    |p - ∑ j, (∑ i, k i * V i j) * r j| ≤
      P * (3 * γ * (n * κ * B) + 2 * t) + t + n * κ * B * Δ + n * e * B * Q := by
  set w : ℝ := n * κ * B with hw
  have hw0 : 0 ≤ w := by positivity
  have hP0 : 0 ≤ P := (Finset.sum_nonneg fun j _ => abs_nonneg _).trans hP
  have hsum : ∀ j, ∑ i, |k' i| * |V i j| ≤ w := fun j => by
    refine (Finset.sum_le_sum fun i _ => mul_le_mul (hk i) (hV i j) (abs_nonneg _) hκ).trans_eq ?_
    simp [hw]
    ring
  have hW1 : ∀ j, |W j - ∑ i, k' i * V i j| ≤ γ * w + t := fun j =>
    (hW j).trans (by have := mul_le_mul_of_nonneg_left (hsum j) hγ; linarith)
  have hW2 : ∀ j, |∑ i, k' i * V i j| ≤ w := fun j => by
    refine (Finset.abs_sum_le_sum_abs _ _).trans (le_trans (le_of_eq ?_) (hsum j))
    simp only [abs_mul]
  have hW3 : ∀ j, |W j| ≤ 2 * w + t := fun j => by
    have h1 := abs_sub_abs_le_abs_sub (W j) (∑ i, k' i * V i j)
    have h2 : γ * w ≤ 1 * w := mul_le_mul_of_nonneg_right hγ1 hw0
    linarith [hW1 j, hW2 j]
  have a1 : ∑ j, |W j| * |r' j| ≤ (w + (γ * w + t)) * P := by
    refine (Finset.sum_le_sum fun j _ => mul_le_mul_of_nonneg_right (?_ : |W j| ≤ w + (γ * w + t))
      (abs_nonneg _)).trans ?_
    · have h1 := abs_sub_abs_le_abs_sub (W j) (∑ i, k' i * V i j)
      linarith [hW1 j, hW2 j]
    · rw [← Finset.mul_sum]
      exact mul_le_mul_of_nonneg_left hP (by positivity)
  have a2 : |∑ j, W j * r' j - ∑ j, (∑ i, k' i * V i j) * r j| ≤ (γ * w + t) * P + w * Δ := by
    rw [← Finset.sum_sub_distrib]
    have : ∀ j, |W j * r' j - (∑ i, k' i * V i j) * r j| ≤
        (γ * w + t) * |r' j| + w * |r' j - r j| := fun j => by
      have e1 : W j * r' j - (∑ i, k' i * V i j) * r j =
          (W j - ∑ i, k' i * V i j) * r' j + (∑ i, k' i * V i j) * (r' j - r j) := by ring
      rw [e1]
      refine (abs_add_le _ _).trans (add_le_add ?_ ?_)
      · rw [abs_mul]
        exact mul_le_mul_of_nonneg_right (hW1 j) (abs_nonneg _)
      · rw [abs_mul]
        exact mul_le_mul_of_nonneg_right (hW2 j) (abs_nonneg _)
    refine (Finset.abs_sum_le_sum_abs _ _).trans ((Finset.sum_le_sum fun j _ => this j).trans ?_)
    rw [Finset.sum_add_distrib, ← Finset.mul_sum, ← Finset.mul_sum]
    exact add_le_add (mul_le_mul_of_nonneg_left hP (by positivity))
      (mul_le_mul_of_nonneg_left hΔ hw0)
  have a3 : |∑ j, (∑ i, k' i * V i j) * r j - ∑ j, (∑ i, k i * V i j) * r j| ≤ n * e * B * Q := by
    rw [← Finset.sum_sub_distrib]
    rcases Nat.eq_zero_or_pos n with rfl | hn
    · simp
    have he : 0 ≤ e := (abs_nonneg _).trans (hke ⟨0, hn⟩)
    have : ∀ j, |(∑ i, k' i * V i j) * r j - (∑ i, k i * V i j) * r j| ≤ n * e * B * |r j| := by
      intro j
      rw [← sub_mul, abs_mul, ← Finset.sum_sub_distrib]
      refine mul_le_mul_of_nonneg_right ((Finset.abs_sum_le_sum_abs _ _).trans ?_) (abs_nonneg _)
      have : ∀ i, |k' i * V i j - k i * V i j| ≤ e * B := fun i => by
        rw [← sub_mul, abs_mul]
        exact mul_le_mul (hke i) (hV i j) (abs_nonneg _) he
      refine (Finset.sum_le_sum fun i _ => this i).trans_eq ?_
      simp
      ring
    refine (Finset.abs_sum_le_sum_abs _ _).trans ((Finset.sum_le_sum fun j _ => this j).trans ?_)
    rw [← Finset.mul_sum]
    exact mul_le_mul_of_nonneg_left hQ (by positivity)
  have b1 := mul_le_mul_of_nonneg_left a1 hγ
  have b2 := abs_sub_le p (∑ j, W j * r' j) (∑ j, (∑ i, k' i * V i j) * r j)
  have b3 := abs_sub_le p (∑ j, (∑ i, k' i * V i j) * r j) (∑ j, (∑ i, k i * V i j) * r j)
  have b4 : γ * ((w + (γ * w + t)) * P) ≤ (γ * w + 1 * (γ * w + t)) * P := by
    have : γ * (γ * w + t) ≤ 1 * (γ * w + t) := mul_le_mul_of_nonneg_right hγ1 (by positivity)
    have h2 : (γ * w + γ * (γ * w + t)) * P ≤ (γ * w + 1 * (γ * w + t)) * P :=
      mul_le_mul_of_nonneg_right (by linarith) hP0
    linarith
  linarith

/-- Entries of the inverse of a matrix near the kernel matrix. -/
theorem near_inverse_entry {base : String} {σ s : ℝ} {l : Fin d → ℝ} {X : Inputs n d}
    {K V : Matrix (Fin n) (Fin n) ℝ} {E θ : ℝ} (hs : ∀ i j, K i j = K j i)
    (hE : ∀ i j, |K i j - noisyGram base σ s l X i j| ≤ E) (hn : n * E < σ ^ 2 + 1 / 100000)
    (hθ : ∀ i j, |V i j - K⁻¹ i j| ≤ θ) (i j : Fin n) :
    |V i j| ≤ 1 / (σ ^ 2 + 1 / 100000 - n * E) + θ := by
  have hp := near_posDef hs hE hn
  have h0 : 0 < σ ^ 2 + 1 / 100000 - n * E := sub_pos.2 hn
  have h1 := length_le (near_form hE) (K⁻¹ *ᵥ Pi.single j 1)
  rw [mul_inv_vec hp] at h1
  have e1 : (Pi.single j 1 : Fin n → ℝ) ⬝ᵥ Pi.single j 1 = 1 := by simp
  rw [e1, Real.sqrt_one, Matrix.mulVec_single_one] at h1
  have h2 : |K⁻¹ i j| ≤ √((K⁻¹.col j) ⬝ᵥ (K⁻¹.col j)) := by
    refine Real.abs_le_sqrt ?_
    rw [pow_two]
    exact Finset.single_le_sum (f := fun i => K⁻¹.col j i * K⁻¹.col j i)
      (fun k _ => mul_self_nonneg _) (Finset.mem_univ i)
  have h3 : |K⁻¹ i j| ≤ 1 / (σ ^ 2 + 1 / 100000 - n * E) := by
    rw [le_div_iff₀ h0]
    have := mul_le_mul_of_nonneg_right h2 h0.le
    linarith
  have h4 := abs_sub_abs_le_abs_sub (V i j) (K⁻¹ i j)
  linarith [hθ i j]

/-- The matrix of the test inputs is the kernel matrix without noise. -/
theorem testMatrix_eq (hf : Nearest fl) {o : SumOrder} {name : String} (hn : name ∈ baseNames)
    {h : HypDict} {σ s : ℝ} {l : Fin d → ℝ} (hd : Describes h σ s l) (X : Fin n → Point d) :
    ∃ C, RoundedKernels.covMain fl ex o name X X h true = .ok C ∧
      RoundedKernels.kernelMatrix fl ex o X { h with noise := some (.flt (.fin 0)) } name =
        .ok fun i j => fl (fl (C i j + C j i) / 2) := by
  set h0 : HypDict := { h with noise := some (.flt (.fin 0)) } with hh0
  have hd0 : Describes h0 0 s l := ⟨rfl, hd.signal, hd.lengthscales, hd.nonzero⟩
  have hv := validate_describes hd (base_allowed' hn)
  have hv0 := validate_describes hd0 (base_allowed' hn)
  have e : RoundedKernels.covMain fl ex o name X X h0 true =
      RoundedKernels.covMain fl ex o name X X h true := by
    simp only [RoundedKernels.covMain, hv, hv0, bind, Except.bind]
    rfl
  obtain ⟨c, L, hc, hst, hk⟩ := roundedCovMain_ok (fl := fl) (ex := ex) (o := o) hn hd X X true
    fun _ => rfl
  refine ⟨_, hk, ?_⟩
  have hno : numKey h0.noise = .ok 0 := numKey_fin 0
  have hch : checkStrCov name 2 = .ok () := by
    simp [checkStrCov, base_allowed hn, pyAssert, bind, Except.bind, pure, Except.pure]
  simp only [RoundedKernels.kernelMatrix, hch, e, hk, hno, bind, Except.bind, pure, Except.pure]
  congr 1
  ext i j
  have hm : ∀ x, fl (fl x) = fl x := fun x => fl_of_mem hf (hf.mem x)
  simp [fl_zero hf, hm]

/-- The steps of `predict_with_cov`, with the covariances spelled out. -/
theorem roundedPredict_ok (hf : Nearest fl) {o : SumOrder} {mm : MatMul} {name : String}
    (hn : name ∈ baseNames) {h : HypDict} {σ s : ℝ} {l : Fin d → ℝ} (hd : Describes h σ s l)
    (X : Fin n → Point d) (Xs : Fin m → Point d) (Y : Fin n → ℝ)
    (K V : Matrix (Fin n) (Fin n) ℝ) {prior : Gp.PriorMu d} {μ : Fin n → ℝ} {μs : Fin m → ℝ}
    (hμ : Gp.getPriorMu prior (.vec X) = .ok μ) (hμs : Gp.getPriorMu prior (.vec Xs) = .ok μs)
    {k : Matrix (Fin n) (Fin m) ℝ} {C : Matrix (Fin m) (Fin m) ℝ}
    (hk : RoundedKernels.covMain fl ex o name X Xs h false = .ok k)
    (hC : RoundedKernels.kernelMatrix fl ex o Xs { h with noise := some (.flt (.fin 0)) } name =
      .ok C) :
    RoundedPredict.predictWithCov fl ex o mm X Y Xs K V h name prior =
      let S : Matrix (Fin m) (Fin m) ℝ := fun i j => fl (C i j - mm (mm kᵀ V) k i j)
      .ok (fun j => fl (mm (mm kᵀ V) (fun i (_ : Fin 1) => fl (Y i - μ i)) j 0 + μs j),
        fun i => fl √(max (S i i) 0), S) := by
  obtain ⟨C', hC', hC0⟩ := testMatrix_eq (ex := ex) (o := o) hf hn hd Xs
  obtain rfl := Except.ok.inj (hC.symm.trans hC0)
  have hch : checkStrCov name 2 (some 2) = .ok () := by
    simp [checkStrCov, base_allowed hn, pyAssert, bind, Except.bind, pure, Except.pure]
  simp only [RoundedPredict.predictWithCov, Gp.validateCommonArgs, hch, hμ, hμs, hk, hC', bind,
    Except.bind, pure, Except.pure]

/-- Without rounding and with the exact product of matrices the model is `predict_with_cov` of `Gp.lean`. -/
theorem roundedPredict_id {o : SumOrder} (ho : o.Covers d) {name : String} (hn : name ∈ baseNames)
    {h : HypDict} (X : Fin n → Point d) (Xs : Fin m → Point d) (Y : Fin n → ℝ)
    (K V : Matrix (Fin n) (Fin n) ℝ) (prior : Gp.PriorMu d) :
    RoundedPredict.predictWithCov id Real.exp o (fun A B => A * B) X Y Xs K V h name prior =
      Gp.predictWithCov (.vec X) Y (.vec Xs) K V h name prior := by
  simp only [RoundedPredict.predictWithCov, Gp.predictWithCov, roundedCovMain_id ho (base_allowed hn),
    id]
  rfl

end Verif.Lemmas
