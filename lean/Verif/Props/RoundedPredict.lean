import Verif.Lemmas.RoundedPredict
import Verif.Props.RoundedKernels

/-! # Predictions in double precision (C129) -/

namespace Verif.Props

open Verif.Spec Verif.Covariance Verif.UtilsCovariance Verif.Lemmas Verif.Rounded
  Verif.RoundedPredict
open scoped Matrix

section

variable {fl ex : ℝ → ℝ} {n m d : ℕ} {o : SumOrder} {mm : MatMul} {name : String} {h : HypDict}
  {σ s η R : ℝ} {l : Fin d → ℝ}

/-- C129: predictions computed in double precision. The kernel matrix is off by at most `E` in each entry, its
computed inverse by at most `θ` from the inverse of the computed matrix, covariances with the test inputs by
at most `e`; entries of the inverse are at most `B` in size and computed covariances at most `κ`. If products of
matrices have relative error `γ` and lose `t` to underflow, then means, covariances and deviations differ
from those of exact arithmetic by at most the bounds below; `u` is the unit roundoff. -/
theorem C129_predictions (hf : Nearest fl) (hex : ExpWithin η ex) (hη : 0 ≤ η) (hη1 : η ≤ 1 / 2)
    (ho : o.Covers d) (hd : d ≤ 2 ^ 20) (hn : name ∈ baseNames) (hh : Describes h σ s l)
    {X : Fin n → Point d} {Xs : Fin m → Point d} (hX : ∀ i, scaledLength l (X i) ≤ R)
    (hXs : ∀ j, scaledLength l (Xs j) ≤ R) (hR : (d + 1) * R ≤ 2 ^ 39)
    {γ t : ℝ} (hγ : 0 ≤ γ) (hγ1 : γ ≤ 1) (ht : 0 ≤ t) (hmm : MultipliesWithin n γ t mm)
    {prior : Gp.PriorMu d} {μ : Fin n → ℝ} {μs : Fin m → ℝ}
    (hμ : Gp.getPriorMu prior (.vec X) = .ok μ) (hμs : Gp.getPriorMu prior (.vec Xs) = .ok μs)
    (hμd : ∀ i, μ i ∈ Double) (hμsd : ∀ j, μs j ∈ Double) {Y : Fin n → ℝ} (hY : ∀ i, Y i ∈ Double)
    {K V : Matrix (Fin n) (Fin n) ℝ} (hK : RoundedKernels.kernelMatrix fl ex o X h name = .ok K)
    (hVd : ∀ i j, V i j ∈ Double) {θ : ℝ} (hθ0 : 0 ≤ θ) (hθ : ∀ i j, |V i j - K⁻¹ i j| ≤ θ)
    {E e u B κ ρ Q F G : ℝ} (hu : u = 1 / 2 ^ 53)
    (hE : E = s ^ 2 * (2 * η + (1 + (d + 1) * R) / 2 ^ 44) + (σ ^ 2 + 1) / 2 ^ 49)
    (he : e = s ^ 2 * (2 * η + (1 + (d + 1) * R) / 2 ^ 45) + (2 : ℝ) ^ (-1070 : ℤ))
    (hlt : n * E < σ ^ 2 + 1 / 100000)
    (hB : B = 1 / (σ ^ 2 + 1 / 100000 - n * E) + θ) (hκ : κ = s ^ 2 + e)
    (hρ : ρ = n * E / ((σ ^ 2 + 1 / 100000) * (σ ^ 2 + 1 / 100000 - n * E)) + n * θ)
    (hQ : Q = √n * √(∑ i, (Y i - μ i) ^ 2))
    (hF : F = Q * (s ^ 2 * ρ + n * B * (e + (6 * γ + u) * κ) + 4 * t) + t)
    (hG : G = s ^ 4 * n * ρ + n * κ * (n * B * (2 * e + 3 * γ * κ) + 2 * t) + t +
      (s ^ 2 * (2 * η + (1 + (d + 1) * R) / 2 ^ 44) + 1 / 2 ^ 49)) :
    ∃ mu sd S mu' sd' S', Gp.predictWithHyps (.vec X) Y (.vec Xs) h name prior = .ok (mu, sd, S) ∧
      RoundedPredict.predictWithCov fl ex o mm X Y Xs K V h name prior = .ok (mu', sd', S') ∧
      (∀ j, |mu' j - mu j| ≤ (1 + u) * F + u * |mu j|) ∧
      (∀ j j', |S' j j' - S j j'| ≤ (1 + u) * G + u * |S j j'|) ∧
      ∀ j, |sd' j - sd j| ≤ (1 + u) * √((1 + u) * G + u * |S j j|) + u * sd j +
        (2 : ℝ) ^ (-1075 : ℤ) := by
  have hsuit : ∀ {p : ℕ} (Z : Fin p → Point d), Suits name name (.vec Z) :=
    fun Z => ⟨hn, .inl ⟨rfl, Z, rfl⟩⟩
  have hd' : (d : ℝ) ≤ 2 ^ 20 := by exact_mod_cast hd
  have hu0 : 0 ≤ u := by rw [hu]; positivity
  -- exact arithmetic with the computed inverse
  obtain ⟨mu, sd, S, mu₁, sd₁, S₁, hp, hp₁, hm1, -, hS1⟩ := C127_predictions hf hex hη hη1 ho hd hn hh
    hX hR hE hlt hμ hμs Y hK hθ hρ
  have hpe := hp
  rw [predictWithHyps_ok (hsuit X) (hsuit Xs) hh Y hμ hμs, Except.ok.injEq, Prod.mk.injEq,
    Prod.mk.injEq] at hpe
  obtain ⟨-, hsd, hSe⟩ := hpe
  rw [predictWithCov_ok (hsuit X) (hsuit Xs) hh Y K V hμ hμs] at hp₁
  have hinj := Except.ok.inj hp₁
  rw [Prod.mk.injEq, Prod.mk.injEq] at hinj
  obtain ⟨rfl, -, rfl⟩ := hinj
  -- computed covariances
  obtain ⟨k, hk, hke⟩ := C127_entries hf hex hη hη1 ho hd hn hh hX hXs hR
  obtain ⟨K', hK', hs, hKe⟩ := kernelMatrix_error hf hex hη hη1 ho hd' hn hh hX hR
  obtain rfl := Except.ok.inj (hK.symm.trans hK')
  have hh0 : Describes { h with noise := some (.flt (.fin 0)) } 0 s l :=
    ⟨rfl, hh.signal, hh.lengthscales, hh.nonzero⟩
  obtain ⟨C, hC, -, hCe⟩ := kernelMatrix_error hf hex hη hη1 ho hd' hn hh0 hXs hR
  obtain ⟨C', -, hC'⟩ := testMatrix_eq (ex := ex) (o := o) hf hn hh Xs
  have hCd : ∀ i j, C i j ∈ Double := fun i j => by
    obtain rfl := Except.ok.inj (hC.symm.trans hC')
    exact hf.mem _
  have hr := roundedPredict_ok (mm := mm) hf hn hh X Xs Y K V hμ hμs hk hC
  have hVB : ∀ i j, |V i j| ≤ B := fun i j => by
    rw [hB]
    exact near_inverse_entry hs (fun i j => (hKe i j).trans_eq hE.symm) hlt hθ i j
  have hB0 : 0 ≤ B := by
    have := sub_pos.2 hlt
    rw [hB]
    positivity
  have hgram : ∀ i j, gram name s l (.vec X) (.vec Xs) i j = kernel name s l (X i) (Xs j) :=
    fun i j => by simp [gram, itemKernel_vec]
  have hke' : ∀ i j, |k i j - gram name s l (.vec X) (.vec Xs) i j| ≤ e := fun i j => by
    rw [hgram, he]
    exact (hke i j).2.2
  have hgb := fun i j => gram_bound name s l (.vec X) (.vec Xs) i j
  have he0 : ∀ _ : Fin m, 0 ≤ e := fun j => by
    have hR0 : 0 ≤ R := (Real.sqrt_nonneg _).trans (hXs j)
    rw [he]
    positivity
  have hkκ : ∀ i j, |k i j| ≤ κ := fun i j => by
    have h1 := abs_sub_abs_le_abs_sub (k i j) (gram name s l (.vec X) (.vec Xs) i j)
    rw [abs_of_nonneg (hgb i j).1] at h1
    linarith [hke' i j, (hgb i j).2]
  have hW := fun j i => hmm m n kᵀ V (fun a b => (hke b a).1) hVd j i
  -- means
  have hmean : ∀ j, |mm (mm kᵀ V) (fun i (_ : Fin 1) => fl (Y i - μ i)) j 0 -
      (((gram name s l (.vec X) (.vec Xs))ᵀ * V) *ᵥ (Y - μ)) j| ≤
      2 * Q * (3 * γ * (n * κ * B) + 2 * t) + t + n * κ * B * (u * Q) + n * e * B * Q := by
    intro j
    have hκ0 : 0 ≤ κ := by
      have := he0 j
      rw [hκ]
      positivity
    have hp2 := (hmm m 1 (mm kᵀ V) (fun i (_ : Fin 1) => fl (Y i - μ i)) (fun a b => (hW a b).1)
      (fun i _ => hf.mem _) j 0).2
    have hrel : ∀ i, |fl (Y i - μ i) - (Y i - μ i)| ≤ u * |Y i - μ i| := fun i => by
      rw [hu]
      exact fl_sub_rel hf (hY i) (hμd i)
    have hQ1 : ∑ i, |Y i - μ i| ≤ Q := by
      have h1 := (le_abs_self _).trans (cauchy (fun _ => (1 : ℝ)) fun i => |Y i - μ i|)
      have e1 : (fun _ : Fin n => (1 : ℝ)) ⬝ᵥ (fun _ => 1) = n := by simp [dotProduct]
      have e2 : (fun i => |Y i - μ i|) ⬝ᵥ (fun i => |Y i - μ i|) = ∑ i, (Y i - μ i) ^ 2 := by
        simp [dotProduct, pow_two]
      have e3 : (fun _ : Fin n => (1 : ℝ)) ⬝ᵥ (fun i => |Y i - μ i|) = ∑ i, |Y i - μ i| := by
        simp [dotProduct]
      rwa [e1, e2, e3, ← hQ] at h1
    have hu1 : u ≤ 1 := by
      rw [hu]
      norm_num
    have hch := chain_error (k := fun i => gram name s l (.vec X) (.vec Xs) i j)
      (k' := fun i => k i j) (r := fun i => Y i - μ i) (r' := fun i => fl (Y i - μ i))
      (W := fun i => mm kᵀ V j i) (P := 2 * Q) (Δ := u * Q) (Q := Q) hγ hγ1 ht hB0 hκ0
      (fun i => hkκ i j) (fun i => hke' i j) hVB (fun i => (hW j i).2) hp2 ?_ ?_ hQ1
    · have e1 : (((gram name s l (.vec X) (.vec Xs))ᵀ * V) *ᵥ (Y - μ)) j =
          ∑ i', (∑ i, gram name s l (.vec X) (.vec Xs) i j * V i i') * (Y i' - μ i') := by
        simp [Matrix.mulVec, dotProduct, Matrix.mul_apply]
      rw [e1]
      exact hch
    · have : ∀ i, |fl (Y i - μ i)| ≤ 2 * |Y i - μ i| := fun i => by
        have h1 := abs_sub_abs_le_abs_sub (fl (Y i - μ i)) (Y i - μ i)
        have h2 : u * |Y i - μ i| ≤ 1 * |Y i - μ i| :=
          mul_le_mul_of_nonneg_right hu1 (abs_nonneg _)
        linarith [hrel i]
      refine (Finset.sum_le_sum fun i _ => this i).trans ?_
      rw [← Finset.mul_sum]
      linarith
    · refine (Finset.sum_le_sum fun i _ => hrel i).trans ?_
      rw [← Finset.mul_sum]
      exact mul_le_mul_of_nonneg_left hQ1 hu0
  -- covariances
  have hcov : ∀ j j', |mm (mm kᵀ V) k j j' -
      ((gram name s l (.vec X) (.vec Xs))ᵀ * V * gram name s l (.vec X) (.vec Xs)) j j'| ≤
      n * κ * (3 * γ * (n * κ * B) + 2 * t) + t + n * κ * B * (n * e) + n * e * B * (n * κ) := by
    intro j j'
    have h0 := he0 j
    have hκ0 : 0 ≤ κ := by
      rw [hκ]
      positivity
    have hp2 := (hmm m m (mm kᵀ V) k (fun a b => (hW a b).1) (fun i j => (hke i j).1) j j').2
    have hch := chain_error (k := fun i => gram name s l (.vec X) (.vec Xs) i j)
      (k' := fun i => k i j) (r := fun i => gram name s l (.vec X) (.vec Xs) i j')
      (r' := fun i => k i j')
      (W := fun i => mm kᵀ V j i) (P := n * κ) (Δ := n * e) (Q := n * κ) hγ hγ1 ht hB0 hκ0
      (fun i => hkκ i j) (fun i => hke' i j) hVB (fun i => (hW j i).2) hp2 ?_ ?_ ?_
    · have e1 : ((gram name s l (.vec X) (.vec Xs))ᵀ * V * gram name s l (.vec X) (.vec Xs)) j j' =
          ∑ i', (∑ i, gram name s l (.vec X) (.vec Xs) i j * V i i') *
            gram name s l (.vec X) (.vec Xs) i' j' := by
        simp [Matrix.mul_apply]
      rw [e1]
      exact hch
    · refine (Finset.sum_le_sum fun i _ => hkκ i j').trans_eq ?_
      simp
    · refine (Finset.sum_le_sum fun i _ => hke' i j').trans_eq ?_
      simp
    · refine (Finset.sum_le_sum fun i _ =>
        (?_ : |gram name s l (.vec X) (.vec Xs) i j'| ≤ κ)).trans_eq (by simp)
      rw [abs_of_nonneg (hgb i j').1, hκ]
      linarith [(hgb i j').2]
  have hSS : ∀ j j', |fl (C j j' - mm (mm kᵀ V) k j j') - S j j'| ≤ (1 + u) * G + u * |S j j'| := by
    intro j j'
    have h1 := fl_sub_rel hf (hCd j j')
      (hmm m m (mm kᵀ V) k (fun a b => (hW a b).1) (fun i j => (hke i j).1) j j').1
    rw [← hu] at h1
    beta_reduce at h1
    have h2 := hcov j j'
    have h3 := hCe j j'
    have h4 := hS1 j j'
    have hN : noisyGram name 0 s l (.vec Xs) = gram name s l (.vec Xs) (.vec Xs) +
        (1 / 100000 : ℝ) • (1 : Matrix (Fin m) (Fin m) ℝ) := by simp [noisyGram]
    rw [hN] at h3
    rw [Matrix.sub_apply] at h4
    generalize (gram name s l (.vec Xs) (.vec Xs) +
        (1 / 100000 : ℝ) • (1 : Matrix (Fin m) (Fin m) ℝ)) j j' = a at h3 h4
    generalize ((gram name s l (.vec X) (.vec Xs))ᵀ * V * gram name s l (.vec X) (.vec Xs)) j j' = b
      at h2 h4
    generalize mm (mm kᵀ V) k j j' = q at h1 h2 ⊢
    generalize C j j' = c at h1 h3 ⊢
    have h5 : |c - q - S j j'| ≤ G := by
      have e1 : c - q - S j j' = (c - a) - (q - b) + (a - b - S j j') := by ring
      rw [e1, hG]
      have := (abs_add_le ((c - a) - (q - b)) (a - b - S j j')).trans
        (add_le_add_left (abs_sub (c - a) (q - b)) _)
      have e2 : (0 ^ 2 + 1 : ℝ) / 2 ^ 49 = 1 / 2 ^ 49 := by norm_num
      rw [e2] at h3
      linarith
    have h6 := abs_sub_abs_le_abs_sub (c - q) (S j j')
    have h7 : u * |c - q| ≤ u * (|S j j'| + G) := mul_le_mul_of_nonneg_left (by linarith) hu0
    have h8 := abs_sub_le (fl (c - q)) (c - q) (S j j')
    linarith only [h1, h5, h7, h8]
  refine ⟨mu, sd, S, _, _, _, hp, hr, fun j => ?_, hSS, fun j => ?_⟩
  · have h1 := fl_add_rel hf (hmm m 1 (mm kᵀ V) (fun i (_ : Fin 1) => fl (Y i - μ i))
      (fun a b => (hW a b).1) (fun i _ => hf.mem _) j 0).1 (hμsd j)
    rw [← hu] at h1
    beta_reduce at h1
    have h2 := hmean j
    have h3 := hm1 j
    rw [Pi.add_apply] at h3
    generalize (((gram name s l (.vec X) (.vec Xs))ᵀ * V) *ᵥ (Y - μ)) j = b at h2 h3
    generalize mm (mm kᵀ V) (fun i (_ : Fin 1) => fl (Y i - μ i)) j 0 = q at h1 h2 ⊢
    have h5 : |q + μs j - mu j| ≤ F := by
      have e1 : q + μs j - mu j = (q - b) + (b + μs j - mu j) := by ring
      have e2 : s ^ 2 * √n * ρ * √(∑ i, (Y i - μ i) ^ 2) = s ^ 2 * ρ * Q := by
        rw [hQ]
        ring
      rw [e2] at h3
      rw [e1, hF]
      have := abs_add_le (q - b) (b + μs j - mu j)
      linarith
    have h6 := abs_sub_abs_le_abs_sub (q + μs j) (mu j)
    have h7 : u * |q + μs j| ≤ u * (|mu j| + F) := mul_le_mul_of_nonneg_left (by linarith) hu0
    have h8 := abs_sub_le (fl (q + μs j)) (q + μs j) (mu j)
    linarith only [h1, h5, h7, h8]
  · have hpos : 0 ≤ S j j := by
      rw [← hSe]
      exact (by norm_num : (0 : ℝ) ≤ 1 / 100000).trans (postCov_diag_ge name σ s l (.vec X) (.vec Xs) j)
    have hsd' : sd j = √(S j j) := by
      rw [← hsd, ← hSe] at *
      simp only
      rw [max_eq_left hpos]
    have h1 := abs_sqrt_sub_le hpos (hSS j j)
    rw [← hsd'] at h1
    have h2 := fl_error hf √(max (fl (C j j - mm (mm kᵀ V) k j j)) 0)
    rw [abs_of_nonneg (Real.sqrt_nonneg _), ← hu] at h2
    simp only
    generalize √(max (fl (C j j - mm (mm kᵀ V) k j j)) 0) = x at h1 h2 ⊢
    generalize √((1 + u) * G + u * |S j j|) = z at h1 ⊢
    have h3 := le_abs_self (x - sd j)
    have h4 : u * x ≤ u * (sd j + z) := mul_le_mul_of_nonneg_left (by linarith) hu0
    have h5 := abs_sub_le (fl x) x (sd j)
    linarith

/-- C129: the hypothesis on products holds for rounded products that are added in any order. -/
theorem C129_products (hf : Nearest fl) {o : SumOrder} (ho : o.Covers n) (hn : n ≤ 2 ^ 20) :
    MultipliesWithin n ((4 * n + 1) / 2 ^ 53) (2 * n * (2 : ℝ) ^ (-1075 : ℤ)) (orderedMul fl o) :=
  orderedMul_within hf ho (by exact_mod_cast hn)

/-- C129: the error of a computed inverse from its residual: if the entries of `K V - I` are at most `r` in
size, those of `V - K⁻¹` are at most `√n r / (σ² + 1e-5 - n E)`. -/
theorem C129_inverse (hf : Nearest fl) (hex : ExpWithin η ex) (hη : 0 ≤ η) (hη1 : η ≤ 1 / 2)
    (ho : o.Covers d) (hd : d ≤ 2 ^ 20) (hn : name ∈ baseNames) (hh : Describes h σ s l)
    {X : Fin n → Point d} (hX : ∀ i, scaledLength l (X i) ≤ R) (hR : (d + 1) * R ≤ 2 ^ 39) {E : ℝ}
    (hE : E = s ^ 2 * (2 * η + (1 + (d + 1) * R) / 2 ^ 44) + (σ ^ 2 + 1) / 2 ^ 49)
    (hlt : n * E < σ ^ 2 + 1 / 100000) {K V : Matrix (Fin n) (Fin n) ℝ}
    (hK : RoundedKernels.kernelMatrix fl ex o X h name = .ok K) {r : ℝ}
    (hr : ∀ i j, |(K * V) i j - (1 : Matrix (Fin n) (Fin n) ℝ) i j| ≤ r) (i j : Fin n) :
    |V i j - K⁻¹ i j| ≤ √n * r / (σ ^ 2 + 1 / 100000 - n * E) := by
  obtain ⟨K', hK', hs, hKe⟩ := kernelMatrix_error hf hex hη hη1 ho (by exact_mod_cast hd) hn hh hX hR
  obtain rfl := Except.ok.inj (hK.symm.trans hK')
  have hKe' := fun i j => (hKe i j).trans_eq hE.symm
  have hp := near_posDef hs hKe' hlt
  have h0 : 0 < σ ^ 2 + 1 / 100000 - n * E := sub_pos.2 hlt
  have h1 := length_le (near_form hKe') fun i => (V - K⁻¹) i j
  have e1 : K *ᵥ (fun i => (V - K⁻¹) i j) = fun i => (K * V - 1) i j := by
    have : K * (V - K⁻¹) = K * V - 1 := by
      rw [Matrix.mul_sub, Matrix.mul_nonsing_inv _ hp.det_pos.ne'.isUnit]
    rw [← this]
    rfl
  rw [e1] at h1
  have hr0 : 0 ≤ r := (abs_nonneg _).trans (hr i j)
  have h2 : √((fun i => (K * V - 1) i j) ⬝ᵥ (fun i => (K * V - 1) i j)) ≤ √n * r := by
    apply Real.sqrt_le_iff.2
    refine ⟨by positivity, ?_⟩
    rw [mul_pow, Real.sq_sqrt (Nat.cast_nonneg n)]
    refine (Finset.sum_le_sum fun i _ => (?_ : (K * V - 1) i j * (K * V - 1) i j ≤ r ^ 2)).trans_eq
      (by simp)
    rw [← pow_two, ← sq_abs]
    exact pow_le_pow_left₀ (abs_nonneg _) (hr i j) 2
  have h3 : |V i j - K⁻¹ i j| ≤ √((fun i => (V - K⁻¹) i j) ⬝ᵥ (fun i => (V - K⁻¹) i j)) := by
    refine Real.abs_le_sqrt ?_
    rw [pow_two]
    exact Finset.single_le_sum (f := fun i => (V - K⁻¹) i j * (V - K⁻¹) i j)
      (fun k _ => mul_self_nonneg _) (Finset.mem_univ i)
  rw [le_div_iff₀ h0]
  have := mul_le_mul_of_nonneg_right h3 h0.le
  linarith

/-- C129, a case with numbers: at most 20 observations in at most 10 dimensions, all inputs within 10
lengthscales of the origin, signal 1, noise variance between 0.01 and 1, residuals of size at most 3, an
exponential function with relative error `2^-50`, rounded products in any order, and an inverse whose entries are
off by at most `1e-9`: every computed mean is within `2e-4` of the exact one, up to the rounding of the
mean itself. -/
theorem C129_typical (hf : Nearest fl) (hex : ExpWithin (1 / 2 ^ 50) ex)
    (ho : o.Covers d) (hd : d ≤ 10) (hn : name ∈ baseNames) (hh : Describes h σ 1 l)
    (hσ : 1 / 100 ≤ σ ^ 2) (hσ1 : σ ^ 2 ≤ 1)
    {X : Fin n → Point d} {Xs : Fin m → Point d} (hX : ∀ i, scaledLength l (X i) ≤ 10)
    (hXs : ∀ j, scaledLength l (Xs j) ≤ 10) (hn20 : n ≤ 20) {o' : SumOrder} (ho' : o'.Covers n)
    {prior : Gp.PriorMu d} {μ : Fin n → ℝ} {μs : Fin m → ℝ}
    (hμ : Gp.getPriorMu prior (.vec X) = .ok μ) (hμs : Gp.getPriorMu prior (.vec Xs) = .ok μs)
    (hμd : ∀ i, μ i ∈ Double) (hμsd : ∀ j, μs j ∈ Double) {Y : Fin n → ℝ} (hY : ∀ i, Y i ∈ Double)
    (hr : ∀ i, |Y i - μ i| ≤ 3)
    {K V : Matrix (Fin n) (Fin n) ℝ} (hK : RoundedKernels.kernelMatrix fl ex o X h name = .ok K)
    (hVd : ∀ i j, V i j ∈ Double) (hθ : ∀ i j, |V i j - K⁻¹ i j| ≤ 1 / 10 ^ 9) :
    ∃ mu sd S mu' sd' S', Gp.predictWithHyps (.vec X) Y (.vec Xs) h name prior = .ok (mu, sd, S) ∧
      RoundedPredict.predictWithCov fl ex o (orderedMul fl o') X Y Xs K V h name prior =
        .ok (mu', sd', S') ∧
      ∀ j, |mu' j - mu j| ≤ 2 / 10 ^ 4 + 1 / 2 ^ 53 * |mu j| := by
  have hn' : (n : ℝ) ≤ 20 := by exact_mod_cast hn20
  have hn0 : (0 : ℝ) ≤ n := Nat.cast_nonneg n
  have hd' : (d : ℝ) ≤ 10 := by exact_mod_cast hd
  have hd0 : (0 : ℝ) ≤ d := Nat.cast_nonneg d
  have ht1 : (2 : ℝ) ^ (-1070 : ℤ) ≤ 1 / 10 ^ 20 := by
    have h1 : (2 : ℝ) ^ (-1070 : ℤ) ≤ (2 : ℝ) ^ (-70 : ℤ) := zpow_le_zpow_right₀ (by norm_num) (by norm_num)
    exact h1.trans (by norm_num)
  have ht2 : (2 : ℝ) ^ (-1075 : ℤ) ≤ 1 / 10 ^ 20 := by
    have h1 : (2 : ℝ) ^ (-1075 : ℤ) ≤ (2 : ℝ) ^ (-1070 : ℤ) :=
      zpow_le_zpow_right₀ (by norm_num) (by norm_num)
    exact h1.trans ht1
  have ht2' : (0 : ℝ) < (2 : ℝ) ^ (-1075 : ℤ) := by positivity
  have ht1' : (0 : ℝ) < (2 : ℝ) ^ (-1070 : ℤ) := by positivity
  obtain ⟨E, hE⟩ : ∃ E : ℝ, E = 1 ^ 2 * (2 * (1 / 2 ^ 50) + (1 + (d + 1) * 10) / 2 ^ 44) +
    (σ ^ 2 + 1) / 2 ^ 49 := ⟨_, rfl⟩
  obtain ⟨e, he⟩ : ∃ e : ℝ, e = 1 ^ 2 * (2 * (1 / 2 ^ 50) + (1 + (d + 1) * 10) / 2 ^ 45) +
    (2 : ℝ) ^ (-1070 : ℤ) := ⟨_, rfl⟩
  have hE0 : 0 ≤ E := by rw [hE]; positivity
  have he0 : 0 ≤ e := by rw [he]; positivity
  have hE1 : E ≤ 1 / 10 ^ 11 := by
    rw [hE]
    norm_num
    linarith
  have he1 : e ≤ 1 / 10 ^ 11 := by
    rw [he]
    norm_num at ht1 ⊢
    linarith
  have hnE0 : 0 ≤ n * E := by positivity
  have hnE : n * E ≤ 2 / 10 ^ 10 := by
    have := mul_le_mul hn' hE1 hE0 (by norm_num)
    linarith
  have hlt : n * E < σ ^ 2 + 1 / 100000 := by
    norm_num at hnE hσ ⊢
    linarith
  have hgap : 1 / 100 ≤ σ ^ 2 + 1 / 100000 - n * E := by
    norm_num at hnE hσ ⊢
    linarith
  have hgap0 : 0 < σ ^ 2 + 1 / 100000 - n * E := sub_pos.2 hlt
  have hτ : 1 / 100 ≤ σ ^ 2 + 1 / 100000 := by linarith
  obtain ⟨B, hB⟩ : ∃ B : ℝ, B = 1 / (σ ^ 2 + 1 / 100000 - n * E) + 1 / 10 ^ 9 := ⟨_, rfl⟩
  have hB1 : B ≤ 101 := by
    have : 1 / (σ ^ 2 + 1 / 100000 - n * E) ≤ 1 / (1 / 100) :=
      one_div_le_one_div_of_le (by norm_num) hgap
    rw [hB]
    norm_num at this ⊢
    linarith
  have hB0 : 0 ≤ B := by rw [hB]; positivity
  obtain ⟨ρ, hρ⟩ : ∃ ρ : ℝ, ρ = n * E / ((σ ^ 2 + 1 / 100000) * (σ ^ 2 + 1 / 100000 - n * E)) +
    n * (1 / 10 ^ 9) := ⟨_, rfl⟩
  have hρ1 : ρ ≤ 1 / 490000 := by
    have h1 : (1 / 100) * (1 / 100) ≤ (σ ^ 2 + 1 / 100000) * (σ ^ 2 + 1 / 100000 - n * E) :=
      mul_le_mul hτ hgap (by norm_num) (by positivity)
    have h2 : n * E / ((σ ^ 2 + 1 / 100000) * (σ ^ 2 + 1 / 100000 - n * E)) ≤
        (2 / 10 ^ 10) / ((1 / 100) * (1 / 100)) :=
      div_le_div₀ (by norm_num) hnE (by norm_num) h1
    rw [hρ]
    norm_num at h2 ⊢
    linarith
  have hρ0 : 0 ≤ ρ := by rw [hρ]; positivity
  obtain ⟨Q, hQ⟩ : ∃ Q : ℝ, Q = √n * √(∑ i, (Y i - μ i) ^ 2) := ⟨_, rfl⟩
  have hQ0 : 0 ≤ Q := by rw [hQ]; positivity
  have hQ1 : Q ≤ 60 := by
    have h1 : ∑ i, (Y i - μ i) ^ 2 ≤ n * 9 := by
      refine (Finset.sum_le_sum fun i _ => (?_ : (Y i - μ i) ^ 2 ≤ 9)).trans_eq (by simp)
      rw [← sq_abs]
      have := pow_le_pow_left₀ (abs_nonneg _) (hr i) 2
      norm_num at this ⊢
      exact this
    rw [hQ, ← Real.sqrt_mul hn0]
    apply Real.sqrt_le_iff.2
    refine ⟨by norm_num, ?_⟩
    have h2 := mul_le_mul hn' (h1.trans (mul_le_mul_of_nonneg_right hn' (by norm_num)))
      (Finset.sum_nonneg fun i _ => sq_nonneg _) (by norm_num)
    norm_num at h2 ⊢
    exact h2
  obtain ⟨γ, hγ⟩ : ∃ γ : ℝ, γ = (4 * n + 1) / 2 ^ 53 := ⟨_, rfl⟩
  obtain ⟨t, ht⟩ : ∃ t : ℝ, t = 2 * n * (2 : ℝ) ^ (-1075 : ℤ) := ⟨_, rfl⟩
  have hγ0 : 0 ≤ γ := by rw [hγ]; positivity
  have hγ1 : γ ≤ 1 / 10 ^ 13 := by
    rw [hγ]
    norm_num
    linarith
  have ht0 : 0 ≤ t := by rw [ht]; positivity
  have ht3 : t ≤ 1 / 10 ^ 15 := by
    rw [ht]
    have := mul_le_mul (mul_le_mul_of_nonneg_left hn' (by norm_num : (0 : ℝ) ≤ 2)) ht2 ht2'.le
      (by norm_num)
    refine this.trans (by norm_num)
  have hmm := C129_products (fl := fl) hf ho' (hn20.trans (by norm_num))
  rw [← hγ, ← ht] at hmm
  obtain ⟨mu, sd, S, mu', sd', S', h1, h2, h3, -⟩ := C129_predictions (mm := orderedMul fl o') hf hex
    (by positivity) (by norm_num) ho (hd.trans (by norm_num)) hn hh hX hXs
    (by norm_num; linarith) hγ0 (hγ1.trans (by norm_num)) ht0 hmm hμ hμs hμd hμsd hY hK hVd
    (by positivity) hθ (u := 1 / 2 ^ 53) rfl hE he hlt hB rfl hρ hQ rfl rfl
  refine ⟨mu, sd, S, mu', sd', S', h1, h2, fun j => (h3 j).trans (add_le_add ?_ le_rfl)⟩
  have hκ : (1 : ℝ) ^ 2 + e ≤ 2 := by
    norm_num at he1 ⊢
    linarith
  have hin : e + (6 * γ + 1 / 2 ^ 53) * (1 ^ 2 + e) ≤ 2 / 10 ^ 11 := by
    have h5 : (6 * γ + 1 / 2 ^ 53) * (1 ^ 2 + e) ≤ (6 * (1 / 10 ^ 13) + 1 / 2 ^ 53) * 2 :=
      mul_le_mul (by linarith) hκ (by positivity) (by norm_num)
    norm_num at h5 he1 ⊢
    linarith
  have hin0 : 0 ≤ e + (6 * γ + 1 / 2 ^ 53) * (1 ^ 2 + e) := by positivity
  have h6 : n * B * (e + (6 * γ + 1 / 2 ^ 53) * (1 ^ 2 + e)) ≤ 20 * 101 * (2 / 10 ^ 11) :=
    mul_le_mul (mul_le_mul hn' hB1 hB0 (by norm_num)) hin hin0 (by norm_num)
  have h7 : Q * (1 ^ 2 * ρ + n * B * (e + (6 * γ + 1 / 2 ^ 53) * (1 ^ 2 + e)) + 4 * t) ≤
      60 * (1 / 490000 + 20 * 101 * (2 / 10 ^ 11) + 4 * (1 / 10 ^ 15)) :=
    mul_le_mul hQ1 (by linarith) (by positivity) (by norm_num)
  have h8 : Q * (1 ^ 2 * ρ + n * B * (e + (6 * γ + 1 / 2 ^ 53) * (1 ^ 2 + e)) + 4 * t) + t ≤
      15 / 10 ^ 5 := by
    norm_num at h7 ht3 ⊢
    linarith
  refine (mul_le_mul_of_nonneg_left h8 (by norm_num)).trans (by norm_num)

end

private noncomputable def rpPoints : Fin 2 → Point 2 := ![![0, 0], ![1, 2]]

private noncomputable def rpTests : Fin 1 → Point 2 := ![![3, -4]]

private theorem rpPoints_length (i : Fin 2) : scaledLength (![1, 2] : Fin 2 → ℝ) (rpPoints i) ≤ 10 := by
  refine Real.sqrt_le_iff.2 ⟨by norm_num, ?_⟩
  fin_cases i <;> simp [rpPoints, Fin.sum_univ_two] <;> norm_num

private theorem rpTests_length (i : Fin 1) : scaledLength (![1, 2] : Fin 2 → ℝ) (rpTests i) ≤ 10 := by
  refine Real.sqrt_le_iff.2 ⟨by norm_num, ?_⟩
  fin_cases i
  simp [rpTests, Fin.sum_univ_two]
  norm_num

private noncomputable def rpHyps : HypDict :=
  ⟨some (.flt (.fin (1 / 2))), none, some (.flt (.fin 1)), some (.arr [.fin 1, .fin 2])⟩

private theorem rpHyps_describes : Describes rpHyps (1 / 2) 1 (![1, 2] : Fin 2 → ℝ) where
  noise := rfl
  signal := rfl
  lengthscales := .inl (by simp [rpHyps])
  nonzero := fun k => by fin_cases k <;> simp

/-- Hypotheses of `C129_typical` are met by two observations in two dimensions with the inverse rounded entry
by entry. -/
example : ∃ (fl ex : ℝ → ℝ) (o : SumOrder) (K V : Matrix (Fin 2) (Fin 2) ℝ), Nearest fl ∧
    ExpWithin (1 / 2 ^ 50) ex ∧ o.Covers 2 ∧ "matern52" ∈ baseNames ∧
    Describes rpHyps (1 / 2) 1 (![1, 2] : Fin 2 → ℝ) ∧
    (∀ i, scaledLength (![1, 2] : Fin 2 → ℝ) (rpPoints i) ≤ 10) ∧
    (∀ i, scaledLength (![1, 2] : Fin 2 → ℝ) (rpTests i) ≤ 10) ∧
    Gp.getPriorMu none (.vec rpPoints) = .ok (fun _ => 0) ∧
    Gp.getPriorMu none (.vec rpTests) = .ok (fun _ => 0) ∧ (0 : ℝ) ∈ Double ∧
    (∀ i, (![1, -2] : Fin 2 → ℝ) i ∈ Double) ∧ (∀ i, |(![1, -2] : Fin 2 → ℝ) i - 0| ≤ 3) ∧
    RoundedKernels.kernelMatrix fl ex o rpPoints rpHyps "matern52" = .ok K ∧
    (∀ i j, V i j ∈ Double) ∧ ∀ i j, |V i j - K⁻¹ i j| ≤ 1 / 10 ^ 9 := by
  have hf := roundAway_nearest
  have hex : ExpWithin (1 / 2 ^ 50) fun x => roundAway (Real.exp x) := by
    have h := expWithin_round hf
    exact ⟨h.zero, h.nonneg, h.le_one, fun x hx => (h.near x hx).trans (add_le_add
      (mul_le_mul_of_nonneg_right (by norm_num) (Real.exp_pos x).le) le_rfl)⟩
  have ho : (SumOrder.add (.entry 0) (.entry 1)).Covers 2 := by
    simp [SumOrder.Covers, SumOrder.entries, List.range_succ]
  have hn : "matern52" ∈ baseNames := by simp [baseNames]
  obtain ⟨K, hK, hs, hKe⟩ := kernelMatrix_error hf hex (by norm_num) (by norm_num) ho (by norm_num) hn
    rpHyps_describes rpPoints_length (by norm_num)
  have hB := near_inverse_entry (V := K⁻¹) (θ := 0) hs hKe (by norm_num) (by simp)
  have ht2 : (2 : ℝ) ^ (-1075 : ℤ) ≤ 1 / 10 ^ 20 := by
    have h1 : (2 : ℝ) ^ (-1075 : ℤ) ≤ (2 : ℝ) ^ (-70 : ℤ) := zpow_le_zpow_right₀ (by norm_num) (by norm_num)
    exact h1.trans (by norm_num)
  refine ⟨roundAway, _, _, K, fun i j => roundAway (K⁻¹ i j), hf, hex, ho, hn, rpHyps_describes,
    rpPoints_length, rpTests_length, rfl, rfl, ⟨0, 0, by norm_num, by norm_num, by norm_num⟩, ?_, ?_, hK,
    fun i j => hf.mem _, fun i j => (fl_error hf _).trans ?_⟩
  · intro i
    fin_cases i
    · exact ⟨1, 0, by norm_num, by norm_num, by norm_num⟩
    · exact ⟨-2, 0, by norm_num, by norm_num, by norm_num⟩
  · intro i
    fin_cases i <;> norm_num
  · have h1 : |K⁻¹ i j| ≤ 10 := (hB i j).trans (by norm_num)
    norm_num at h1 ht2 ⊢
    linarith

end Verif.Props
