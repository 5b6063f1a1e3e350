import Verif.Model.RoundedKernels
import Verif.Spec.RoundedKernels
import Verif.Spec.Kernels
import Verif.Lemmas.Rounded
import Verif.Lemmas.Kernel
import Mathlib.Analysis.Calculus.MeanValue
import Mathlib.Analysis.SpecialFunctions.ExpDeriv
import Mathlib.Analysis.InnerProductSpace.PiL2

/-! # Rounding errors of covariances (lemmas for C127) -/

namespace Verif.Lemmas

open Verif.Spec Verif.Covariance Verif.UtilsCovariance Verif.Rounded Verif.RoundedKernels

variable {fl ex : ℝ → ℝ}

/-! ### Elementary estimates -/

theorem sqrt_close {A B γ δ : ℝ} (hA : 0 ≤ A) (hB : 0 ≤ B) (hγ : 0 ≤ γ) (hδ : 0 ≤ δ)
    (h : |A - B ^ 2| ≤ γ * B ^ 2 + δ) : |√A - B| ≤ γ * B + √δ := by
  by_contra hc
  push Not at hc
  set z := |√A - B| with hz
  have hA2 : √A ^ 2 = A := Real.sq_sqrt hA
  have hd2 : √δ ^ 2 = δ := Real.sq_sqrt hδ
  have ha0 := Real.sqrt_nonneg A
  have hd0 := Real.sqrt_nonneg δ
  have hz0 : 0 ≤ z := abs_nonneg _
  have e : z * (√A + B) = |A - B ^ 2| := by
    rw [hz, ← abs_of_nonneg (show 0 ≤ √A + B by positivity), ← abs_mul]
    congr 1
    calc (√A - B) * (√A + B) = √A ^ 2 - B ^ 2 := by ring
      _ = _ := by rw [hA2]
  have h1 : z ≤ √A + B := by
    rw [hz, abs_le]
    constructor <;> linarith
  have h2 : B ≤ √A + B := by linarith
  have h3 : z * z ≤ γ * B ^ 2 + δ := (mul_le_mul_of_nonneg_left h1 hz0).trans (e.trans_le h)
  have h4 : z * B ≤ γ * B ^ 2 + δ := (mul_le_mul_of_nonneg_left h2 hz0).trans (e.trans_le h)
  have hγB : 0 ≤ γ * B := by positivity
  rcases le_total (√δ) B with hb | hb
  · rcases hB.eq_or_lt with h0 | hpos
    · rw [← h0] at hb hc
      nlinarith
    · nlinarith [mul_lt_mul_of_pos_right hc hpos]
  · have : (γ * B + √δ) * (γ * B + √δ) < z * z := mul_self_lt_mul_self (by positivity) hc
    nlinarith [mul_nonneg hγB hd0, mul_le_mul_of_nonneg_left hb hγB]

theorem pow_sub_one_le {u : ℝ} (hu : 0 ≤ u) (n : ℕ) (h : 2 * n * u ≤ 1) :
    (1 + u) ^ n - 1 ≤ 2 * n * u := by
  induction n with
  | zero => simp
  | succ n ih =>
    push_cast at h ⊢
    have h1 : 2 * (n : ℝ) * u ≤ 1 := by nlinarith
    have := ih h1
    rw [pow_succ]
    nlinarith [mul_nonneg (Nat.cast_nonneg n : (0 : ℝ) ≤ n) hu]

theorem exp_close {v w δ : ℝ} (h : |w - v| ≤ δ) :
    |Real.exp (-w) - Real.exp (-v)| ≤ δ * Real.exp δ * Real.exp (-v) := by
  have hδ : 0 ≤ δ := (abs_nonneg _).trans h
  have e : Real.exp (-w) = Real.exp (v - w) * Real.exp (-v) := by
    rw [← Real.exp_add]
    congr 1
    ring
  have hk : |Real.exp (v - w) - 1| ≤ δ * Real.exp δ := by
    obtain ⟨h1, h2⟩ := abs_le.1 h
    rw [abs_le]
    constructor
    · have h3 := Real.add_one_le_exp (v - w)
      have h4 : 1 ≤ Real.exp δ := Real.one_le_exp hδ
      nlinarith
    · have h3 : Real.exp (v - w) ≤ Real.exp δ := Real.exp_le_exp.2 (by linarith)
      have h4 := Real.add_one_le_exp (-δ)
      have h5 : Real.exp δ * Real.exp (-δ) = 1 := by rw [← Real.exp_add]; simp
      nlinarith [Real.exp_pos δ]
  rw [e, ← sub_one_mul, abs_mul, abs_of_pos (Real.exp_pos (-v))]
  exact mul_le_mul_of_nonneg_right hk (Real.exp_pos _).le

/-! ### The profiles change at most as fast as the distance -/

theorem lipschitz_of_deriv {g g' : ℝ → ℝ} (hg : ∀ x, HasDerivAt g (g' x) x)
    (hb : ∀ x, 0 ≤ x → |g' x| ≤ 1) {x y : ℝ} (hx : 0 ≤ x) (hy : 0 ≤ y) : |g x - g y| ≤ |x - y| := by
  have := Convex.norm_image_sub_le_of_norm_hasDerivWithin_le (s := Set.Ici (0 : ℝ)) (f := g)
    (f' := g') (C := 1) (fun x _ => (hg x).hasDerivWithinAt) (fun x hx => hb x hx) (convex_Ici 0)
    (Set.mem_Ici.2 hy) (Set.mem_Ici.2 hx)
  simpa using this

theorem exp_ge_two_mul (t : ℝ) : 2 * t ≤ Real.exp t := by
  have h1 := Real.add_one_le_exp (t - 1)
  have h2 : Real.exp t = Real.exp (t - 1) * Real.exp 1 := by rw [← Real.exp_add]; congr 1; ring
  have h3 : (2 : ℝ) ≤ Real.exp 1 := by linarith [Real.add_one_le_exp (1 : ℝ)]
  rcases le_total t 0 with ht | ht
  · linarith [Real.exp_pos t]
  · rw [h2]
    nlinarith [Real.exp_pos (t - 1)]

theorem profile_lipschitz (base : String) {x y : ℝ} (hx : 0 ≤ x) (hy : 0 ≤ y) :
    |profile base x - profile base y| ≤ |x - y| := by
  have h3 : √3 ^ 2 = 3 := Real.sq_sqrt (by norm_num)
  have h5 : √5 ^ 2 = 5 := Real.sq_sqrt (by norm_num)
  have p3 : 0 < √3 := by positivity
  have p5 : 0 < √5 := by positivity
  have b3 : √3 ≤ 2 := by nlinarith
  have b5 : √5 ≤ 3 := by nlinarith
  unfold profile
  split_ifs
  · refine lipschitz_of_deriv (g := m32Profile) (g' := fun r => -(3 * r * Real.exp (-(√3 * r))))
      (fun r => ?_) (fun r hr => ?_) hx hy
    · have h1 : HasDerivAt (fun r : ℝ => √3 * r) √3 r := by
        simpa using (hasDerivAt_id r).const_mul √3
      have h2 := (h1.const_add 1).mul h1.neg.exp
      refine h2.congr_deriv ?_
      simp only [Pi.neg_apply]
      ring_nf
      rw [h3]
      ring
    · rw [abs_neg, abs_of_nonneg (by positivity), Real.exp_neg, ← div_eq_mul_inv,
        div_le_one (Real.exp_pos _)]
      have := exp_ge_two_mul (√3 * r)
      have : 3 * r ≤ 2 * (√3 * r) := by nlinarith
      linarith
  · refine lipschitz_of_deriv (g := m52Profile)
      (g' := fun r => -(5 / 3 * r * (1 + √5 * r) * Real.exp (-(√5 * r)))) (fun r => ?_)
      (fun r hr => ?_) hx hy
    · have h1 : HasDerivAt (fun r : ℝ => √5 * r) √5 r := by
        simpa using (hasDerivAt_id r).const_mul √5
      have h0 : HasDerivAt (fun r : ℝ => 5 * r ^ 2 / 3) (5 * (2 * r) / 3) r := by
        simpa using ((hasDerivAt_pow 2 r).const_mul 5).div_const 3
      have h2 := ((h1.const_add 1).add h0).mul h1.neg.exp
      refine h2.congr_deriv ?_
      simp only [Pi.add_apply, Pi.neg_apply]
      ring_nf
      rw [h5]
      ring
    · rw [abs_neg, abs_of_nonneg (by positivity), Real.exp_neg, ← div_eq_mul_inv,
        div_le_one (Real.exp_pos _)]
      have hq := Real.quadratic_le_exp_of_nonneg (show 0 ≤ √5 * r by positivity)
      have hr2 : (√5 * r) ^ 2 = 5 * r ^ 2 := by rw [mul_pow, h5]
      have hc := exp_ge_two_mul (√5 * r)
      have b6 : 2 ≤ √5 := by nlinarith
      set E := Real.exp (√5 * r) with hE
      have hcube : (√5 * r) ^ 3 / 6 + (√5 * r) ^ 2 / 2 + √5 * r + 1 ≤ E := by
        have := Real.sum_le_exp_of_nonneg (show 0 ≤ √5 * r by positivity) 4
        simp only [Finset.sum_range_succ, Finset.sum_range_zero] at this
        norm_num [Nat.factorial] at this
        linarith
      have e3 : (√5 * r) ^ 3 = 5 * r ^ 2 * (√5 * r) := by rw [pow_succ, hr2]
      rw [e3, hr2] at hcube
      nlinarith [mul_nonneg hr hr, mul_nonneg (mul_nonneg hr hr) hr, sq_nonneg (r - 1), sq_nonneg (2 * r - 1)]
  · refine lipschitz_of_deriv (g := seProfile) (g' := fun r => -(r * Real.exp (-(r ^ 2 / 2))))
      (fun r => ?_) (fun r hr => ?_) hx hy
    · have h0 : HasDerivAt (fun r : ℝ => r ^ 2 / 2) (2 * r / 2) r := by
        simpa using (hasDerivAt_pow 2 r).div_const 2
      refine h0.neg.exp.congr_deriv ?_
      simp only [Pi.neg_apply]
      ring
    · rw [abs_neg, abs_of_nonneg (by positivity), Real.exp_neg, ← div_eq_mul_inv,
        div_le_one (Real.exp_pos _)]
      have := Real.add_one_le_exp (r ^ 2 / 2)
      nlinarith [sq_nonneg (r - 1)]

/-! ### Lengths -/

theorem length_add_le {d : ℕ} (a b : Fin d → ℝ) :
    √(∑ k, (a k + b k) ^ 2) ≤ √(∑ k, a k ^ 2) + √(∑ k, b k ^ 2) := by
  have := norm_add_le (WithLp.toLp 2 a : EuclideanSpace ℝ (Fin d)) (WithLp.toLp 2 b)
  simpa [EuclideanSpace.norm_eq] using this

theorem length_mono {d : ℕ} {a b : Fin d → ℝ} (h : ∀ k, |a k| ≤ b k) :
    √(∑ k, a k ^ 2) ≤ √(∑ k, b k ^ 2) := by
  refine Real.sqrt_le_sqrt (Finset.sum_le_sum fun k _ => ?_)
  rw [← sq_abs]
  exact pow_le_pow_left₀ (abs_nonneg _) (h k) 2

theorem length_neg {d : ℕ} (a : Fin d → ℝ) : √(∑ k, (-a k) ^ 2) = √(∑ k, a k ^ 2) := by simp

/-- The length of an error whose entries have a relative and an absolute part. -/
theorem length_error {d : ℕ} {a α : Fin d → ℝ} {u τ : ℝ} (hu : 0 ≤ u) (hτ : 0 ≤ τ)
    (hd : (d : ℝ) ≤ 2 ^ 20) (h : ∀ k, |a k - α k| ≤ u * |α k| + τ) :
    √(∑ k, (a k - α k) ^ 2) ≤ u * √(∑ k, α k ^ 2) + 2 ^ 10 * τ := by
  refine (length_mono h).trans ((length_add_le (fun k => u * |α k|) fun _ => τ).trans
    (add_le_add ?_ ?_))
  · simp only [mul_pow, sq_abs, ← Finset.mul_sum]
    rw [Real.sqrt_mul (sq_nonneg u), Real.sqrt_sq hu]
  · rw [Finset.sum_const, Finset.card_univ, Fintype.card_fin, nsmul_eq_mul]
    refine Real.sqrt_le_iff.2 ⟨by positivity, ?_⟩
    nlinarith [sq_nonneg τ]

/-! ### Sums of squares -/

theorem sumList_eq (v : List ℝ) (o : SumOrder) : sumList fl v o = sumR fl v o := by
  induction o with
  | entry i => rfl
  | add a b iha ihb => rw [sumList, sumR, iha, ihb]

theorem sum_covers {d : ℕ} {o : SumOrder} (ho : o.Covers d) (q : Fin d → ℝ) :
    (o.entries.map fun i => (List.ofFn q)[i]?.getD 0).sum = ∑ k, q k := by
  rw [(ho.map _).sum_eq, ← List.sum_ofFn]
  congr 1
  apply List.ext_getElem?
  intro i
  rcases Nat.lt_or_ge i d with hi | hi
  · simp [hi, List.getElem?_range hi]
  · simp [hi]

theorem sumList_error (h : Nearest fl) {d : ℕ} {o : SumOrder} (ho : o.Covers d)
    (hd : (d : ℝ) ≤ 2 ^ 20) {q : Fin d → ℝ} (hq : ∀ k, q k ∈ Double) (hq0 : ∀ k, 0 ≤ q k) :
    |sumList fl (List.ofFn q) o - ∑ k, q k| ≤ 2 * d * (1 / 2 ^ 53) * ∑ k, q k := by
  rw [sumList_eq]
  have h1 := sumR_error h (List.ofFn q) (by simpa [List.mem_ofFn] using hq) o
  have hl : o.entries.length = d := by simpa using ho.length_eq
  have habs : (o.entries.map fun i => |(List.ofFn q)[i]?.getD 0|) =
      o.entries.map fun i => (List.ofFn q)[i]?.getD 0 := by
    apply List.map_congr_left
    intro i _
    apply abs_of_nonneg
    rcases Nat.lt_or_ge i d with hi | hi
    · simp [hi, hq0]
    · simp [hi]
  rw [habs, sum_covers ho, hl] at h1
  refine h1.trans (mul_le_mul_of_nonneg_right ?_ (Finset.sum_nonneg fun k _ => hq0 k))
  have h2 := pow_sub_one_le (u := 1 / 2 ^ 53) (by positivity) d (by
    have : (2 * (d : ℝ)) * (1 / 2 ^ 53) ≤ (2 * 2 ^ 20) * (1 / 2 ^ 53) := by gcongr
    exact this.trans (by norm_num))
  have h3 : ((1 : ℝ) + 1 / 2 ^ 53) ^ (d - 1) ≤ (1 + 1 / 2 ^ 53) ^ d :=
    pow_le_pow_right₀ (by norm_num) (Nat.sub_le d 1)
  linarith

theorem sumList_nonneg (h : Nearest fl) {v : List ℝ} (hv : ∀ x ∈ v, 0 ≤ x) (o : SumOrder) :
    0 ≤ sumList fl v o := by
  induction o with
  | entry i =>
    rw [sumList]
    rcases Nat.lt_or_ge i v.length with hi | hi
    · simp [hi, hv]
    · simp [hi]
  | add a b iha ihb =>
    rw [sumList]
    exact fl_nonneg h (add_nonneg iha ihb)

/-- The square of a rounded difference, rounded. -/
theorem square_error (h : Nearest fl) {a b : ℝ} (ha : a ∈ Double) (hb : b ∈ Double) :
    |fl (fl (a - b) ^ 2) - (a - b) ^ 2| ≤ 5 * (1 / 2 ^ 53) * (a - b) ^ 2 + (2 : ℝ) ^ (-1075 : ℤ) := by
  have h1 := fl_sub_rel h ha hb
  have h2 := fl_error h (fl (a - b) ^ 2)
  have hu : (0 : ℝ) < 1 / 2 ^ 53 := by norm_num
  have hu1 : (1 : ℝ) / 2 ^ 53 ≤ 1 / 100 := by norm_num
  generalize fl (fl (a - b) ^ 2) = q at h2 ⊢
  generalize (2 : ℝ) ^ (-1075 : ℤ) = τ at h2 ⊢
  generalize fl (a - b) = e at h1 h2
  generalize a - b = x at h1 ⊢
  generalize (1 : ℝ) / 2 ^ 53 = u at *
  have h3 : |e ^ 2 - x ^ 2| ≤ 3 * u * x ^ 2 := by
    have e1 : e ^ 2 - x ^ 2 = (e - x) * (e - x) + 2 * ((e - x) * x) := by ring
    rw [e1]
    refine (abs_add_le _ _).trans ?_
    rw [abs_mul, abs_mul 2, abs_mul (e - x), abs_of_pos (by norm_num : (0 : ℝ) < 2)]
    have := abs_nonneg (e - x)
    have hx := abs_nonneg x
    rw [← sq_abs x]
    nlinarith [mul_nonneg hu.le hx, mul_le_mul h1 h1 this (mul_nonneg hu.le hx),
      mul_le_mul_of_nonneg_right h1 hx, mul_nonneg hu.le (sq_nonneg |x|)]
  rw [abs_of_nonneg (sq_nonneg e)] at h2
  have h4 := abs_sub_le q (e ^ 2) (x ^ 2)
  have h5 := (abs_le.1 h3).2
  nlinarith [sq_nonneg x, mul_nonneg hu.le (sq_nonneg x), mul_nonneg hu.le (mul_nonneg hu.le (sq_nonneg x))]

theorem sqrt_zpow_small : √((2 : ℝ) ^ (-1054 : ℤ)) = (2 : ℝ) ^ (-527 : ℤ) := by
  rw [show (2 : ℝ) ^ (-1054 : ℤ) = ((2 : ℝ) ^ (-527 : ℤ)) ^ 2 by
    rw [← zpow_natCast, ← zpow_mul]; norm_num, Real.sqrt_sq (by positivity)]

/-- The distance of rounded points. -/
theorem dist_error (h : Nearest fl) {d : ℕ} {o : SumOrder} (ho : o.Covers d)
    (hd : (d : ℝ) ≤ 2 ^ 20) {a b : Fin d → ℝ} (ha : ∀ k, a k ∈ Double) (hb : ∀ k, b k ∈ Double) :
    |fl √(sumList fl (List.ofFn fun k => fl (fl (a k - b k) ^ 2)) o) - √(∑ k, (a k - b k) ^ 2)| ≤
      (4 * d + 7) * (1 / 2 ^ 53) * √(∑ k, (a k - b k) ^ 2) + (2 : ℝ) ^ (-525 : ℤ) := by
  set q : Fin d → ℝ := fun k => fl (fl (a k - b k) ^ 2) with hq
  have hq0 : ∀ k, 0 ≤ q k := fun k => fl_nonneg h (sq_nonneg _)
  have h1 := sumList_error h ho hd (q := q) (fun k => h.mem _) hq0
  have hS := sumList_nonneg h (v := List.ofFn q) (by simpa [List.mem_ofFn] using hq0) o
  have h2 : |∑ k, q k - ∑ k, (a k - b k) ^ 2| ≤
      5 * (1 / 2 ^ 53) * ∑ k, (a k - b k) ^ 2 + d * (2 : ℝ) ^ (-1075 : ℤ) := by
    rw [← Finset.sum_sub_distrib]
    refine (Finset.abs_sum_le_sum_abs _ _).trans
      ((Finset.sum_le_sum fun k _ => square_error h (ha k) (hb k)).trans_eq ?_)
    rw [Finset.sum_add_distrib, ← Finset.mul_sum]
    simp
  have hD := Finset.sum_nonneg (s := Finset.univ) fun k (_ : k ∈ Finset.univ) => sq_nonneg (a k - b k)
  have h3 := fl_error h √(sumList fl (List.ofFn q) o)
  generalize sumList fl (List.ofFn q) o = S at h1 h3 hS ⊢
  generalize ∑ k, q k = Q at h1 h2
  generalize ∑ k, (a k - b k) ^ 2 = D at h2 hD ⊢
  set B := √D with hB
  have hB0 : 0 ≤ B := Real.sqrt_nonneg _
  have hBD : D = B ^ 2 := (Real.sq_sqrt hD).symm
  rw [hBD] at h2
  have hd0 : (0 : ℝ) ≤ d := Nat.cast_nonneg d
  set u : ℝ := 1 / 2 ^ 53 with hu
  have hu0 : 0 < u := by rw [hu]; norm_num
  have hdu : (d : ℝ) * u ≤ 1 / 2 ^ 33 := by
    refine (mul_le_mul_of_nonneg_right hd hu0.le).trans ?_
    rw [hu]
    norm_num
  have hu1 : u ≤ 1 / 100 := by rw [hu]; norm_num
  have hτ : (0 : ℝ) < (2 : ℝ) ^ (-1075 : ℤ) := by positivity
  have hdτ : 2 * (d : ℝ) * (2 : ℝ) ^ (-1075 : ℤ) ≤ (2 : ℝ) ^ (-1054 : ℤ) := by
    have e : (2 : ℝ) ^ (-1054 : ℤ) = 2 * 2 ^ 20 * (2 : ℝ) ^ (-1075 : ℤ) := by
      rw [show (2 : ℝ) * 2 ^ 20 = (2 : ℝ) ^ (21 : ℤ) by norm_num, ← zpow_add₀ (by norm_num)]
      norm_num
    rw [e]
    gcongr
  have hτs : (2 : ℝ) ^ (-1075 : ℤ) ≤ (2 : ℝ) ^ (-527 : ℤ) :=
    zpow_le_zpow_right₀ (by norm_num) (by norm_num)
  have h525 : (2 : ℝ) ^ (-525 : ℤ) = 4 * (2 : ℝ) ^ (-527 : ℤ) := by
    rw [show (4 : ℝ) = (2 : ℝ) ^ (2 : ℤ) by norm_num, ← zpow_add₀ (by norm_num)]
    norm_num
  generalize (2 : ℝ) ^ (-1075 : ℤ) = τ at *
  have hQ0 : 0 ≤ B ^ 2 := sq_nonneg B
  clear_value u B
  clear hu hB hBD hD
  have hSD : |S - B ^ 2| ≤ ((4 * d + 5) * u) * B ^ 2 + 2 * d * τ := by
    have h4 := abs_sub_le S Q (B ^ 2)
    have h5 := (abs_le.1 h2).2
    have h50 : 5 * u * B ^ 2 ≤ 5 * (1 / 100) * B ^ 2 := by gcongr
    have hQ : Q ≤ 2 * B ^ 2 + d * τ := by linarith
    have hdu0 : 0 ≤ (d : ℝ) * u := by positivity
    have hdτ0 : 0 ≤ (d : ℝ) * τ := by positivity
    have h6 : 2 * (d : ℝ) * u * Q ≤ 2 * (d * u) * (2 * B ^ 2 + d * τ) := by nlinarith
    have h60 : d * u * (d * τ) ≤ 1 / 2 ^ 33 * (d * τ) := mul_le_mul_of_nonneg_right hdu hdτ0
    have h61 : 2 * (d * u) * (2 * B ^ 2 + d * τ) = 4 * (d * u * B ^ 2) + 2 * (d * u * (d * τ)) := by
      ring
    have h62 : ((4 * d + 5) * u) * B ^ 2 = 4 * (d * u * B ^ 2) + 5 * u * B ^ 2 := by ring
    rw [h62]
    linarith
  have h7 := sqrt_close hS hB0 (by positivity) (by positivity) hSD
  have h8 : √(2 * d * τ) ≤ (2 : ℝ) ^ (-527 : ℤ) := by
    rw [← sqrt_zpow_small]
    exact Real.sqrt_le_sqrt hdτ
  rw [h525]
  generalize (2 : ℝ) ^ (-527 : ℤ) = ε at *
  have hε : 0 ≤ ε := hτ.le.trans hτs
  rw [abs_of_nonneg (Real.sqrt_nonneg S)] at h3
  have h9 := abs_sub_le (fl √S) √S B
  have h10 := (abs_le.1 h7).2
  have h11 : u * √S ≤ u * (2 * B + ε) := by
    apply mul_le_mul_of_nonneg_left _ hu0.le
    have h12 : (4 * (d : ℝ) + 5) * u * B ≤ 1 * B := by
      apply mul_le_mul_of_nonneg_right _ hB0
      linarith
    linarith
  have h13 : u * ε ≤ 1 / 100 * ε := mul_le_mul_of_nonneg_right hu1 hε
  have h14 : (4 * (d : ℝ) + 7) * u * B = (4 * d + 5) * u * B + u * (2 * B) := by ring
  rw [h14]
  linarith

theorem scale_stands {d : ℕ} {L : Lengthscales d} {l : Fin d → ℝ} (hL : Stands L l) (x : Point d)
    (k : Fin d) : scale fl L x k = fl (x k / l k) := by
  rcases hL with rfl | ⟨a, _, hl, rfl⟩
  · rfl
  · simp [scale, hl]

theorem scaledDistance_le {d : ℕ} (l : Fin d → ℝ) (x y : Point d) :
    scaledDistance l x y ≤ scaledLength l x + scaledLength l y := by
  have := length_add_le (fun k => x k / l k) fun k => -(y k / l k)
  rw [length_neg] at this
  simpa only [scaledDistance, scaledLength, sub_div, ← sub_eq_add_neg] using this

/-- The scaled distance with rounding is close to the scaled distance. -/
theorem scaledDist_error (h : Nearest fl) {n m d : ℕ} {o : SumOrder} (ho : o.Covers d)
    (hd : (d : ℝ) ≤ 2 ^ 20) {L : Lengthscales d} {l : Fin d → ℝ} (hL : Stands L l)
    (X : Fin n → Point d) (Xp : Fin m → Point d) (i : Fin n) (j : Fin m) :
    |RoundedKernels.scaledDist fl o X Xp L i j - scaledDistance l (X i) (Xp j)| ≤
      16 * (d + 1) * (1 / 2 ^ 53) * (scaledLength l (X i) + scaledLength l (Xp j)) +
        (2 : ℝ) ^ (-524 : ℤ) := by
  unfold RoundedKernels.scaledDist
  simp only [scale_stands hL]
  set a : Fin d → ℝ := fun k => fl (X i k / l k) with ha
  set b : Fin d → ℝ := fun k => fl (Xp j k / l k) with hb
  set α : Fin d → ℝ := fun k => X i k / l k with hα
  set β : Fin d → ℝ := fun k => Xp j k / l k with hβ
  have h0 := dist_error h ho hd (a := a) (b := b) (fun k => h.mem _) fun k => h.mem _
  have hu : (0 : ℝ) ≤ 1 / 2 ^ 53 := by norm_num
  have hτ : (0 : ℝ) < (2 : ℝ) ^ (-1075 : ℤ) := by positivity
  have h1 := length_error (a := a) (α := α) hu hτ.le hd fun k => fl_error h _
  have h2 := length_error (a := b) (α := β) hu hτ.le hd fun k => fl_error h _
  have h3 := length_add_le (fun k => a k - α k) fun k => -(b k - β k)
  rw [length_neg] at h3
  have h4 : √(∑ k, (a k - b k) ^ 2) ≤ √(∑ k, (α k - β k) ^ 2) +
      √(∑ k, (a k - α k + -(b k - β k)) ^ 2) := by
    refine le_trans (le_of_eq ?_) (length_add_le _ _)
    congr 1
    exact Finset.sum_congr rfl fun k _ => by ring
  have h5 : √(∑ k, (α k - β k) ^ 2) ≤ √(∑ k, (a k - b k) ^ 2) +
      √(∑ k, (a k - α k + -(b k - β k)) ^ 2) := by
    rw [← length_neg (fun k => a k - α k + -(b k - β k))]
    refine le_trans (le_of_eq ?_) (length_add_le _ _)
    congr 1
    exact Finset.sum_congr rfl fun k _ => by ring
  have er : scaledDistance l (X i) (Xp j) = √(∑ k, (α k - β k) ^ 2) := by
    simp [scaledDistance, hα, hβ, sub_div]
  have hr := scaledDistance_le l (X i) (Xp j)
  rw [er]
  rw [er] at hr
  have e1 : scaledLength l (X i) = √(∑ k, α k ^ 2) := rfl
  have e2 : scaledLength l (Xp j) = √(∑ k, β k ^ 2) := rfl
  rw [e1, e2]
  rw [e1, e2] at hr
  clear e1 e2
  have hd0 : (0 : ℝ) ≤ d := Nat.cast_nonneg d
  have hdu : (d : ℝ) * (1 / 2 ^ 53) ≤ 1 / 2 ^ 33 := by
    refine (mul_le_mul_of_nonneg_right hd hu).trans ?_
    norm_num
  have hτs : 2 ^ 12 * (2 : ℝ) ^ (-1075 : ℤ) ≤ (2 : ℝ) ^ (-525 : ℤ) := by
    rw [show (2 : ℝ) ^ 12 = (2 : ℝ) ^ (12 : ℤ) by norm_num, ← zpow_add₀ (by norm_num)]
    exact zpow_le_zpow_right₀ (by norm_num) (by norm_num)
  have h524 : (2 : ℝ) ^ (-524 : ℤ) = 2 * (2 : ℝ) ^ (-525 : ℤ) := by
    rw [show (-524 : ℤ) = 1 + -525 by norm_num, zpow_add₀ (by norm_num)]
    norm_num
  have hu1 : (1 : ℝ) / 2 ^ 53 ≤ 1 / 2 ^ 50 := by norm_num
  have hA := Real.sqrt_nonneg (∑ k, α k ^ 2)
  have hB := Real.sqrt_nonneg (∑ k, β k ^ 2)
  have hD0 := Real.sqrt_nonneg (∑ k, (a k - b k) ^ 2)
  rw [h524]
  generalize (2 : ℝ) ^ (-1075 : ℤ) = τ at *
  generalize (2 : ℝ) ^ (-525 : ℤ) = ε at *
  generalize √(∑ k, (a k - b k) ^ 2) = D at *
  generalize √(∑ k, (α k - β k) ^ 2) = r at *
  generalize √(∑ k, (a k - α k + -(b k - β k)) ^ 2) = z at *
  generalize √(∑ k, (a k - α k) ^ 2) = z1 at *
  generalize √(∑ k, (b k - β k) ^ 2) = z2 at *
  generalize √(∑ k, α k ^ 2) = A at *
  generalize √(∑ k, β k ^ 2) = B at *
  generalize (1 : ℝ) / 2 ^ 53 = u at *
  have hz : z ≤ u * (A + B) + 2 ^ 11 * τ := by linarith
  have hDr : |D - r| ≤ u * (A + B) + 2 ^ 11 * τ := by
    rw [abs_le]
    constructor <;> linarith
  have hρ : 0 ≤ A + B := add_nonneg hA hB
  have huρ : u * (A + B) ≤ 1 / 2 ^ 50 * (A + B) := mul_le_mul_of_nonneg_right hu1 hρ
  have hD : D ≤ 2 * (A + B) + 2 ^ 11 * τ := by linarith
  have h6 := abs_sub_le (fl √(sumList fl (List.ofFn fun k => fl (fl (a k - b k) ^ 2)) o)) D r
  have h7 : (4 * (d : ℝ) + 7) * u * D ≤ (4 * d + 7) * u * (2 * (A + B) + 2 ^ 11 * τ) :=
    mul_le_mul_of_nonneg_left hD (by positivity)
  have h8 : (4 * (d : ℝ) + 7) * u ≤ 1 := by linarith
  have h9 : (4 * (d : ℝ) + 7) * u * (2 ^ 11 * τ) ≤ 2 ^ 11 * τ :=
    mul_le_of_le_one_left (by positivity) h8
  have h10 : (4 * (d : ℝ) + 7) * u * (2 * (A + B) + 2 ^ 11 * τ) =
      8 * (d * u * (A + B)) + 14 * (u * (A + B)) + (4 * d + 7) * u * (2 ^ 11 * τ) := by ring
  have h11 : 16 * ((d : ℝ) + 1) * u * (A + B) = 16 * (d * u * (A + B)) + 16 * (u * (A + B)) := by ring
  have h12 := mul_nonneg (mul_nonneg hd0 hu) hρ
  have h13 := mul_nonneg hu hρ
  rw [h11]
  linarith

/-! ### One entry -/

theorem exp_sub_le {a b : ℝ} (ha : 0 ≤ a) (hab : a ≤ b) :
    |Real.exp (-b) - Real.exp (-a)| ≤ (b - a) / (1 + a) := by
  have h1 : Real.exp (-b) ≤ Real.exp (-a) := Real.exp_le_exp.2 (by linarith)
  rw [abs_of_nonpos (by linarith), neg_sub]
  have h2 : Real.exp (-b) = Real.exp (-a) * Real.exp (a - b) := by
    rw [← Real.exp_add]
    congr 1
    ring
  have h3 := Real.add_one_le_exp (a - b)
  have h4 : Real.exp (-a) ≤ 1 / (1 + a) := by
    rw [Real.exp_neg, ← one_div]
    exact one_div_le_one_div_of_le (by linarith) (by linarith [Real.add_one_le_exp a])
  have h5 := Real.exp_pos (-a)
  calc Real.exp (-a) - Real.exp (-b) = Real.exp (-a) * (1 - Real.exp (a - b)) := by rw [h2]; ring
    _ ≤ Real.exp (-a) * (b - a) := mul_le_mul_of_nonneg_left (by linarith) h5.le
    _ ≤ 1 / (1 + a) * (b - a) := mul_le_mul_of_nonneg_right h4 (by linarith)
    _ = _ := by ring

theorem exp_decay {v w u τ : ℝ} (hv : 0 ≤ v) (hw : 0 ≤ w) (hu : 0 ≤ u) (hu1 : u ≤ 1 / 100)
    (hτ : 0 ≤ τ) (hτ1 : τ ≤ 1 / 100) (h : |w - v| ≤ 3 * u * v + 2 * τ) :
    |Real.exp (-w) - Real.exp (-v)| ≤ 6 * u + 4 * τ := by
  have key : ∀ a b : ℝ, 0 ≤ a → a ≤ b → b - a ≤ 3 * u * v + 2 * τ → v - (3 * u * v + 2 * τ) ≤ a →
      (b - a) / (1 + a) ≤ 6 * u + 4 * τ := by
    intro a b ha _ h1 h2
    rw [div_le_iff₀ (by linarith)]
    have h3 : u * v ≤ 1 / 100 * v := mul_le_mul_of_nonneg_right hu1 hv
    have h4 : 1 / 2 + v / 2 ≤ 1 + a := by linarith
    have h5 : (6 * u + 4 * τ) * (1 / 2 + v / 2) ≤ (6 * u + 4 * τ) * (1 + a) :=
      mul_le_mul_of_nonneg_left h4 (by linarith)
    have h6 : (6 * u + 4 * τ) * (1 / 2 + v / 2) = 3 * u + 3 * u * v + 2 * τ + 2 * (τ * v) := by ring
    have h7 := mul_nonneg hτ hv
    linarith
  obtain ⟨h1, h2⟩ := abs_le.1 h
  have h8 : 0 ≤ 3 * u * v + 2 * τ := by positivity
  rcases le_total w v with hwv | hwv
  · rw [abs_sub_comm]
    exact (exp_sub_le hw hwv).trans (key w v hw hwv (by linarith) (by linarith))
  · exact (exp_sub_le hv hwv).trans (key v w hv hwv (by linarith) (by linarith))

theorem tiny_le {n : ℤ} (hn : -1075 ≤ n) : (2 : ℝ) ^ (-1075 : ℤ) ≤ (2 : ℝ) ^ n :=
  zpow_le_zpow_right₀ (by norm_num) hn

theorem tiny_twice : (2 : ℝ) ^ (-1074 : ℤ) = 2 * (2 : ℝ) ^ (-1075 : ℤ) := by
  rw [show (-1074 : ℤ) = 1 + -1075 by norm_num, zpow_add₀ (by norm_num)]
  norm_num

theorem tiny_le_unit : 2 ^ 100 * (2 : ℝ) ^ (-1075 : ℤ) ≤ 1 / 2 ^ 53 := by
  rw [show (2 : ℝ) ^ 100 = (2 : ℝ) ^ (100 : ℤ) by norm_num, ← zpow_add₀ (by norm_num),
    show (1 : ℝ) / 2 ^ 53 = (2 : ℝ) ^ (-53 : ℤ) by norm_num]
  exact zpow_le_zpow_right₀ (by norm_num) (by norm_num)

/-- A number that is one or more keeps its relative accuracy. -/
theorem fl_rel_one (h : Nearest fl) {x : ℝ} (hx : 1 ≤ x) : |fl x - x| ≤ 1 / 2 ^ 53 * x := by
  have := fl_rel h (x := x) (by
    rw [abs_of_pos (by linarith)]
    refine le_trans ?_ hx
    rw [show (1 : ℝ) = (2 : ℝ) ^ (0 : ℤ) by norm_num]
    exact zpow_le_zpow_right₀ (by norm_num) (by norm_num))
  rwa [abs_of_pos (show (0 : ℝ) < x by linarith)] at this

theorem se_error (h : Nearest fl) {η : ℝ} (hex : ExpWithin η ex) (hη : 0 ≤ η) (s : ℝ) {x : ℝ} :
    |fl (fl (s ^ 2) * ex (fl (-0.5 * fl (x ^ 2)))) - s ^ 2 * seProfile x| ≤
      s ^ 2 * (η + 10 * (1 / 2 ^ 53)) + 3 * (2 : ℝ) ^ (-1075 : ℤ) := by
  set w := fl (x ^ 2) with hw
  have hw0 : 0 ≤ w := fl_nonneg h (sq_nonneg x)
  have h1 := fl_error h (x ^ 2)
  have h2 := fl_error h (-0.5 * w)
  have hz0 : fl (-0.5 * w) ≤ 0 := fl_le_of_le h double_zero (by linarith)
  rw [abs_of_nonneg (sq_nonneg x), ← hw] at h1
  rw [show |(-0.5 : ℝ) * w| = w / 2 by
    rw [abs_of_nonpos (by linarith)]
    ring] at h2
  set z := fl (-0.5 * w) with hz
  have h3 := hex.near z hz0
  have e0 := hex.nonneg z hz0
  have e1 := hex.le_one z hz0
  have h4 := fl_error h (s ^ 2)
  have h5 := fl_error h (fl (s ^ 2) * ex z)
  have hs0 : 0 ≤ fl (s ^ 2) := fl_nonneg h (sq_nonneg s)
  rw [abs_of_nonneg (sq_nonneg s)] at h4
  rw [abs_of_nonneg (mul_nonneg hs0 e0)] at h5
  have hE1 : Real.exp z ≤ 1 := Real.exp_le_one_iff.2 hz0
  rw [tiny_twice] at h3
  have hτu := tiny_le_unit
  have hτ : (0 : ℝ) < (2 : ℝ) ^ (-1075 : ℤ) := by positivity
  have hu0 : (0 : ℝ) < 1 / 2 ^ 53 := by norm_num
  have hu1 : (1 : ℝ) / 2 ^ 53 ≤ 1 / 100 := by norm_num
  have hS0 := sq_nonneg s
  have hx0 := sq_nonneg x
  have hp : seProfile x = Real.exp (-(x ^ 2 / 2)) := rfl
  rw [hp]
  generalize fl (fl (s ^ 2) * ex z) = k at *
  generalize fl (s ^ 2) = S' at *
  generalize s ^ 2 = S at *
  generalize ex z = e at *
  generalize (2 : ℝ) ^ (-1075 : ℤ) = τ at *
  generalize (1 : ℝ) / 2 ^ 53 = u at *
  clear_value z w
  clear hw hz
  generalize x ^ 2 = q at *
  have h6 : |(-z) - q / 2| ≤ 3 * u * (q / 2) + 2 * τ := by
    have a1 := abs_sub_le (-z) (w / 2) (q / 2)
    have a2 : |(-z) - w / 2| = |z - -0.5 * w| := by
      rw [← abs_neg]
      congr 1
      ring
    have a3 : |w / 2 - q / 2| = |w - q| / 2 := by
      rw [← sub_div, abs_div, abs_of_pos (by norm_num : (0 : ℝ) < 2)]
    have a4 := (abs_le.1 h1).2
    have a5 : u * w ≤ u * (q + u * q + τ) := mul_le_mul_of_nonneg_left (by linarith) hu0.le
    have a6 : u * (u * q) ≤ 1 / 100 * (u * q) :=
      mul_le_mul_of_nonneg_right hu1 (mul_nonneg hu0.le hx0)
    have a7 : u * τ ≤ 1 / 100 * τ := mul_le_mul_of_nonneg_right hu1 hτ.le
    have a8 := mul_nonneg hu0.le hx0
    rw [a2, a3] at a1
    linarith
  have h7 := exp_decay (by linarith) (by linarith) hu0.le hu1 hτ.le (by linarith) h6
  rw [neg_neg] at h7
  have h8 := abs_sub_le e (Real.exp z) (Real.exp (-(q / 2)))
  have h9 : η * Real.exp z ≤ η * 1 := mul_le_mul_of_nonneg_left hE1 hη
  generalize Real.exp (-(q / 2)) = E at *
  generalize Real.exp z = E' at *
  have h10 : |e - E| ≤ η + 6 * u + 6 * τ := by linarith
  have h11 : |S' * e - S * E| ≤ u * S + τ + S * (η + 6 * u + 6 * τ) := by
    have a1 : S' * e - S * E = (S' - S) * e + S * (e - E) := by ring
    rw [a1]
    refine (abs_add_le _ _).trans ?_
    rw [abs_mul, abs_mul, abs_of_nonneg e0, abs_of_nonneg hS0]
    have a2 : |S' - S| * e ≤ |S' - S| * 1 := mul_le_mul_of_nonneg_left e1 (abs_nonneg _)
    have a3 := mul_le_mul_of_nonneg_left h10 hS0
    linarith
  have h12 := abs_sub_le k (S' * e) (S * E)
  have h13 : S' * e ≤ S' * 1 := mul_le_mul_of_nonneg_left e1 hs0
  have h14 := (abs_le.1 h4).2
  have h15 : u * (S' * e) ≤ u * (S + u * S + τ) := mul_le_mul_of_nonneg_left (by linarith) hu0.le
  have h16 : u * (u * S) ≤ 1 / 100 * (u * S) :=
    mul_le_mul_of_nonneg_right hu1 (mul_nonneg hu0.le hS0)
  have h17 : u * τ ≤ 1 / 100 * τ := mul_le_mul_of_nonneg_right hu1 hτ.le
  have h18 : 2 ^ 100 * (S * τ) ≤ S * u := by
    have := mul_le_mul_of_nonneg_left hτu hS0
    linarith
  have h19 := mul_nonneg hS0 hτ.le
  have h20 := mul_nonneg hS0 hu0.le
  linarith

/-- Polynomial times exponential, both with errors. -/
theorem product_error (h : Nearest fl) {η : ℝ} (hex : ExpWithin η ex) (hη : 0 ≤ η) (hη1 : η ≤ 1 / 2)
    (s : ℝ) {t p ph z δ : ℝ} (hp : 1 ≤ p) (hpE : p * Real.exp (-t) ≤ 1) (hph0 : 0 ≤ ph)
    (hph : |ph - p| ≤ 20 * (1 / 2 ^ 53) * p) (hz0 : z ≤ 0) (hz : |(-z) - t| ≤ δ) (hδ : δ ≤ 1 / 2)
    (hT : (2 : ℝ) ^ (-1075 : ℤ) * p ≤ 1 / 2 ^ 53 / 2) :
    |fl (fl (fl (s ^ 2) * ph) * ex z) - s ^ 2 * (p * Real.exp (-t))| ≤
      s ^ 2 * (101 * (1 / 2 ^ 53) + 2 * η + 2 * δ) + 18 * (2 : ℝ) ^ (-1075 : ℤ) := by
  have hδ0 : 0 ≤ δ := (abs_nonneg _).trans hz
  have h0 := exp_close hz
  rw [neg_neg] at h0
  have h1 := hex.near z hz0
  have e0 := hex.nonneg z hz0
  have hs0 : 0 ≤ fl (s ^ 2) := fl_nonneg h (sq_nonneg s)
  have hA0 : 0 ≤ fl (fl (s ^ 2) * ph) := fl_nonneg h (mul_nonneg hs0 hph0)
  have h4 := fl_error h (s ^ 2)
  have h5 := fl_error h (fl (s ^ 2) * ph)
  have h6 := fl_error h (fl (fl (s ^ 2) * ph) * ex z)
  rw [abs_of_nonneg (sq_nonneg s)] at h4
  rw [abs_of_nonneg (mul_nonneg hs0 hph0)] at h5
  rw [abs_of_nonneg (mul_nonneg hA0 e0)] at h6
  rw [tiny_twice] at h1
  have hE0 := Real.exp_pos (-t)
  have hτ : (0 : ℝ) < (2 : ℝ) ^ (-1075 : ℤ) := by positivity
  have hu0 : (0 : ℝ) < 1 / 2 ^ 53 := by norm_num
  have hu1 : (1 : ℝ) / 2 ^ 53 ≤ 1 / 100 := by norm_num
  have hS0 := sq_nonneg s
  have hexpδ : Real.exp δ ≤ 2 := by
    have a1 := Real.add_one_le_exp (-δ)
    have a2 : Real.exp δ * Real.exp (-δ) = 1 := by rw [← Real.exp_add]; simp
    nlinarith [Real.exp_pos δ]
  generalize fl (fl (fl (s ^ 2) * ph) * ex z) = k at *
  generalize fl (fl (s ^ 2) * ph) = A at *
  generalize fl (s ^ 2) = S' at *
  generalize s ^ 2 = S at *
  generalize ex z = e at *
  generalize (2 : ℝ) ^ (-1075 : ℤ) = τ at *
  generalize (1 : ℝ) / 2 ^ 53 = u at *
  generalize Real.exp z = E' at *
  generalize Real.exp (-t) = E at *
  generalize Real.exp δ = D at *
  have hp0 : 0 < p := by linarith
  -- the exponential
  have h7 : |E' - E| ≤ 2 * δ * E := by
    refine h0.trans (mul_le_mul_of_nonneg_right ?_ hE0.le)
    rw [mul_comm 2]
    exact mul_le_mul_of_nonneg_left hexpδ hδ0
  have h8 : E' ≤ 2 * E := by
    have a1 := (abs_le.1 h7).2
    have a2 : 2 * δ * E ≤ 1 * E := mul_le_mul_of_nonneg_right (by linarith) hE0.le
    linarith
  have h9 : |e - E| ≤ (2 * δ + 2 * η) * E + 2 * τ := by
    have a1 := abs_sub_le e E' E
    have a2 : η * E' ≤ η * (2 * E) := mul_le_mul_of_nonneg_left h8 hη
    linarith
  have hT0 : 0 ≤ τ * p := by positivity
  have h10 : p * e ≤ 4 := by
    have a1 := (abs_le.1 h9).2
    have a4 : (2 * δ + 2 * η) * E ≤ 2 * E := mul_le_mul_of_nonneg_right (by linarith) hE0.le
    have a2 : e ≤ 3 * E + 2 * τ := by linarith
    have a3 : p * e ≤ p * (3 * E + 2 * τ) := mul_le_mul_of_nonneg_left a2 hp0.le
    linarith
  -- the factor in front
  have hM : 0 ≤ S * p := by positivity
  have h11 : |S' * ph - S * p| ≤ 22 * u * (S * p) + 2 * (τ * p) := by
    have a1 : S' * ph - S * p = (S' - S) * ph + S * (ph - p) := by ring
    rw [a1]
    refine (abs_add_le _ _).trans ?_
    rw [abs_mul, abs_mul, abs_of_nonneg hph0, abs_of_nonneg hS0]
    have a2 := (abs_le.1 hph).2
    have a3 : u * p ≤ 1 / 100 * p := mul_le_mul_of_nonneg_right hu1 hp0.le
    have a4 : ph ≤ 2 * p - 1 / 2 * p := by linarith
    have a5 : |S' - S| * ph ≤ (u * S + τ) * (2 * p - 1 / 2 * p) :=
      mul_le_mul h4 a4 hph0 (by positivity)
    have a6 := mul_le_mul_of_nonneg_left hph hS0
    have a7 := mul_nonneg hu0.le hM
    linarith
  have h12 : |A - S * p| ≤ 24 * u * (S * p) + 4 * (τ * p) := by
    have a1 := abs_sub_le A (S' * ph) (S * p)
    have a2 := (abs_le.1 h11).2
    have a3 : u * (S' * ph) ≤ u * (S * p + 22 * u * (S * p) + 2 * (τ * p)) :=
      mul_le_mul_of_nonneg_left (by linarith) hu0.le
    have a4 : u * (u * (S * p)) ≤ 1 / 100 * (u * (S * p)) :=
      mul_le_mul_of_nonneg_right hu1 (by positivity)
    have a5 : u * (τ * p) ≤ 1 / 100 * (τ * p) := mul_le_mul_of_nonneg_right hu1 hT0
    have a6 : τ * 1 ≤ τ * p := mul_le_mul_of_nonneg_left hp hτ.le
    have a7 : 0 ≤ u * (S * p) := by positivity
    linarith
  -- the product
  have h13 : |A * e - S * (p * E)| ≤ S * (97 * u + 2 * η + 2 * δ) + 16 * τ := by
    have a1 : A * e - S * (p * E) = (A - S * p) * e + S * p * (e - E) := by ring
    rw [a1]
    refine (abs_add_le _ _).trans ?_
    rw [abs_mul, abs_mul, abs_of_nonneg e0, abs_of_nonneg hM]
    have a2 := mul_le_mul_of_nonneg_right h12 e0
    have a3 : (24 * u * (S * p) + 4 * (τ * p)) * e = (24 * u * S + 4 * τ) * (p * e) := by ring
    have a4 : (24 * u * S + 4 * τ) * (p * e) ≤ (24 * u * S + 4 * τ) * 4 :=
      mul_le_mul_of_nonneg_left h10 (by positivity)
    have a5 := mul_le_mul_of_nonneg_left h9 hM
    have a6 : S * p * ((2 * δ + 2 * η) * E + 2 * τ) =
        S * (2 * δ + 2 * η) * (p * E) + 2 * (S * (τ * p)) := by ring
    have a7 : S * (2 * δ + 2 * η) * (p * E) ≤ S * (2 * δ + 2 * η) * 1 :=
      mul_le_mul_of_nonneg_left hpE (by positivity)
    have a8 : S * (τ * p) ≤ S * (u / 2) := mul_le_mul_of_nonneg_left hT hS0
    rw [a3] at a2
    rw [a6] at a5
    linarith
  have h14 := abs_sub_le k (A * e) (S * (p * E))
  have h15 : S * (p * E) ≤ S * 1 := mul_le_mul_of_nonneg_left hpE hS0
  have h16 := (abs_le.1 h13).2
  have h17 : S * (97 * u + 2 * η + 2 * δ) ≤ S * 3 := mul_le_mul_of_nonneg_left (by linarith) hS0
  have h18 : u * (A * e) ≤ u * (4 * S + 16 * τ) := mul_le_mul_of_nonneg_left (by linarith) hu0.le
  have h19 : u * τ ≤ 1 / 100 * τ := mul_le_mul_of_nonneg_right hu1 hτ.le
  linarith

/-- Constant times distance. -/
theorem times_error (h : Nearest fl) {c x : ℝ} (hc : 1 ≤ c) (hx : 0 ≤ x) :
    |fl (fl c * x) - c * x| ≤ 3 * (1 / 2 ^ 53) * (c * x) + (2 : ℝ) ^ (-1075 : ℤ) ∧
      |(-fl (fl (-1 * fl c) * x)) - c * x| ≤
        3 * (1 / 2 ^ 53) * (c * x) + (2 : ℝ) ^ (-1075 : ℤ) ∧
      0 ≤ fl (fl c * x) ∧ fl (fl (-1 * fl c) * x) ≤ 0 := by
  have h1 := fl_rel_one h hc
  have hc0 : 0 ≤ fl c := fl_nonneg h (by linarith)
  have e : fl (-1 * fl c) = -fl c := by
    rw [neg_one_mul]
    exact fl_of_mem h (double_neg (h.mem c))
  rw [e]
  have h2 := fl_error h (fl c * x)
  have h3 := fl_error h (-fl c * x)
  have hneg : -fl c * x = -(fl c * x) := by ring
  rw [hneg, abs_neg] at h3
  have hcx := mul_nonneg hc0 hx
  rw [abs_of_nonneg hcx] at h2 h3
  refine ⟨?_, ?_, fl_nonneg h hcx, ?_⟩
  rotate_left 2
  · rw [hneg]
    exact fl_le_of_le h double_zero (by linarith)
  all_goals
    have hu0 : (0 : ℝ) < 1 / 2 ^ 53 := by norm_num
    have hu1 : (1 : ℝ) / 2 ^ 53 ≤ 1 / 100 := by norm_num
    have h4 : |fl c * x - c * x| ≤ 1 / 2 ^ 53 * (c * x) := by
      rw [← sub_mul, abs_mul, abs_of_nonneg hx]
      calc |fl c - c| * x ≤ 1 / 2 ^ 53 * c * x := mul_le_mul_of_nonneg_right h1 hx
        _ = _ := by ring
    have h5 := (abs_le.1 h4).2
    have hcx' : 0 ≤ c * x := mul_nonneg (by linarith) hx
    have h6 : 1 / 2 ^ 53 * (fl c * x) ≤ 1 / 2 ^ 53 * (c * x + 1 / 2 ^ 53 * (c * x)) :=
      mul_le_mul_of_nonneg_left (by linarith) hu0.le
    have h7 : (1 : ℝ) / 2 ^ 53 * (1 / 2 ^ 53 * (c * x)) ≤ 1 / 100 * (1 / 2 ^ 53 * (c * x)) :=
      mul_le_mul_of_nonneg_right hu1 (by positivity)
    have h8 : 0 ≤ 1 / 2 ^ 53 * (c * x) := by positivity
  · have h9 := abs_sub_le (fl (fl c * x)) (fl c * x) (c * x)
    generalize (1 : ℝ) / 2 ^ 53 = u at *
    generalize (2 : ℝ) ^ (-1075 : ℤ) = τ at *
    linarith
  · have h9 := abs_sub_le (-fl (-fl c * x)) (fl c * x) (c * x)
    have h10 : |(-fl (-fl c * x)) - fl c * x| = |fl (-(fl c * x)) - -(fl c * x)| := by
      rw [hneg, ← abs_neg]
      congr 1
      ring
    rw [h10] at h9
    generalize (1 : ℝ) / 2 ^ 53 = u at *
    generalize (2 : ℝ) ^ (-1075 : ℤ) = τ at *
    linarith

theorem m32_error (h : Nearest fl) {η : ℝ} (hex : ExpWithin η ex) (hη : 0 ≤ η) (hη1 : η ≤ 1 / 2)
    (s : ℝ) {x : ℝ} (hx : 0 ≤ x) (hx1 : x ≤ 2 ^ 44) :
    |fl (fl (fl (s ^ 2) * fl (1 + fl (fl √3 * x))) * ex (fl (fl (-1 * fl √3) * x))) -
        s ^ 2 * m32Profile x| ≤
      s ^ 2 * (2 * η + (102 + 18 * x) * (1 / 2 ^ 53)) + 18 * (2 : ℝ) ^ (-1075 : ℤ) := by
  have h3 : √3 ^ 2 = 3 := Real.sq_sqrt (by norm_num)
  have h30 : 0 ≤ √3 := Real.sqrt_nonneg 3
  have hc1 : 1 ≤ √3 := by nlinarith
  have hc2 : √3 ≤ 2 := by nlinarith
  obtain ⟨h1, h2, h4, h5⟩ := times_error h hc1 hx
  set t := √3 * x with ht
  have ht0 : 0 ≤ t := mul_nonneg h30 hx
  have ht1 : t ≤ 2 * x := mul_le_mul_of_nonneg_right hc2 hx
  have hτ : (0 : ℝ) < (2 : ℝ) ^ (-1075 : ℤ) := by positivity
  have hτu := tiny_le_unit
  have hu0 : (0 : ℝ) < 1 / 2 ^ 53 := by norm_num
  have hph : |fl (1 + fl (fl √3 * x)) - (1 + t)| ≤ 20 * (1 / 2 ^ 53) * (1 + t) := by
    have a1 := fl_rel_one h (x := 1 + fl (fl √3 * x)) (by linarith)
    have a2 := abs_sub_le (fl (1 + fl (fl √3 * x))) (1 + fl (fl √3 * x)) (1 + t)
    have a3 : |1 + fl (fl √3 * x) - (1 + t)| = |fl (fl √3 * x) - t| := by
      congr 1
      ring
    have a4 := (abs_le.1 h1).2
    have a7 : (1 : ℝ) / 2 ^ 53 * (1 + fl (fl √3 * x)) ≤ 1 / 2 ^ 53 *
        (1 + (t + (3 * (1 / 2 ^ 53) * t + (2 : ℝ) ^ (-1075 : ℤ)))) :=
      mul_le_mul_of_nonneg_left (by linarith) hu0.le
    have hu1 : (1 : ℝ) / 2 ^ 53 ≤ 1 / 100 := by norm_num
    rw [a3] at a2
    generalize (1 : ℝ) / 2 ^ 53 = u at *
    generalize (2 : ℝ) ^ (-1075 : ℤ) = τ at *
    have a5 : u * (u * t) ≤ 1 / 100 * (u * t) := mul_le_mul_of_nonneg_right hu1 (by positivity)
    have a6 : u * τ ≤ 1 / 100 * τ := mul_le_mul_of_nonneg_right hu1 hτ.le
    have a8 := mul_nonneg hu0.le ht0
    linarith
  have hpE : (1 + t) * Real.exp (-t) ≤ 1 := by
    rw [Real.exp_neg, ← div_eq_mul_inv, div_le_one (Real.exp_pos t)]
    linarith [Real.add_one_le_exp t]
  have hδ : 3 * (1 / 2 ^ 53) * t + (2 : ℝ) ^ (-1075 : ℤ) ≤ 1 / 2 := by
    have a1 : 3 * (1 / 2 ^ 53) * t ≤ 3 * (1 / 2 ^ 53) * (2 * 2 ^ 44) :=
      mul_le_mul_of_nonneg_left (by linarith) (by norm_num)
    norm_num at a1 hτu ⊢
    linarith
  have hT : (2 : ℝ) ^ (-1075 : ℤ) * (1 + t) ≤ 1 / 2 ^ 53 / 2 := by
    have a1 : (2 : ℝ) ^ (-1075 : ℤ) * (1 + t) ≤ (2 : ℝ) ^ (-1075 : ℤ) * (2 ^ 99) :=
      mul_le_mul_of_nonneg_left (by norm_num at hx1 ⊢; linarith) hτ.le
    linarith
  have key := product_error h hex hη hη1 s (by linarith) hpE (fl_nonneg h (by linarith)) hph h5 h2 hδ hT
  have hprof : m32Profile x = (1 + t) * Real.exp (-t) := rfl
  rw [hprof]
  refine key.trans (add_le_add (mul_le_mul_of_nonneg_left ?_ (sq_nonneg s)) le_rfl)
  generalize (1 : ℝ) / 2 ^ 53 = u at *
  generalize (2 : ℝ) ^ (-1075 : ℤ) = τ at *
  have a1 : u * t ≤ u * (2 * x) := mul_le_mul_of_nonneg_left ht1 hu0.le
  have a2 := mul_nonneg hu0.le hx
  linarith

theorem m52_error (h : Nearest fl) {η : ℝ} (hex : ExpWithin η ex) (hη : 0 ≤ η) (hη1 : η ≤ 1 / 2)
    (s : ℝ) {x : ℝ} (hx : 0 ≤ x) (hx1 : x ≤ 2 ^ 44) :
    |fl (fl (fl (s ^ 2) * fl (fl (1 + fl (fl √5 * x)) + fl (fl (5 / 3) * fl (x ^ 2)))) *
        ex (fl (fl (-1 * fl √5) * x))) - s ^ 2 * m52Profile x| ≤
      s ^ 2 * (2 * η + (102 + 18 * x) * (1 / 2 ^ 53)) + 18 * (2 : ℝ) ^ (-1075 : ℤ) := by
  have h3 : √5 ^ 2 = 5 := Real.sq_sqrt (by norm_num)
  have h30 : 0 ≤ √5 := Real.sqrt_nonneg 5
  have hc1 : 1 ≤ √5 := by nlinarith
  have hc2 : √5 ≤ 3 := by nlinarith
  obtain ⟨h1, h2, h4, h5⟩ := times_error h hc1 hx
  set t := √5 * x with ht
  have ht0 : 0 ≤ t := mul_nonneg h30 hx
  have ht1 : t ≤ 3 * x := mul_le_mul_of_nonneg_right hc2 hx
  have hτ : (0 : ℝ) < (2 : ℝ) ^ (-1075 : ℤ) := by positivity
  have hτu := tiny_le_unit
  have hu0 : (0 : ℝ) < 1 / 2 ^ 53 := by norm_num
  have hu1 : (1 : ℝ) / 2 ^ 53 ≤ 1 / 100 := by norm_num
  have hx2 := sq_nonneg x
  have hph : |fl (1 + fl (fl √5 * x)) - (1 + t)| ≤ 7 * (1 / 2 ^ 53) * (1 + t) := by
    have a1 := fl_rel_one h (x := 1 + fl (fl √5 * x)) (by linarith)
    have a2 := abs_sub_le (fl (1 + fl (fl √5 * x))) (1 + fl (fl √5 * x)) (1 + t)
    have a3 : |1 + fl (fl √5 * x) - (1 + t)| = |fl (fl √5 * x) - t| := by
      congr 1
      ring
    have a4 := (abs_le.1 h1).2
    have a7 : (1 : ℝ) / 2 ^ 53 * (1 + fl (fl √5 * x)) ≤ 1 / 2 ^ 53 *
        (1 + (t + (3 * (1 / 2 ^ 53) * t + (2 : ℝ) ^ (-1075 : ℤ)))) :=
      mul_le_mul_of_nonneg_left (by linarith) hu0.le
    rw [a3] at a2
    generalize (1 : ℝ) / 2 ^ 53 = u at *
    generalize (2 : ℝ) ^ (-1075 : ℤ) = τ at *
    have a5 : u * (u * t) ≤ 1 / 100 * (u * t) := mul_le_mul_of_nonneg_right hu1 (by positivity)
    have a6 : u * τ ≤ 1 / 100 * τ := mul_le_mul_of_nonneg_right hu1 hτ.le
    have a8 := mul_nonneg hu0.le ht0
    linarith
  have hq : |fl (fl (5 / 3) * fl (x ^ 2)) - 5 * x ^ 2 / 3| ≤
      4 * (1 / 2 ^ 53) * (5 * x ^ 2 / 3) + 4 * (2 : ℝ) ^ (-1075 : ℤ) := by
    have a1 := fl_rel_one h (x := 5 / 3) (by norm_num)
    have a2 := fl_error h (x ^ 2)
    have a3 := fl_error h (fl (5 / 3) * fl (x ^ 2))
    have b1 : 0 ≤ fl (5 / 3) := fl_nonneg h (by norm_num)
    have b2 : 0 ≤ fl (x ^ 2) := fl_nonneg h hx2
    rw [abs_of_nonneg hx2] at a2
    rw [abs_of_nonneg (mul_nonneg b1 b2)] at a3
    generalize fl (fl (5 / 3) * fl (x ^ 2)) = q at *
    generalize fl (5 / 3) = f at *
    generalize fl (x ^ 2) = w at *
    generalize (1 : ℝ) / 2 ^ 53 = u at *
    generalize (2 : ℝ) ^ (-1075 : ℤ) = τ at *
    generalize x ^ 2 = y at *
    have a4 : |f * w - 5 * y / 3| ≤ 21 / 10 * u * (5 * y / 3) + 2 * τ := by
      have c1 : f * w - 5 * y / 3 = (f - 5 / 3) * w + 5 / 3 * (w - y) := by ring
      rw [c1]
      refine (abs_add_le _ _).trans ?_
      rw [abs_mul, abs_mul, abs_of_nonneg b2, abs_of_pos (by norm_num : (0 : ℝ) < 5 / 3)]
      have c2 := (abs_le.1 a2).2
      have c3 : |f - 5 / 3| * w ≤ u * (5 / 3) * (y + (u * y + τ)) :=
        mul_le_mul a1 (by linarith) b2 (by positivity)
      have c4 : u * (u * y) ≤ 1 / 100 * (u * y) := mul_le_mul_of_nonneg_right hu1 (by positivity)
      have c5 : u * τ ≤ 1 / 100 * τ := mul_le_mul_of_nonneg_right hu1 hτ.le
      have c6 := mul_nonneg hu0.le hx2
      linarith
    have a5 := abs_sub_le q (f * w) (5 * y / 3)
    have a6 := (abs_le.1 a4).2
    have a7 : u * (f * w) ≤ u * (5 * y / 3 + (21 / 10 * u * (5 * y / 3) + 2 * τ)) :=
      mul_le_mul_of_nonneg_left (by linarith) hu0.le
    have c4 : u * (u * y) ≤ 1 / 100 * (u * y) := mul_le_mul_of_nonneg_right hu1 (by positivity)
    have c5 : u * τ ≤ 1 / 100 * τ := mul_le_mul_of_nonneg_right hu1 hτ.le
    have c6 := mul_nonneg hu0.le hx2
    linarith
  have hq0 : 0 ≤ fl (fl (5 / 3) * fl (x ^ 2)) :=
    fl_nonneg h (mul_nonneg (fl_nonneg h (by norm_num)) (fl_nonneg h hx2))
  have hp0 : 1 ≤ fl (1 + fl (fl √5 * x)) := by
    have h1' : (1 : ℝ) ∈ Double := by
      have := double_nat (m := 1) (by norm_num)
      simpa using this
    exact le_fl_of_le h h1' (by linarith)
  have hph' : |fl (fl (1 + fl (fl √5 * x)) + fl (fl (5 / 3) * fl (x ^ 2))) - (1 + t + 5 * x ^ 2 / 3)| ≤
      20 * (1 / 2 ^ 53) * (1 + t + 5 * x ^ 2 / 3) := by
    have a1 := fl_rel_one h (x := fl (1 + fl (fl √5 * x)) + fl (fl (5 / 3) * fl (x ^ 2))) (by linarith)
    generalize fl (fl (1 + fl (fl √5 * x)) + fl (fl (5 / 3) * fl (x ^ 2))) = P at *
    generalize fl (fl (5 / 3) * fl (x ^ 2)) = q at *
    generalize fl (1 + fl (fl √5 * x)) = p at *
    have a2 := abs_sub_le P (p + q) (1 + t + 5 * x ^ 2 / 3)
    have a3 : |p + q - (1 + t + 5 * x ^ 2 / 3)| ≤ |p - (1 + t)| + |q - 5 * x ^ 2 / 3| := by
      refine le_trans (le_of_eq ?_) (abs_add_le _ _)
      congr 1
      ring
    generalize (1 : ℝ) / 2 ^ 53 = u at *
    generalize (2 : ℝ) ^ (-1075 : ℤ) = τ at *
    generalize x ^ 2 = y at *
    have a4 := (abs_le.1 hph).2
    have a5 := (abs_le.1 hq).2
    have a6 : u * (p + q) ≤ u * (1 + t + 7 * u * (1 + t) + (5 * y / 3 + (4 * u * (5 * y / 3) + 4 * τ))) :=
      mul_le_mul_of_nonneg_left (by linarith) hu0.le
    have b1 : u * (u * y) ≤ 1 / 100 * (u * y) := mul_le_mul_of_nonneg_right hu1 (by positivity)
    have b2 : u * τ ≤ 1 / 100 * τ := mul_le_mul_of_nonneg_right hu1 hτ.le
    have b3 : u * (u * t) ≤ 1 / 100 * (u * t) := mul_le_mul_of_nonneg_right hu1 (by positivity)
    have b4 : u * u ≤ 1 / 100 * u := mul_le_mul_of_nonneg_right hu1 hu0.le
    have b5 := mul_nonneg hu0.le hx2
    have b6 := mul_nonneg hu0.le ht0
    linarith
  have ht2 : t ^ 2 = 5 * x ^ 2 := by rw [ht, mul_pow, h3]
  have hpE : (1 + t + 5 * x ^ 2 / 3) * Real.exp (-t) ≤ 1 := by
    rw [Real.exp_neg, ← div_eq_mul_inv, div_le_one (Real.exp_pos t)]
    have := Real.quadratic_le_exp_of_nonneg ht0
    rw [ht2] at this
    linarith
  have hδ : 3 * (1 / 2 ^ 53) * t + (2 : ℝ) ^ (-1075 : ℤ) ≤ 1 / 2 := by
    have a1 : 3 * (1 / 2 ^ 53) * t ≤ 3 * (1 / 2 ^ 53) * (3 * 2 ^ 44) :=
      mul_le_mul_of_nonneg_left (by linarith) (by norm_num)
    norm_num at a1 hτu ⊢
    linarith
  have hT : (2 : ℝ) ^ (-1075 : ℤ) * (1 + t + 5 * x ^ 2 / 3) ≤ 1 / 2 ^ 53 / 2 := by
    have a2 : x ^ 2 ≤ (2 ^ 44) ^ 2 := pow_le_pow_left₀ hx hx1 2
    have a1 : (2 : ℝ) ^ (-1075 : ℤ) * (1 + t + 5 * x ^ 2 / 3) ≤ (2 : ℝ) ^ (-1075 : ℤ) * (2 ^ 99) :=
      mul_le_mul_of_nonneg_left (by norm_num at hx1 a2 ⊢; linarith) hτ.le
    linarith
  have key := product_error h hex hη hη1 s (by linarith) hpE (fl_nonneg h (by linarith)) hph' h5 h2 hδ hT
  have hprof : m52Profile x = (1 + t + 5 * x ^ 2 / 3) * Real.exp (-t) := rfl
  rw [hprof]
  refine key.trans (add_le_add (mul_le_mul_of_nonneg_left ?_ (sq_nonneg s)) le_rfl)
  generalize (1 : ℝ) / 2 ^ 53 = u at *
  generalize (2 : ℝ) ^ (-1075 : ℤ) = τ at *
  have a1 : u * t ≤ u * (3 * x) := mul_le_mul_of_nonneg_left ht1 hu0.le
  have a2 := mul_nonneg hu0.le hx
  linarith

/-! ### Entries of covariance matrices -/

theorem scaledDist_nonneg (h : Nearest fl) {n m d : ℕ} {o : SumOrder} {L : Lengthscales d}
    (X : Fin n → Point d) (Xp : Fin m → Point d) (i : Fin n) (j : Fin m) :
    0 ≤ RoundedKernels.scaledDist fl o X Xp L i j := fl_nonneg h (Real.sqrt_nonneg _)

/-- The error of an entry in terms of the computed distance. -/
theorem cov_profile_error (h : Nearest fl) {η : ℝ} (hex : ExpWithin η ex) (hη : 0 ≤ η)
    (hη1 : η ≤ 1 / 2) {name : String} (hn : name ∈ baseNames) {c : CovName}
    (hc : chooseFunCov name = .ok c) {n m d : ℕ} {o : SumOrder} {L : Lengthscales d}
    (X : Fin n → Point d) (Xp : Fin m → Point d) (s : ℝ) (i : Fin n) (j : Fin m) {x : ℝ}
    (hx : x = RoundedKernels.scaledDist fl o X Xp L i j) (hx1 : x ≤ 2 ^ 44) :
    |RoundedKernels.cov fl ex o c X Xp L s i j - s ^ 2 * profile name x| ≤
      s ^ 2 * (2 * η + (102 + 18 * x) * (1 / 2 ^ 53)) + 18 * (2 : ℝ) ^ (-1075 : ℤ) := by
  have hx0 : 0 ≤ x := hx ▸ scaledDist_nonneg h X Xp i j
  have hse : |RoundedKernels.cov fl ex o .se X Xp L s i j - s ^ 2 * seProfile x| ≤
      s ^ 2 * (2 * η + (102 + 18 * x) * (1 / 2 ^ 53)) + 18 * (2 : ℝ) ^ (-1075 : ℤ) := by
    have := se_error h hex hη s (x := x)
    simp only [RoundedKernels.cov, RoundedKernels.covSe, ← hx]
    refine this.trans (add_le_add (mul_le_mul_of_nonneg_left ?_ (sq_nonneg s)) ?_)
    · have : 0 ≤ x * (1 / 2 ^ 53) := by positivity
      have : (0 : ℝ) < 1 / 2 ^ 53 := by positivity
      linarith
    · have : (0 : ℝ) < (2 : ℝ) ^ (-1075 : ℤ) := by positivity
      linarith
  simp only [baseNames, List.mem_cons, List.not_mem_nil, or_false] at hn
  rcases hn with rfl | rfl | rfl | rfl <;> simp [chooseFunCov] at hc <;> subst hc
  · simpa [profile] using hse
  · simpa [profile] using hse
  · simp only [profile, if_true, RoundedKernels.cov, RoundedKernels.covMatern32, ← hx]
    exact m32_error h hex hη hη1 s hx0 hx1
  · simp only [profile, String.reduceEq, if_true, if_false, RoundedKernels.cov,
      RoundedKernels.covMatern52, ← hx]
    exact m52_error h hex hη hη1 s hx0 hx1

/-- The error of an entry. -/
theorem cov_error (h : Nearest fl) {η : ℝ} (hex : ExpWithin η ex) (hη : 0 ≤ η) (hη1 : η ≤ 1 / 2)
    {name : String} (hn : name ∈ baseNames) {c : CovName} (hc : chooseFunCov name = .ok c)
    {n m d : ℕ} {o : SumOrder} (ho : o.Covers d) (hd : (d : ℝ) ≤ 2 ^ 20) {L : Lengthscales d}
    {l : Fin d → ℝ} (hL : Stands L l) (X : Fin n → Point d) (Xp : Fin m → Point d) (s : ℝ)
    (i : Fin n) (j : Fin m) {R : ℝ} (hX : scaledLength l (X i) ≤ R) (hXp : scaledLength l (Xp j) ≤ R)
    (hR : (d + 1) * R ≤ 2 ^ 39) :
    |RoundedKernels.cov fl ex o c X Xp L s i j - kernel name s l (X i) (Xp j)| ≤
      s ^ 2 * (2 * η + (1 + (d + 1) * R) / 2 ^ 45) + 18 * (2 : ℝ) ^ (-1075 : ℤ) := by
  set x := RoundedKernels.scaledDist fl o X Xp L i j with hx
  have hx0 : 0 ≤ x := scaledDist_nonneg h X Xp i j
  have h1 := scaledDist_error h ho hd hL X Xp i j
  rw [← hx] at h1
  set r := scaledDistance l (X i) (Xp j) with hr
  have hr0 : 0 ≤ r := Real.sqrt_nonneg _
  have h2 := scaledDistance_le l (X i) (Xp j)
  rw [← hr] at h2
  have hR0 : 0 ≤ R := (Real.sqrt_nonneg _).trans hX
  have hd0 : (0 : ℝ) ≤ d := Nat.cast_nonneg d
  have h524 : (2 : ℝ) ^ (-524 : ℤ) ≤ 1 / 2 ^ 53 := by
    rw [show (1 : ℝ) / 2 ^ 53 = (2 : ℝ) ^ (-53 : ℤ) by norm_num]
    exact zpow_le_zpow_right₀ (by norm_num) (by norm_num)
  have hdR : 0 ≤ (d : ℝ) * R := by positivity
  have h3 : |x - r| ≤ (1 + 32 * ((d + 1) * R)) * (1 / 2 ^ 53) := by
    refine h1.trans ?_
    have a1 : 16 * ((d : ℝ) + 1) * (1 / 2 ^ 53) * (scaledLength l (X i) + scaledLength l (Xp j)) ≤
        16 * (d + 1) * (1 / 2 ^ 53) * (2 * R) :=
      mul_le_mul_of_nonneg_left (by linarith) (by positivity)
    generalize (1 : ℝ) / 2 ^ 53 = u at *
    generalize (2 : ℝ) ^ (-524 : ℤ) = ε at *
    linarith
  have h4 : x ≤ 2 * R + 1 := by
    have a1 := (abs_le.1 h3).2
    have a2 : (1 + 32 * (((d : ℝ) + 1) * R)) * (1 / 2 ^ 53) ≤ (1 + 32 * 2 ^ 39) * (1 / 2 ^ 53) :=
      mul_le_mul_of_nonneg_right (by linarith) (by norm_num)
    norm_num at a1 a2
    linarith
  have hR1 : R ≤ 2 ^ 39 := by linarith
  have h5 := cov_profile_error h hex hη hη1 hn hc X Xp s i j (o := o) (L := L) hx (by
    norm_num at hR1 ⊢
    linarith)
  have h6 := profile_lipschitz name hx0 hr0
  have h7 : |s ^ 2 * profile name x - kernel name s l (X i) (Xp j)| ≤ s ^ 2 * |x - r| := by
    rw [kernel, ← mul_sub, abs_mul, abs_of_nonneg (sq_nonneg s)]
    exact mul_le_mul_of_nonneg_left h6 (sq_nonneg s)
  have h8 := abs_sub_le (RoundedKernels.cov fl ex o c X Xp L s i j) (s ^ 2 * profile name x)
    (kernel name s l (X i) (Xp j))
  have h9 : s ^ 2 * (2 * η + (102 + 18 * x) * (1 / 2 ^ 53)) + s ^ 2 * |x - r| ≤
      s ^ 2 * (2 * η + (1 + (d + 1) * R) / 2 ^ 45) := by
    rw [← mul_add]
    refine mul_le_mul_of_nonneg_left ?_ (sq_nonneg s)
    have a1 : (1 + ((d : ℝ) + 1) * R) / 2 ^ 45 = 256 * (1 + (d + 1) * R) * (1 / 2 ^ 53) := by
      ring
    have a2 : (102 + 18 * x) * (1 / 2 ^ 53) ≤ (102 + 18 * (2 * R + 1)) * (1 / 2 ^ 53) :=
      mul_le_mul_of_nonneg_right (by linarith) (by positivity)
    have hu0 : (0 : ℝ) < 1 / 2 ^ 53 := by positivity
    rw [a1]
    generalize (1 : ℝ) / 2 ^ 53 = u at *
    have a3 := mul_nonneg hR0 hu0.le
    have a4 := mul_nonneg hdR hu0.le
    linarith
  linarith

theorem cov_nonneg (h : Nearest fl) {η : ℝ} (hex : ExpWithin η ex) (c : CovName) {n m d : ℕ}
    {o : SumOrder} {L : Lengthscales d} (X : Fin n → Point d) (Xp : Fin m → Point d) (s : ℝ)
    (i : Fin n) (j : Fin m) : 0 ≤ RoundedKernels.cov fl ex o c X Xp L s i j := by
  have hx := scaledDist_nonneg h X Xp i j (o := o) (L := L)
  have hs : 0 ≤ fl (s ^ 2) := fl_nonneg h (sq_nonneg s)
  have h3 : 1 ≤ √3 := Real.one_le_sqrt.2 (by norm_num)
  have h5 : 1 ≤ √5 := Real.one_le_sqrt.2 (by norm_num)
  cases c with
  | se =>
    refine fl_nonneg h (mul_nonneg hs (hex.nonneg _ (fl_le_of_le h double_zero ?_)))
    have := fl_nonneg h (sq_nonneg (RoundedKernels.scaledDist fl o X Xp L i j))
    linarith
  | matern32 =>
    obtain ⟨-, -, a, b⟩ := times_error h h3 hx
    exact fl_nonneg h (mul_nonneg (fl_nonneg h (mul_nonneg hs (fl_nonneg h (by linarith))))
      (hex.nonneg _ b))
  | matern52 =>
    obtain ⟨-, -, a, b⟩ := times_error h h5 hx
    refine fl_nonneg h (mul_nonneg (fl_nonneg h (mul_nonneg hs (fl_nonneg h (add_nonneg
      (fl_nonneg h (by linarith)) (fl_nonneg h (mul_nonneg (fl_nonneg h (by norm_num))
        (fl_nonneg h (sq_nonneg _)))))))) (hex.nonneg _ b))

theorem cov_mem (h : Nearest fl) (c : CovName) {n m d : ℕ} {o : SumOrder} {L : Lengthscales d}
    (X : Fin n → Point d) (Xp : Fin m → Point d) (s : ℝ) (i : Fin n) (j : Fin m) :
    RoundedKernels.cov fl ex o c X Xp L s i j ∈ Double := by
  cases c <;> exact h.mem _

/-- Equal inputs have distance zero and the signal variance as covariance. -/
theorem cov_self (h : Nearest fl) {η : ℝ} (hex : ExpWithin η ex) (c : CovName) {n m d : ℕ}
    {o : SumOrder} {L : Lengthscales d} (X : Fin n → Point d) (Xp : Fin m → Point d) (s : ℝ)
    {i : Fin n} {j : Fin m} (hij : X i = Xp j) :
    RoundedKernels.cov fl ex o c X Xp L s i j = fl (s ^ 2) := by
  have hz := fl_zero h
  have h1 : fl 1 = 1 := fl_of_mem h (by simpa using double_nat (m := 1) (by norm_num))
  have hsum : ∀ o : SumOrder, sumList fl (List.ofFn fun _ : Fin d => (0 : ℝ)) o = 0 := by
    intro o
    induction o with
    | entry i =>
      rw [sumList]
      rcases Nat.lt_or_ge i d with hi | hi
      · simp [hi]
      · simp [hi]
    | add a b iha ihb => rw [sumList, iha, ihb, add_zero, hz]
  have h0 : RoundedKernels.scaledDist fl o X Xp L i j = 0 := by
    simp only [RoundedKernels.scaledDist, hij, sub_self, hz, zero_pow two_ne_zero, hsum,
      Real.sqrt_zero]
  have hm : fl (fl (s ^ 2)) = fl (s ^ 2) := fl_of_mem h (h.mem _)
  cases c <;> simp [RoundedKernels.cov, RoundedKernels.covSe, RoundedKernels.covMatern32,
    RoundedKernels.covMatern52, h0, hz, hex.zero, h1, hm]

/-- Rounding that treats both signs alike gives symmetric covariances. -/
theorem cov_symm (hodd : ∀ x, fl (-x) = -fl x) (c : CovName) {n m d : ℕ} {o : SumOrder}
    {L : Lengthscales d} (X : Fin n → Point d) (Xp : Fin m → Point d) (s : ℝ) (i : Fin n)
    (j : Fin m) :
    RoundedKernels.cov fl ex o c X Xp L s i j = RoundedKernels.cov fl ex o c Xp X L s j i := by
  have h0 : RoundedKernels.scaledDist fl o X Xp L i j =
      RoundedKernels.scaledDist fl o Xp X L j i := by
    have e : ∀ k, fl (fl (scale fl L (X i) k - scale fl L (Xp j) k) ^ 2) =
        fl (fl (scale fl L (Xp j) k - scale fl L (X i) k) ^ 2) := by
      intro k
      rw [← neg_sub (scale fl L (Xp j) k), hodd, neg_sq]
    simp only [RoundedKernels.scaledDist, e]
  cases c <;> simp only [RoundedKernels.cov, RoundedKernels.covSe, RoundedKernels.covMatern32,
    RoundedKernels.covMatern52, h0]

theorem covSe_le (h : Nearest fl) {η : ℝ} (hex : ExpWithin η ex) {n m d : ℕ} {o : SumOrder}
    {L : Lengthscales d} (X : Fin n → Point d) (Xp : Fin m → Point d) (s : ℝ) (i : Fin n)
    (j : Fin m) : RoundedKernels.cov fl ex o .se X Xp L s i j ≤ fl (s ^ 2) := by
  refine fl_le_of_le h (h.mem _) (mul_le_of_le_one_right (fl_nonneg h (sq_nonneg s))
    (hex.le_one _ (fl_le_of_le h double_zero ?_)))
  have := fl_nonneg h (sq_nonneg (RoundedKernels.scaledDist fl o X Xp L i j))
  linarith

/-! ### `cov_main` and the matrix of the responses -/

theorem roundedCovMain_ok {n m d : ℕ} {o : SumOrder} {name : String} (hn : name ∈ baseNames)
    {h : HypDict} {σ s : ℝ} {l : Fin d → ℝ} (hd : Describes h σ s l) (X : Fin n → Point d)
    (Xp : Fin m → Point d) (same : Bool) (hs : same = true → n = m) :
    ∃ c L, chooseFunCov name = .ok c ∧ Stands L l ∧
      RoundedKernels.covMain fl ex o name X Xp h same = .ok (fun i j =>
        fl ((if same = true ∧ i.val = j.val then fl Constants.JITTER_COV else 0) +
          RoundedKernels.cov fl ex o c X Xp L s i j)) := by
  obtain ⟨c, hc, -⟩ := chooseFunCov_ok hn
  obtain ⟨L, hL, hst, -⟩ := lengthscalesKey_ok hd
  have hv := validate_describes hd (base_allowed' hn)
  have hsig : numKey h.signal = .ok s := by rw [hd.signal]; exact numKey_fin s
  have h1 := base_allowed' hn
  have h2 := base_allowed hn
  refine ⟨c, L, hc, hst, ?_⟩
  cases same with
  | false =>
    simp only [RoundedKernels.covMain, pyAssert, h1, if_true, h2, hv, hc, hL, hsig, bind,
      Except.bind, pure, Except.pure, Bool.false_eq_true, if_false, false_and]
    rfl
  | true =>
    have hnm := hs rfl
    simp only [RoundedKernels.covMain, pyAssert, h1, if_true, h2, hv, hc, hL, hsig, bind,
      Except.bind, pure, Except.pure, hnm, true_and]
    refine congrArg Except.ok ?_
    ext i j
    simp [npEye]

theorem kernelMatrix_ok (hf : Nearest fl) {n d : ℕ} {o : SumOrder} {name : String}
    (hn : name ∈ baseNames) {h : HypDict} {σ s : ℝ} {l : Fin d → ℝ} (hd : Describes h σ s l)
    (X : Fin n → Point d) :
    ∃ c L, chooseFunCov name = .ok c ∧ Stands L l ∧
      RoundedKernels.kernelMatrix fl ex o X h name = .ok (fun i j =>
        if i = j then
          fl (fl (fl (fl (fl Constants.JITTER_COV + RoundedKernels.cov fl ex o c X X L s i i) +
            fl (σ ^ 2)) + fl (fl (fl Constants.JITTER_COV + RoundedKernels.cov fl ex o c X X L s i i) +
            fl (σ ^ 2))) / 2)
        else fl (fl (RoundedKernels.cov fl ex o c X X L s i j +
          RoundedKernels.cov fl ex o c X X L s j i) / 2)) := by
  obtain ⟨c, L, hc, hst, hk⟩ := roundedCovMain_ok (fl := fl) (ex := ex) (o := o) hn hd X X true
    fun _ => rfl
  have hno : numKey h.noise = .ok σ := by rw [hd.noise]; exact numKey_fin σ
  have hch : checkStrCov name 2 = .ok () := by
    simp [checkStrCov, base_allowed hn, pyAssert, bind, Except.bind, pure, Except.pure]
  refine ⟨c, L, hc, hst, ?_⟩
  simp only [RoundedKernels.kernelMatrix, hch, hk, hno, bind, Except.bind, pure, Except.pure]
  congr 1
  ext i j
  by_cases hij : i = j
  · subst hij
    simp [npEye]
  · have h1 : ¬ i.val = j.val := fun h => hij (Fin.ext h)
    have h2 : ¬ j.val = i.val := fun h => hij (Fin.ext h.symm)
    have e : ∀ i j : Fin n, fl (RoundedKernels.cov fl ex o c X X L s i j) =
        RoundedKernels.cov fl ex o c X X L s i j := fun i j => fl_of_mem hf (cov_mem hf c X X s i j)
    simp [npEye, hij, h1, h2, e]

/-! ### Without rounding -/

theorem sumList_id (v : List ℝ) (o : SumOrder) :
    sumList id v o = (o.entries.map fun i => v[i]?.getD 0).sum := by
  induction o with
  | entry i => simp [sumList, SumOrder.entries]
  | add a b iha ihb => simp [sumList, SumOrder.entries, iha, ihb]

theorem cov_id (c : CovName) {n m d : ℕ} {o : SumOrder} (ho : o.Covers d) (L : Lengthscales d)
    (X : Fin n → Point d) (Xp : Fin m → Point d) (s : ℝ) :
    RoundedKernels.cov id Real.exp o c X Xp L s = c.cov X Xp L s := by
  have h0 : RoundedKernels.scaledDist id o X Xp L = Covariance.scaledDist X Xp L := by
    ext i j
    simp only [RoundedKernels.scaledDist, Covariance.scaledDist, id, sumList_id, norm2]
    have := sum_covers ho fun k => (scale id L (X i) k - scale id L (Xp j) k) ^ 2
    rw [this]
    cases L <;> rfl
  ext i j
  cases c <;> simp only [RoundedKernels.cov, CovName.cov, RoundedKernels.covSe, Covariance.covSe,
    RoundedKernels.covMatern32, Covariance.covMatern32, RoundedKernels.covMatern52,
    Covariance.covMatern52, h0, id]

/-- Without rounding, `cov_main` is the function of `Covariance.lean`. -/
theorem roundedCovMain_id {n m d : ℕ} {o : SumOrder} (ho : o.Covers d) {name : String}
    (hn : name ∈ Constants.ALLOWED_COV_BASE) (X : Fin n → Point d) (Xp : Fin m → Point d)
    (h : HypDict) (same : Bool) :
    RoundedKernels.covMain id Real.exp o name X Xp h same =
      Covariance.covMain name (.vec X) (.vec Xp) h same := by
  simp only [RoundedKernels.covMain, Covariance.covMain, hn, if_true, cov_id _ ho, id]
  have e : ∀ A : Matrix (Fin n) (Fin m) ℝ, (fun i j =>
      (if same = true then fun i j => npEye n m i j * Constants.JITTER_COV else 0 :
        Matrix (Fin n) (Fin m) ℝ) i j + A i j) =
      (if same = true then Constants.JITTER_COV • npEye n m else 0) + A := by
    intro A
    ext i j
    cases same <;> simp [mul_comm]
  simp only [e]
  cases same <;> rfl

/-! ### The matrix of the responses -/

theorem diagonal_error (h : Nearest fl) (s σ : ℝ) :
    |fl (fl (fl (fl (fl Constants.JITTER_COV + fl (s ^ 2)) + fl (σ ^ 2)) +
        fl (fl (fl Constants.JITTER_COV + fl (s ^ 2)) + fl (σ ^ 2))) / 2) -
      (s ^ 2 + (σ ^ 2 + 1 / 100000))| ≤
      8 * (1 / 2 ^ 53) * (s ^ 2 + (σ ^ 2 + 1 / 100000)) + 5 * (2 : ℝ) ^ (-1075 : ℤ) := by
  have hJ : Constants.JITTER_COV = 1 / 100000 := by norm_num [Constants.JITTER_COV]
  rw [hJ]
  have h1 := fl_error h (1 / 100000)
  have h2 := fl_error h (s ^ 2)
  have h3 := fl_error h (σ ^ 2)
  have j0 : 0 ≤ fl (1 / 100000) := fl_nonneg h (by norm_num)
  have s0 : 0 ≤ fl (s ^ 2) := fl_nonneg h (sq_nonneg s)
  have σ0 : 0 ≤ fl (σ ^ 2) := fl_nonneg h (sq_nonneg σ)
  have h4 := fl_add_rel h (h.mem (1 / 100000)) (h.mem (s ^ 2))
  have a0 : 0 ≤ fl (fl (1 / 100000) + fl (s ^ 2)) := fl_nonneg h (add_nonneg j0 s0)
  have h5 := fl_add_rel h (h.mem (fl (1 / 100000) + fl (s ^ 2))) (h.mem (σ ^ 2))
  have c0 : 0 ≤ fl (fl (fl (1 / 100000) + fl (s ^ 2)) + fl (σ ^ 2)) := fl_nonneg h (add_nonneg a0 σ0)
  have h6 := fl_add_rel h (h.mem (fl (fl (1 / 100000) + fl (s ^ 2)) + fl (σ ^ 2)))
    (h.mem (fl (fl (1 / 100000) + fl (s ^ 2)) + fl (σ ^ 2)))
  have d0 : 0 ≤ fl (fl (fl (fl (1 / 100000) + fl (s ^ 2)) + fl (σ ^ 2)) +
    fl (fl (fl (1 / 100000) + fl (s ^ 2)) + fl (σ ^ 2))) := fl_nonneg h (add_nonneg c0 c0)
  have h7 := fl_error h (fl (fl (fl (fl (1 / 100000) + fl (s ^ 2)) + fl (σ ^ 2)) +
    fl (fl (fl (1 / 100000) + fl (s ^ 2)) + fl (σ ^ 2))) / 2)
  have hτ : (0 : ℝ) < (2 : ℝ) ^ (-1075 : ℤ) := by positivity
  have hu0 : (0 : ℝ) < 1 / 2 ^ 53 := by norm_num
  have hu1 : (1 : ℝ) / 2 ^ 53 ≤ 1 / 100 := by norm_num
  have S0 := sq_nonneg s
  have N0 := sq_nonneg σ
  generalize fl (fl (fl (fl (fl (1 / 100000) + fl (s ^ 2)) + fl (σ ^ 2)) +
    fl (fl (fl (1 / 100000) + fl (s ^ 2)) + fl (σ ^ 2))) / 2) = K at *
  generalize fl (fl (fl (fl (1 / 100000) + fl (s ^ 2)) + fl (σ ^ 2)) +
    fl (fl (fl (1 / 100000) + fl (s ^ 2)) + fl (σ ^ 2))) = D at *
  generalize fl (fl (fl (1 / 100000) + fl (s ^ 2)) + fl (σ ^ 2)) = C at *
  generalize fl (fl (1 / 100000) + fl (s ^ 2)) = A at *
  generalize fl (s ^ 2) = S' at *
  generalize fl (σ ^ 2) = N' at *
  generalize fl (1 / 100000) = J at *
  generalize s ^ 2 = S at *
  generalize σ ^ 2 = N at *
  generalize (1 : ℝ) / 2 ^ 53 = u at *
  generalize (2 : ℝ) ^ (-1075 : ℤ) = τ at *
  rw [abs_of_nonneg (by positivity : (0 : ℝ) ≤ 1 / 100000)] at h1
  rw [abs_of_nonneg S0] at h2
  rw [abs_of_nonneg N0] at h3
  rw [abs_of_nonneg (add_nonneg j0 s0)] at h4
  rw [abs_of_nonneg (add_nonneg a0 σ0)] at h5
  rw [abs_of_nonneg (add_nonneg c0 c0)] at h6
  rw [abs_of_nonneg (by linarith : (0 : ℝ) ≤ D / 2)] at h7
  obtain ⟨T, hT⟩ : ∃ T, T = S + (N + 1 / 100000) := ⟨_, rfl⟩
  rw [← hT]
  have hT0 : 0 ≤ T := by linarith
  have b1 : |J + S' + N' - T| ≤ u * T + 3 * τ := by
    obtain ⟨p1, p2⟩ := abs_le.1 h1
    obtain ⟨p3, p4⟩ := abs_le.1 h2
    obtain ⟨p5, p6⟩ := abs_le.1 h3
    rw [abs_le]
    constructor <;> rw [hT] <;> linarith
  obtain ⟨Z, hZ⟩ : ∃ Z, Z = J + S' + N' := ⟨_, rfl⟩
  rw [← hZ] at b1
  have hZ0 : 0 ≤ Z := by linarith
  have uZ := mul_nonneg hu0.le hZ0
  have b2 : |C - Z| ≤ 3 * u * Z := by
    obtain ⟨p1, p2⟩ := abs_le.1 h4
    obtain ⟨p3, p4⟩ := abs_le.1 h5
    have q1 : u * (J + S') ≤ u * Z := mul_le_mul_of_nonneg_left (by linarith) hu0.le
    have q2 : u * (A + N') ≤ u * (2 * Z) := by
      apply mul_le_mul_of_nonneg_left _ hu0.le
      have : u * (J + S') ≤ 1 / 100 * (J + S') := mul_le_mul_of_nonneg_right hu1 (by linarith)
      linarith
    rw [abs_le]
    constructor <;> linarith
  have uC := mul_nonneg hu0.le c0
  have b3 : |K - C| ≤ 3 * u * C + τ := by
    obtain ⟨p1, p2⟩ := abs_le.1 h6
    obtain ⟨p3, p4⟩ := abs_le.1 h7
    have q2 : u * (D / 2) ≤ u * (2 * C) := by
      apply mul_le_mul_of_nonneg_left _ hu0.le
      have : u * (C + C) ≤ 1 / 100 * (C + C) := mul_le_mul_of_nonneg_right hu1 (by linarith)
      linarith
    rw [abs_le]
    constructor <;> linarith
  obtain ⟨p1, p2⟩ := abs_le.1 b1
  obtain ⟨p3, p4⟩ := abs_le.1 b2
  obtain ⟨p5, p6⟩ := abs_le.1 b3
  have uuZ : u * (u * Z) ≤ 1 / 100 * (u * Z) := mul_le_mul_of_nonneg_right hu1 uZ
  have uT := mul_nonneg hu0.le hT0
  have uuT : u * (u * T) ≤ 1 / 100 * (u * T) := mul_le_mul_of_nonneg_right hu1 uT
  have uτ : u * τ ≤ 1 / 100 * τ := mul_le_mul_of_nonneg_right hu1 hτ.le
  have q1 : u * C ≤ u * (Z + 3 * u * Z) := mul_le_mul_of_nonneg_left (by linarith) hu0.le
  have q2 : u * Z ≤ u * (T + (u * T + 3 * τ)) := mul_le_mul_of_nonneg_left (by linarith) hu0.le
  rw [abs_le]
  constructor <;> linarith

theorem mean_error (h : Nearest fl) {a b g e S : ℝ} (ha : a ∈ Double) (hb : b ∈ Double) (ha0 : 0 ≤ a)
    (hb0 : 0 ≤ b) (hg : g ≤ S) (h1 : |a - g| ≤ e) (h2 : |b - g| ≤ e) :
    |fl (fl (a + b) / 2) - g| ≤ e + 3 * (1 / 2 ^ 53) * (S + e) + (2 : ℝ) ^ (-1075 : ℤ) := by
  have h3 := fl_add_rel h ha hb
  have h4 := fl_error h (fl (a + b) / 2)
  have hab := add_nonneg ha0 hb0
  have c0 : 0 ≤ fl (a + b) := fl_nonneg h hab
  rw [abs_of_nonneg hab] at h3
  rw [abs_of_nonneg (by linarith : (0 : ℝ) ≤ fl (a + b) / 2)] at h4
  have hu0 : (0 : ℝ) < 1 / 2 ^ 53 := by norm_num
  have hu1 : (1 : ℝ) / 2 ^ 53 ≤ 1 / 100 := by norm_num
  generalize fl (fl (a + b) / 2) = K at *
  generalize fl (a + b) = C at *
  generalize (1 : ℝ) / 2 ^ 53 = u at *
  generalize (2 : ℝ) ^ (-1075 : ℤ) = τ at *
  obtain ⟨p1, p2⟩ := abs_le.1 h1
  obtain ⟨p3, p4⟩ := abs_le.1 h2
  obtain ⟨p5, p6⟩ := abs_le.1 h3
  obtain ⟨p7, p8⟩ := abs_le.1 h4
  have q0 := mul_nonneg hu0.le hab
  have q1 : u * (a + b) ≤ u * (2 * (S + e)) := mul_le_mul_of_nonneg_left (by linarith) hu0.le
  have q2 : u * (C / 2) ≤ u * (a + b) := by
    apply mul_le_mul_of_nonneg_left _ hu0.le
    have : u * (a + b) ≤ 1 / 100 * (a + b) := mul_le_mul_of_nonneg_right hu1 hab
    linarith
  rw [abs_le]
  constructor <;> linarith

/-- The error of an entry of the matrix of the responses. -/
theorem kernelMatrix_error (hf : Nearest fl) {η : ℝ} (hex : ExpWithin η ex) (hη : 0 ≤ η)
    (hη1 : η ≤ 1 / 2) {n d : ℕ} {o : SumOrder} (ho : o.Covers d) (hd : (d : ℝ) ≤ 2 ^ 20)
    {name : String} (hn : name ∈ baseNames) {h : HypDict} {σ s : ℝ} {l : Fin d → ℝ}
    (hh : Describes h σ s l) {X : Fin n → Point d} {R : ℝ} (hX : ∀ i, scaledLength l (X i) ≤ R)
    (hR : (d + 1) * R ≤ 2 ^ 39) :
    ∃ K, RoundedKernels.kernelMatrix fl ex o X h name = .ok K ∧ (∀ i j, K i j = K j i) ∧
      ∀ i j, |K i j - noisyGram name σ s l (.vec X) i j| ≤
        s ^ 2 * (2 * η + (1 + (d + 1) * R) / 2 ^ 44) + (σ ^ 2 + 1) / 2 ^ 49 := by
  obtain ⟨c, L, hc, hst, hk⟩ := kernelMatrix_ok (ex := ex) (o := o) hf hn hh X
  refine ⟨_, hk, ?_, ?_⟩
  · intro i j
    by_cases hij : i = j
    · subst hij
      rfl
    · simp only [hij, Ne.symm hij, if_false]
      rw [add_comm]
  · intro i j
    have hR0 : 0 ≤ R := (Real.sqrt_nonneg _).trans (hX i)
    have hd0 : (0 : ℝ) ≤ d := Nat.cast_nonneg d
    have hτu := tiny_le_unit
    have hτ : (0 : ℝ) < (2 : ℝ) ^ (-1075 : ℤ) := by positivity
    have hu0 : (0 : ℝ) < 1 / 2 ^ 53 := by norm_num
    have hu1 : (1 : ℝ) / 2 ^ 53 ≤ 1 / 100 := by norm_num
    have hdR : 0 ≤ ((d : ℝ) + 1) * R := by positivity
    have e44 : (1 + ((d : ℝ) + 1) * R) / 2 ^ 44 = 2 * ((1 + (d + 1) * R) / 2 ^ 45) := by ring
    have hY : 256 * (1 / 2 ^ 53) ≤ (1 + ((d : ℝ) + 1) * R) / 2 ^ 45 := by
      rw [show (256 : ℝ) * (1 / 2 ^ 53) = 1 / 2 ^ 45 by norm_num]
      gcongr
      linarith
    have e49 : (σ ^ 2 + 1) / 2 ^ 49 = 16 * (1 / 2 ^ 53) * (σ ^ 2 + 1) := by ring
    rw [e44, e49]
    have S0 := sq_nonneg s
    have N0 := sq_nonneg σ
    by_cases hij : i = j
    · subst hij
      have h1 := diagonal_error hf s σ
      have e : noisyGram name σ s l (.vec X) i i = s ^ 2 + (σ ^ 2 + 1 / 100000) := by
        have e0 : scaledDistance l (X i) (X i) = 0 := by simp [scaledDistance]
        have e1 : profile name 0 = 1 := by
          unfold profile
          split_ifs <;> simp [m32Profile, m52Profile, seProfile]
        simp [noisyGram, gram, itemKernel_vec, kernel, e0, e1]
      simp only [if_true, cov_self hf hex c X X s (rfl : X i = X i), e]
      refine h1.trans ?_
      generalize (1 + ((d : ℝ) + 1) * R) / 2 ^ 45 = Y at *
      generalize (1 : ℝ) / 2 ^ 53 = u at *
      generalize (2 : ℝ) ^ (-1075 : ℤ) = τ at *
      generalize s ^ 2 = S at *
      generalize σ ^ 2 = N at *
      have a1 : S * (256 * u) ≤ S * Y := mul_le_mul_of_nonneg_left hY S0
      have a2 := mul_nonneg S0 hη
      have a3 := mul_nonneg S0 hu0.le
      have a4 := mul_nonneg hu0.le N0
      linarith
    · have h1 := cov_error hf hex hη hη1 hn hc ho hd hst X X s i j (hX i) (hX j) hR
      have h2 := cov_error hf hex hη hη1 hn hc ho hd hst X X s j i (hX j) (hX i) hR
      have e : noisyGram name σ s l (.vec X) i j = kernel name s l (X i) (X j) := by
        simp [noisyGram, gram, itemKernel_vec, hij]
      have e' : kernel name s l (X j) (X i) = kernel name s l (X i) (X j) := by
        have : scaledDistance l (X j) (X i) = scaledDistance l (X i) (X j) := by
          unfold scaledDistance
          congr 1
          refine Finset.sum_congr rfl fun k _ => ?_
          rw [← neg_sub, neg_div, neg_sq]
        rw [kernel, kernel, this]
      rw [e'] at h2
      have h3 := mean_error hf (cov_mem hf c X X s i j) (cov_mem hf c X X s j i)
        (cov_nonneg hf hex c X X s i j) (cov_nonneg hf hex c X X s j i)
        (kernel_le name s l (X i) (X j)) h1 h2
      simp only [hij, if_false, e]
      refine h3.trans ?_
      have hY1 : (1 + ((d : ℝ) + 1) * R) / 2 ^ 45 ≤ 1 := by
        rw [div_le_one (by positivity)]
        norm_num at hR ⊢
        linarith
      generalize (1 + ((d : ℝ) + 1) * R) / 2 ^ 45 = Y at *
      generalize (1 : ℝ) / 2 ^ 53 = u at *
      generalize (2 : ℝ) ^ (-1075 : ℤ) = τ at *
      generalize s ^ 2 = S at *
      generalize σ ^ 2 = N at *
      have a1 : S * (256 * u) ≤ S * Y := mul_le_mul_of_nonneg_left hY S0
      have a3 := mul_nonneg S0 hu0.le
      have a4 := mul_nonneg hu0.le N0
      have a5 : u * (S * (2 * η + Y)) ≤ u * (S * 2) :=
        mul_le_mul_of_nonneg_left (mul_le_mul_of_nonneg_left (by linarith) S0) hu0.le
      have a6 : u * τ ≤ 1 / 100 * τ := mul_le_mul_of_nonneg_right hu1 hτ.le
      linarith

/-! ### A rounding and an exponential function -/

/-- Rounding to nearest, ties away from zero. -/
noncomputable def roundAway (x : ℝ) : ℝ := if 0 ≤ x then roundUp x else -roundUp (-x)

theorem roundAway_neg (x : ℝ) : roundAway (-x) = -roundAway x := by
  have h0 : roundUp 0 = 0 := fl_zero roundUp_nearest
  rcases lt_trichotomy x 0 with hx | rfl | hx
  · simp [roundAway, hx.le, not_le.2 hx]
  · simp [roundAway, h0]
  · simp [roundAway, hx.le, not_le.2 hx]

theorem roundAway_nearest : Nearest roundAway := by
  constructor
  · intro x
    unfold roundAway
    split_ifs
    · exact roundUp_nearest.mem x
    · exact double_neg (roundUp_nearest.mem _)
  · intro x z hz
    unfold roundAway
    split_ifs
    · exact roundUp_nearest.near x z hz
    · have := roundUp_nearest.near (-x) (-z) (double_neg hz)
      rw [show -roundUp (-x) - x = -(roundUp (-x) - -x) by ring, abs_neg]
      refine this.trans (le_of_eq ?_)
      rw [← abs_neg]
      congr 1
      ring

/-- A correctly rounded exponential function. -/
theorem expWithin_round (h : Nearest fl) : ExpWithin (1 / 2 ^ 53) fun x => fl (Real.exp x) where
  zero := by
    simpa using fl_of_mem h (x := 1) (by simpa using double_nat (m := 1) (by norm_num))
  nonneg := fun x _ => fl_nonneg h (Real.exp_pos x).le
  le_one := fun x hx => fl_le_of_le h (by simpa using double_nat (m := 1) (by norm_num))
    (Real.exp_le_one_iff.2 hx)
  near := fun x _ => by
    have := fl_error h (Real.exp x)
    rw [abs_of_pos (Real.exp_pos x)] at this
    have hτ : (0 : ℝ) < (2 : ℝ) ^ (-1075 : ℤ) := by positivity
    rw [tiny_twice]
    linarith

end Verif.Lemmas
