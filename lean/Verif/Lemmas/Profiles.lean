import Mathlib.Analysis.Calculus.Deriv.MeanValue
import Mathlib.Analysis.SpecialFunctions.ExpDeriv
import Mathlib.Analysis.SpecialFunctions.Pow.Asymptotics
import Verif.Lemmas.PsdKernels

/-! Range, monotonicity and limits of the profiles; kernels on sets. -/

namespace Verif.Lemmas

open Verif.Spec Filter Topology

theorem m32Profile_deriv (r : ℝ) :
    HasDerivAt m32Profile (-(3 * r * Real.exp (-(√3 * r)))) r := by
  have h1 : HasDerivAt (fun r : ℝ => √3 * r) √3 r := by
    simpa using (hasDerivAt_id r).const_mul √3
  have h := (h1.const_add 1).mul (h1.neg.exp)
  refine h.congr_deriv ?_
  have e3 : √3 * √3 = 3 := Real.mul_self_sqrt (by norm_num)
  simp only [Pi.neg_apply]
  linear_combination (-r * Real.exp (-(√3 * r))) * e3

theorem m52Profile_deriv (r : ℝ) :
    HasDerivAt m52Profile (-(5 / 3 * r * (1 + √5 * r) * Real.exp (-(√5 * r)))) r := by
  have h1 : HasDerivAt (fun r : ℝ => √5 * r) √5 r := by
    simpa using (hasDerivAt_id r).const_mul √5
  have h2 : HasDerivAt (fun r : ℝ => 5 * r ^ 2 / 3) (5 * (2 * r) / 3) r := by
    have := ((hasDerivAt_pow 2 r).const_mul 5).div_const 3
    simpa using this
  have h := ((h1.const_add 1).add h2).mul (h1.neg.exp)
  refine h.congr_deriv ?_
  have e5 : √5 * √5 = 5 := Real.mul_self_sqrt (by norm_num)
  simp only [Pi.neg_apply, Pi.add_apply]
  linear_combination (-r * Real.exp (-(√5 * r))) * e5

theorem seProfile_deriv (r : ℝ) : HasDerivAt seProfile (-(r * Real.exp (-(r ^ 2 / 2)))) r := by
  have h := (((hasDerivAt_pow 2 r).div_const 2).neg).exp
  refine h.congr_deriv ?_
  simp only [Pi.neg_apply]
  push_cast
  ring

theorem profile_strictAnti (name : String) : StrictAntiOn (profile name) (Set.Ici 0) := by
  unfold profile
  split_ifs
  · refine strictAntiOn_of_deriv_neg (convex_Ici 0)
      (fun r _ => (m32Profile_deriv r).continuousAt.continuousWithinAt) fun r hr => ?_
    rw [interior_Ici] at hr
    have hr : 0 < r := hr
    rw [(m32Profile_deriv r).deriv]
    have := Real.exp_pos (-(√3 * r))
    rw [neg_lt_zero]; positivity
  · refine strictAntiOn_of_deriv_neg (convex_Ici 0)
      (fun r _ => (m52Profile_deriv r).continuousAt.continuousWithinAt) fun r hr => ?_
    rw [interior_Ici] at hr
    have hr : 0 < r := hr
    rw [(m52Profile_deriv r).deriv]
    have := Real.exp_pos (-(√5 * r))
    rw [neg_lt_zero]; positivity
  · refine strictAntiOn_of_deriv_neg (convex_Ici 0)
      (fun r _ => (seProfile_deriv r).continuousAt.continuousWithinAt) fun r hr => ?_
    rw [interior_Ici] at hr
    have hr : 0 < r := hr
    rw [(seProfile_deriv r).deriv]
    have := Real.exp_pos (-(r ^ 2 / 2))
    rw [neg_lt_zero]; positivity

theorem profile_zero (name : String) : profile name 0 = 1 := by
  unfold profile
  split_ifs <;> simp [m32Profile, m52Profile, seProfile]

theorem profile_pos (name : String) {r : ℝ} (hr : 0 ≤ r) : 0 < profile name r := by
  unfold profile
  split_ifs
  · unfold m32Profile; positivity
  · unfold m52Profile; positivity
  · unfold seProfile; positivity

theorem profile_le_one (name : String) {r : ℝ} (hr : 0 ≤ r) : profile name r ≤ 1 := by
  rw [← profile_zero name]
  exact (profile_strictAnti name).antitoneOn Set.self_mem_Ici hr hr

theorem profile_top (name : String) : Tendsto (profile name) atTop (𝓝 0) := by
  have hk : ∀ (c : ℝ), 0 < c → ∀ k : ℕ,
      Tendsto (fun r : ℝ => (c * r) ^ k * Real.exp (-(c * r))) atTop (𝓝 0) := by
    intro c hc k
    exact (Real.tendsto_pow_mul_exp_neg_atTop_nhds_zero k).comp (tendsto_id.const_mul_atTop hc)
  unfold profile
  split_ifs
  · have h3 : 0 < √3 := by positivity
    have := (hk _ h3 0).add (hk _ h3 1)
    rw [add_zero] at this
    refine this.congr fun r => ?_
    simp only [m32Profile]; ring
  · have h5 : 0 < √5 := by positivity
    have := ((hk _ h5 0).add (hk _ h5 1)).add ((hk _ h5 2).div_const 3)
    simp only [add_zero, zero_div] at this
    refine this.congr fun r => ?_
    have e5 : √5 ^ 2 = 5 := Real.sq_sqrt (by norm_num)
    simp only [m52Profile, mul_pow, e5]; ring
  · have h : Tendsto (fun r : ℝ => r ^ 2 / 2) atTop atTop :=
      (tendsto_pow_atTop two_ne_zero).atTop_div_const (by norm_num)
    exact Real.tendsto_exp_neg_atTop_nhds_zero.comp h

theorem scaledDistance_symm {d : ℕ} (l : Fin d → ℝ) (x y : Point d) :
    scaledDistance l x y = scaledDistance l y x := by
  unfold scaledDistance
  congr 1
  exact Finset.sum_congr rfl fun k _ => by ring

theorem scaledDistance_self {d : ℕ} (l : Fin d → ℝ) (x : Point d) : scaledDistance l x x = 0 := by
  simp [scaledDistance]

theorem kernel_symm {d : ℕ} (name : String) (s : ℝ) (l : Fin d → ℝ) (x y : Point d) :
    kernel name s l x y = kernel name s l y x := by
  unfold kernel; rw [scaledDistance_symm]

theorem kernel_self {d : ℕ} (name : String) (s : ℝ) (l : Fin d → ℝ) (x : Point d) :
    kernel name s l x x = s ^ 2 := by
  simp [kernel, scaledDistance_self, profile_zero]

theorem kernel_nonneg {d : ℕ} (name : String) (s : ℝ) (l : Fin d → ℝ) (x y : Point d) :
    0 ≤ kernel name s l x y :=
  mul_nonneg (sq_nonneg s) (profile_pos name (scaledDistance_nonneg _ _ _)).le

theorem kernel_pos {d : ℕ} (name : String) {s : ℝ} (hs : s ≠ 0) (l : Fin d → ℝ) (x y : Point d) :
    0 < kernel name s l x y :=
  mul_pos (by positivity) (profile_pos name (scaledDistance_nonneg _ _ _))

theorem kernel_le {d : ℕ} (name : String) (s : ℝ) (l : Fin d → ℝ) (x y : Point d) :
    kernel name s l x y ≤ s ^ 2 :=
  mul_le_of_le_one_right (sq_nonneg s) (profile_le_one name (scaledDistance_nonneg _ _ _))

/-- The kernel over any finite family of points. -/
theorem kernel_quad_fintype {ι : Type*} [Fintype ι] {d : ℕ} (name : String) (s : ℝ)
    (l : Fin d → ℝ) (x : ι → Point d) (c : ι → ℝ) :
    0 ≤ ∑ i, ∑ j, c i * kernel name s l (x i) (x j) * c j := by
  classical
  let e := (Fintype.equivFin ι).symm
  have := kernel_quad name s l (x ∘ e) (c ∘ e)
  refine this.trans_eq ?_
  rw [← e.sum_comp]
  refine Finset.sum_congr rfl fun i _ => ?_
  rw [← e.sum_comp]
  rfl

/-- The set kernel over any finite family of sets. -/
theorem setKernel_quad {ι : Type*} [Fintype ι] {d : ℕ} (name : String) (s : ℝ)
    (l : Fin d → ℝ) (p : ι → ℕ) (x : ∀ i, Fin (p i) → Point d) (c : ι → ℝ) :
    0 ≤ ∑ i, ∑ j, c i * setKernel name s l (x i) (x j) * c j := by
  have := kernel_quad_fintype name s l (fun a : Σ i, Fin (p i) => x a.1 a.2)
    (fun a => c a.1 / p a.1)
  refine this.trans_eq ?_
  rw [Fintype.sum_sigma]
  refine Finset.sum_congr rfl fun i _ => ?_
  simp only [Fintype.sum_sigma]
  rw [Finset.sum_comm]
  refine Finset.sum_congr rfl fun j _ => ?_
  simp only [setKernel, Finset.sum_div, Finset.mul_sum, Finset.sum_mul]
  refine Finset.sum_congr rfl fun a _ => Finset.sum_congr rfl fun b _ => ?_
  rcases eq_or_ne (p i : ℝ) 0 with hi | hi
  · simp [hi]
  rcases eq_or_ne (p j : ℝ) 0 with hj | hj
  · simp [hj]
  field_simp

theorem setKernel_nonneg {d p q : ℕ} (name : String) (s : ℝ) (l : Fin d → ℝ)
    (x : Fin p → Point d) (y : Fin q → Point d) : 0 ≤ setKernel name s l x y :=
  div_nonneg (Finset.sum_nonneg fun _ _ => Finset.sum_nonneg fun _ _ => kernel_nonneg _ _ _ _ _)
    (by positivity)

theorem setKernel_le {d p q : ℕ} (name : String) (s : ℝ) (l : Fin d → ℝ)
    (x : Fin p → Point d) (y : Fin q → Point d) : setKernel name s l x y ≤ s ^ 2 := by
  have h : ∑ a, ∑ b, kernel name s l (x a) (y b) ≤ ∑ _a : Fin p, ∑ _b : Fin q, s ^ 2 :=
    Finset.sum_le_sum fun _ _ => Finset.sum_le_sum fun _ _ => kernel_le _ _ _ _ _
  simp only [Finset.sum_const, Finset.card_univ, Fintype.card_fin, nsmul_eq_mul] at h
  unfold setKernel
  rcases eq_or_ne ((p : ℝ) * q) 0 with h0 | h0
  · rw [h0, div_zero]; positivity
  · have : 0 < (p : ℝ) * q := lt_of_le_of_ne (by positivity) (Ne.symm h0)
    rw [div_le_iff₀ this]
    linarith

theorem setKernel_pos {d p q : ℕ} (name : String) {s : ℝ} (hs : s ≠ 0) (l : Fin d → ℝ)
    (hp : p ≠ 0) (hq : q ≠ 0) (x : Fin p → Point d) (y : Fin q → Point d) :
    0 < setKernel name s l x y := by
  have : NeZero p := ⟨hp⟩
  have : NeZero q := ⟨hq⟩
  refine div_pos (Finset.sum_pos (fun _ _ => Finset.sum_pos (fun _ _ => kernel_pos _ hs _ _ _) ?_)
    ?_) (by positivity)
  · exact Finset.univ_nonempty
  · exact Finset.univ_nonempty

theorem setKernel_singleton {d : ℕ} (name : String) (s : ℝ) (l : Fin d → ℝ) (x y : Point d) :
    setKernel name s l (fun _ : Fin 1 => x) (fun _ : Fin 1 => y) = kernel name s l x y := by
  simp [setKernel]

end Verif.Lemmas
