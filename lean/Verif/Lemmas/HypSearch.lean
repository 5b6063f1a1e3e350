import Verif.Lemmas.Fit
import Verif.Lemmas.Objective
import Verif.Lemmas.Tp
import Verif.Spec.HypSearch

/-! The objective of the search for hyperparameters as a function of the vector (for C133). -/

namespace Verif.Lemmas

open Verif.Spec Verif.Covariance Verif.UtilsCovariance Verif.Constants Verif.Gp
open Matrix
open Filter (Tendsto tendsto_iff_ultrafilter le_principal_iff)
open scoped Topology

variable {n d N : ℕ}

/-! ### The factor depends continuously on the matrix -/

theorem cholesky_entry_sq {A L : Matrix (Fin n) (Fin n) ℝ} (h : IsCholesky A L) (i j : Fin n) :
    L i j ^ 2 ≤ A i i := by
  have : A i i = ∑ k, L i k * L i k := by
    rw [← h.2.2, Matrix.mul_apply]
    rfl
  rw [this, sq]
  exact Finset.single_le_sum (f := fun k => L i k * L i k) (fun k _ => mul_self_nonneg _)
    (Finset.mem_univ j)

theorem cholesky_tendsto {T : Type} {f : Filter T} {K L : T → Matrix (Fin n) (Fin n) ℝ}
    {K0 L0 : Matrix (Fin n) (Fin n) ℝ} (hK : ∀ i j, Tendsto (fun t => K t i j) f (𝓝 (K0 i j)))
    (hL : ∀ᶠ t in f, IsCholesky (K t) (L t)) (hL0 : IsCholesky K0 L0) (a b : Fin n) :
    Tendsto (fun t => L t a b) f (𝓝 (L0 a b)) := by
  rw [tendsto_iff_ultrafilter]
  intro g hg
  have hKg : ∀ i j, Tendsto (fun t => K t i j) g (𝓝 (K0 i j)) := fun i j => (hK i j).mono_left hg
  have hLg : ∀ᶠ t in (g : Filter T), IsCholesky (K t) (L t) := hg hL
  have hlim : ∀ i j, ∃ x, Tendsto (fun t => L t i j) g (𝓝 x) := by
    intro i j
    have hb : ∀ᶠ t in (g : Filter T), L t i j ∈ Set.Icc (-(K0 i i + 2)) (K0 i i + 2) := by
      have h1 : ∀ᶠ t in (g : Filter T), K t i i < K0 i i + 1 :=
        (hKg i i).eventually (gt_mem_nhds (by linarith))
      filter_upwards [h1, hLg] with t h1 h2
      have h3 := cholesky_entry_sq h2 i j
      have h4 : 0 ≤ K t i i := (sq_nonneg _).trans h3
      have h5 : |L t i j| ≤ K0 i i + 2 := by
        refine abs_le_of_sq_le_sq (h3.trans ?_) (by linarith)
        nlinarith
      exact ⟨(abs_le.1 h5).1, (abs_le.1 h5).2⟩
    obtain ⟨x, -, hx⟩ := isCompact_Icc.ultrafilter_le_nhds (g.map fun t => L t i j)
      (le_principal_iff.2 hb)
    exact ⟨x, hx⟩
  choose M hM using hlim
  have hMl : ∀ i j, i < j → M i j = 0 := by
    intro i j hij
    refine tendsto_nhds_unique_of_eventuallyEq (hM i j) tendsto_const_nhds ?_
    filter_upwards [hLg] with t ht using ht.1 i j hij
  have hMm : (Matrix.of M) * (Matrix.of M)ᵀ = K0 := by
    ext i j
    have h1 : Tendsto (fun t => ∑ k, L t i k * L t j k) g (𝓝 (∑ k, M i k * M j k)) :=
      tendsto_finsetSum _ fun k _ => (hM i k).mul (hM j k)
    have h2 : (fun t => ∑ k, L t i k * L t j k) =ᶠ[(g : Filter T)] fun t => K t i j := by
      filter_upwards [hLg] with t ht
      rw [← ht.2.2, Matrix.mul_apply]
      rfl
    have := tendsto_nhds_unique_of_eventuallyEq h1 (hKg i j) h2
    rw [Matrix.mul_apply]
    exact this
  have hMd : ∀ i, 0 < M i i := by
    intro i
    have h0 : 0 ≤ M i i := by
      refine ge_of_tendsto (hM i i) ?_
      filter_upwards [hLg] with t ht using (ht.2.1 i).le
    refine lt_of_le_of_ne h0 fun he => ?_
    have hdet : K0.det = ∏ i, L0 i i * L0 i i := by
      rw [cholesky_det hL0, ← Finset.prod_pow]
      exact Finset.prod_congr rfl fun i _ => sq _
    have hpos : 0 < K0.det := by
      rw [hdet]
      exact Finset.prod_pos fun i _ => mul_pos (hL0.2.1 i) (hL0.2.1 i)
    have hz : K0.det = 0 := by
      rw [← hMm, Matrix.det_mul, Matrix.det_transpose,
        Matrix.det_of_lowerTriangular (Matrix.of M) fun i j hij => hMl i j hij]
      have : ∏ i, Matrix.of M i i = 0 := Finset.prod_eq_zero (Finset.mem_univ i) he.symm
      rw [this, zero_mul]
    exact hpos.ne' hz
  have : Matrix.of M = L0 := cholesky_unique ⟨hMl, hMd, hMm⟩ hL0
  rw [← this]
  exact hM a b

/-! ### Kernel matrices depend continuously on the hyperparameters -/

section

variable {T : Type} [TopologicalSpace T] {S : Set T}

theorem kernel_continuousOn (name : String) {s : T → ℝ} {l : T → Fin d → ℝ}
    (hs : ContinuousOn s S) (hl : ∀ k, ContinuousOn (fun t => l t k) S)
    (hl0 : ∀ t ∈ S, ∀ k, l t k ≠ 0) (x y : Point d) :
    ContinuousOn (fun t => kernel name (s t) (l t) x y) S := by
  unfold kernel scaledDistance
  refine (hs.pow 2).mul ((continuous_profile name).comp_continuousOn ?_)
  refine Real.continuous_sqrt.comp_continuousOn ?_
  refine continuousOn_finsetSum _ fun k _ => ?_
  exact (continuousOn_const.div (hl k) fun t ht => hl0 t ht k).pow 2

theorem noisyGram_continuousOn (base : String) (X : Inputs n d) {σ s : T → ℝ}
    {l : T → Fin d → ℝ} (hσ : ContinuousOn σ S) (hs : ContinuousOn s S)
    (hl : ∀ k, ContinuousOn (fun t => l t k) S) (hl0 : ∀ t ∈ S, ∀ k, l t k ≠ 0) (i j : Fin n) :
    ContinuousOn (fun t => noisyGram base (σ t) (s t) (l t) X i j) S := by
  have hg : ContinuousOn (fun t => Spec.gram base (s t) (l t) X X i j) S := by
    simp only [Spec.gram, Matrix.of_apply, itemKernel, setKernel]
    exact (continuousOn_finsetSum _ fun a _ => continuousOn_finsetSum _ fun b _ =>
      kernel_continuousOn base hs hl hl0 _ _).div_const _
  simp only [noisyGram, Matrix.add_apply, Matrix.smul_apply, smul_eq_mul]
  exact hg.add (((hσ.pow 2).add continuousOn_const).mul continuousOn_const)

theorem det_continuousOn {K : T → Matrix (Fin n) (Fin n) ℝ}
    (hK : ∀ i j, ContinuousOn (fun t => K t i j) S) : ContinuousOn (fun t => (K t).det) S := by
  have : ContinuousOn K S := continuousOn_pi.2 fun i => continuousOn_pi.2 fun j => hK i j
  exact (Continuous.matrix_det continuous_id).comp_continuousOn this

theorem inv_continuousOn {K : T → Matrix (Fin n) (Fin n) ℝ}
    (hK : ∀ i j, ContinuousOn (fun t => K t i j) S) (h0 : ∀ t ∈ S, (K t).det ≠ 0) (i j : Fin n) :
    ContinuousOn (fun t => (K t)⁻¹ i j) S := by
  have hc : ContinuousOn K S := continuousOn_pi.2 fun i => continuousOn_pi.2 fun j => hK i j
  have ha : ContinuousOn (fun t => (K t).adjugate i j) S := by
    have : Continuous fun A : Matrix (Fin n) (Fin n) ℝ => A.adjugate i j :=
      (Continuous.matrix_adjugate continuous_id).matrix_elem i j
    exact this.comp_continuousOn hc
  refine ((det_continuousOn hK).inv₀ h0).mul ha |>.congr fun t ht => ?_
  rw [Matrix.inv_def, Matrix.smul_apply, Ring.inverse_eq_inv', smul_eq_mul]
  rfl

theorem quad_continuousOn {K : T → Matrix (Fin n) (Fin n) ℝ}
    (hK : ∀ i j, ContinuousOn (fun t => K t i j) S) (h0 : ∀ t ∈ S, (K t).det ≠ 0) (y : Fin n → ℝ) :
    ContinuousOn (fun t => y ⬝ᵥ ((K t)⁻¹ *ᵥ y)) S := by
  simp only [dotProduct, mulVec]
  exact continuousOn_finsetSum _ fun i _ => continuousOn_const.mul
    (continuousOn_finsetSum _ fun j _ => (inv_continuousOn hK h0 i j).mul continuousOn_const)

theorem nllExact_continuousOn {K : T → Matrix (Fin n) (Fin n) ℝ}
    (hK : ∀ i j, ContinuousOn (fun t => K t i j) S) (h0 : ∀ t ∈ S, (K t).PosDef) (y : Fin n → ℝ) :
    ContinuousOn (fun t => nllExact (K t) y) S := by
  unfold nllExact
  have hd : ∀ t ∈ S, (K t).det ≠ 0 := fun t ht => (h0 t ht).det_pos.ne'
  exact (((continuousOn_const.mul (quad_continuousOn hK hd y)).add
    (continuousOn_const.mul ((det_continuousOn hK).log hd))).add continuousOn_const).div_const _

theorem nllChol_continuousOn {K L : T → Matrix (Fin n) (Fin n) ℝ}
    (hK : ∀ i j, ContinuousOn (fun t => K t i j) S) (h0 : ∀ t ∈ S, (K t).PosDef)
    (hL : ∀ t ∈ S, IsCholesky (K t) (L t)) (y : Fin n → ℝ) :
    ContinuousOn (fun t => nllChol (K t) (L t) y) S := by
  have hc : ∀ i j, ContinuousOn (fun t => L t i j) S := fun i j t ht =>
    cholesky_tendsto (fun i j => hK i j t ht)
      (eventually_nhdsWithin_of_forall fun t ht => hL t ht) (hL t ht) i j
  unfold nllChol
  refine (nllExact_continuousOn hK h0 y).add ((continuousOn_finsetSum _ fun i _ => ?_).div_const _)
  refine (((hc i i).add continuousOn_const).log fun t ht => ?_).sub ((hc i i).log fun t ht => ?_)
  · have := (hL t ht).2.1 i
    exact (add_pos this (by norm_num)).ne'
  · exact ((hL t ht).2.1 i).ne'

end

/-! ### Lower bounds -/

theorem nll_sum_ge {K L : Matrix (Fin n) (Fin n) ℝ} (hL : IsCholesky K L) (hK : K.PosDef)
    (hn : n ≠ 0) {c e : ℝ} (hc : 0 < c) (he : 0 ≤ e)
    (hA : ∀ v : Fin n → ℝ, c * (v ⬝ᵥ v) ≤ v ⬝ᵥ (K *ᵥ v)) (y : Fin n → ℝ) :
    1 / 2 * Real.log (2 * Real.pi * c) ≤ (1 / 2 * (y ⬝ᵥ (K⁻¹ *ᵥ y)) +
      ∑ i, Real.log (L i i + e) + n / 2 * Real.log (2 * Real.pi)) / n := by
  have hn' : (0 : ℝ) < n := by exact_mod_cast Nat.pos_of_ne_zero hn
  have h1 : 0 ≤ y ⬝ᵥ (K⁻¹ *ᵥ y) := misfit_nonneg hK y
  have h2 : ∀ i, 1 / 2 * Real.log c ≤ Real.log (L i i + e) := by
    intro i
    have hp := hL.2.1 i
    have h3 := cholesky_diag_ge hL hc.le hA i
    have h4 : Real.log c ≤ Real.log (L i i ^ 2) := Real.log_le_log hc h3
    rw [Real.log_pow] at h4
    have h5 : Real.log (L i i) ≤ Real.log (L i i + e) := Real.log_le_log hp (by linarith)
    push_cast at h4
    linarith
  have h3 : (n : ℝ) * (1 / 2 * Real.log c) ≤ ∑ i, Real.log (L i i + e) := by
    have := Finset.sum_le_sum fun i (_ : i ∈ Finset.univ) => h2 i
    simpa using this
  rw [le_div_iff₀ hn', Real.log_mul (by positivity) hc.ne']
  linarith

theorem nllExact_ge {K : Matrix (Fin n) (Fin n) ℝ} (hK : K.PosDef) (hn : n ≠ 0) {c : ℝ}
    (hc : 0 < c) (hA : ∀ v : Fin n → ℝ, c * (v ⬝ᵥ v) ≤ v ⬝ᵥ (K *ᵥ v)) (y : Fin n → ℝ) :
    1 / 2 * Real.log (2 * Real.pi * c) ≤ nllExact K y := by
  obtain ⟨L, -, hL⟩ := spCholesky_posDef hK
  refine (nll_sum_ge hL hK hn hc le_rfl hA y).trans (le_of_eq ?_)
  rw [nllExact, cholesky_log_det hL]
  simp only [add_zero]
  ring

theorem nllChol_ge {K L : Matrix (Fin n) (Fin n) ℝ} (hK : K.PosDef) (hL : IsCholesky K L)
    (hn : n ≠ 0) {c : ℝ} (hc : 0 < c)
    (hA : ∀ v : Fin n → ℝ, c * (v ⬝ᵥ v) ≤ v ⬝ᵥ (K *ᵥ v)) (y : Fin n → ℝ) :
    1 / 2 * Real.log (2 * Real.pi * c) ≤ nllChol K L y := by
  refine (nll_sum_ge hL hK hn hc (e := 1 / 10000000) (by norm_num) hA y).trans (le_of_eq ?_)
  rw [nllChol, nllExact, cholesky_log_det hL, Finset.sum_sub_distrib]
  ring

/-- The diagonal of the inverse. -/
theorem inv_entry_le {K : Matrix (Fin n) (Fin n) ℝ} (hK : K.PosDef) {c : ℝ} (hc : 0 < c)
    (hA : ∀ v : Fin n → ℝ, c * (v ⬝ᵥ v) ≤ v ⬝ᵥ (K *ᵥ v)) (i : Fin n) :
    0 < K⁻¹ i i ∧ K⁻¹ i i ≤ 1 / c := by
  have hp : 0 < K⁻¹ i i := hK.inv.diag_pos
  refine ⟨hp, ?_⟩
  have hu : IsUnit K.det := hK.det_pos.ne'.isUnit
  have h1 := hA (K⁻¹ *ᵥ Pi.single i 1)
  rw [Matrix.mulVec_mulVec, Matrix.mul_nonsing_inv K hu, Matrix.one_mulVec] at h1
  simp only [dotProduct_single, mul_one, Matrix.mulVec_single_one] at h1
  have h2 : K⁻¹ i i * K⁻¹ i i ≤ K⁻¹.col i ⬝ᵥ K⁻¹.col i :=
    Finset.single_le_sum (f := fun j => K⁻¹ j i * K⁻¹ j i) (fun j _ => mul_self_nonneg _)
      (Finset.mem_univ i)
  have h3 : c * (K⁻¹ i i * K⁻¹ i i) ≤ K⁻¹ i i :=
    (mul_le_mul_of_nonneg_left h2 hc.le).trans h1
  rw [le_div_iff₀ hc]
  by_contra h4
  push Not at h4
  nlinarith

/-! ### Reading the vector -/

/-- The noise in the vector. -/
noncomputable def vecNoise (fix : Bool) (w : ℕ → ℝ) : ℝ := if fix then GP_NOISE else w 0

/-- The place of the degrees of freedom. -/
def dofPlace (fix : Bool) : ℕ := if fix then 0 else 1

/-- The place of the signal. -/
def signalPlace (gp fix : Bool) : ℕ := (if fix then 0 else 1) + (if gp then 0 else 1)

/-- The lengthscales in the vector. -/
def vecScale (gp ard fix : Bool) (w : ℕ → ℝ) (k : Fin d) : ℝ :=
  w (if ard then signalPlace gp fix + 1 + k else signalPlace gp fix + 1)

/-- The dictionary of the vector. -/
noncomputable def vecDict (d : ℕ) (gp ard fix : Bool) (w : ℕ → ℝ) : HypDict :=
  { noise := some (.flt (.fin (vecNoise fix w)))
    dof := if gp then none else some (.flt (.fin (w (dofPlace fix))))
    signal := some (.flt (.fin (w (signalPlace gp fix))))
    lengthscales := some (if ard then
        .arr ((List.ofFn fun k : Fin d => w (signalPlace gp fix + 1 + k)).map Flt.fin)
      else .flt (.fin (w (signalPlace gp fix + 1)))) }

theorem restore_range {name : String} (hn : name ∈ ALLOWED_COV) (gp ard fix : Bool)
    (w : ℕ → ℝ) :
    restoreHyps name (((List.range (vectorLength gp ard fix d)).map w).map Flt.fin) gp ard fix =
      .ok (vecDict d gp ard fix w) := by
  obtain ⟨v, h1, -, h3⟩ := Props.C19_dict_round_trip name hn (vecDict d gp ard fix w) gp ard fix d
    ⟨⟨_, rfl⟩, ⟨_, rfl⟩, by cases gp <;> simp [vecDict], by cases ard <;> simp [vecDict]⟩
  have hv : v = ((List.range (vectorLength gp ard fix d)).map w).map Flt.fin := by
    have hcov' : name ∈ getListFirst := Props.listFirst_eq ▸ hn
    have e : ∀ b : ℕ, List.ofFn (Flt.fin ∘ fun k : Fin d => w (b + k)) =
        (List.range d).map (Flt.fin ∘ w ∘ fun k => b + k) := by
      intro b
      exact List.ext_getElem (by simp) fun i h1 h2 => by simp
    cases fix <;> cases gp <;> cases ard <;>
      simp [convertHyps, vecDict, pyAssert, hn, hcov', getKey, HVal.scalar, bind,
        Except.bind, pure, Except.pure] at h1 <;> rw [← h1] <;>
      simp [vectorLength, signalPlace, dofPlace, vecNoise, List.range_add, e, List.range_succ]
  have := h3 (.fin GP_NOISE)
  rw [hv] at this
  rw [this]
  cases fix <;> simp [vecDict, vecNoise]

theorem vecDict_describes {gp ard fix : Bool} {w : ℕ → ℝ}
    (h : ∀ k < vectorLength gp ard fix d, w k ≠ 0) :
    Describes (vecDict d gp ard fix w) (vecNoise fix w) (w (signalPlace gp fix))
      (vecScale (d := d) gp ard fix w) := by
  have h0 : ∀ k : Fin d, vecScale gp ard fix w k ≠ 0 := by
    intro k
    unfold vecScale
    refine h _ ?_
    have := k.2
    cases ard <;> simp [vectorLength, signalPlace]
  refine ⟨rfl, rfl, ?_, h0⟩
  cases ard
  · right
    exact ⟨_, h _ (by simp [vectorLength, signalPlace]), fun k => rfl, rfl⟩
  · left
    simp [vecDict, vecScale, List.map_ofFn, Function.comp_def]

/-- The vector continued by ones. -/
def extend (v : Fin N → ℝ) (k : ℕ) : ℝ := if h : k < N then v ⟨k, h⟩ else 1

theorem continuous_extend (k : ℕ) : Continuous fun v : Fin N → ℝ => extend v k := by
  unfold extend
  split_ifs
  · exact continuous_apply _
  · exact continuous_const

theorem ofFn_extend (v : Fin N → ℝ) : List.ofFn v = (List.range N).map (extend v) :=
  List.ext_getElem (by simp) fun i h1 h2 => by
    simp only [List.length_ofFn] at h1
    simp [extend, h1]

theorem extend_ne_zero {v : Fin N → ℝ} (hv : ∀ i, v i ≠ 0) (k : ℕ) : extend v k ≠ 0 := by
  unfold extend
  split_ifs
  · exact hv _
  · exact one_ne_zero

theorem restore_ofFn {name : String} (hn : name ∈ ALLOWED_COV) (gp ard fix : Bool)
    (v : Fin (vectorLength gp ard fix d) → ℝ) :
    restoreHyps name ((List.ofFn v).map Flt.fin) gp ard fix =
      .ok (vecDict d gp ard fix (extend v)) := by
  rw [ofFn_extend, restore_range hn]

/-- The kernel matrix of the vector. -/
noncomputable def vecGram (base : String) (X : Inputs n d) (gp ard fix : Bool)
    (v : Fin N → ℝ) : Matrix (Fin n) (Fin n) ℝ :=
  noisyGram base (vecNoise fix (extend v)) (extend v (signalPlace gp fix))
    (vecScale gp ard fix (extend v)) X

theorem vecGram_posDef (base : String) (X : Inputs n d) (gp ard fix : Bool) (v : Fin N → ℝ) :
    (vecGram base X gp ard fix v).PosDef := noisyGram_posDef _ _ _ _ _

theorem vecGram_continuousOn (base : String) (X : Inputs n d) (gp ard fix : Bool) (i j : Fin n) :
    ContinuousOn (fun v : Fin N → ℝ => vecGram base X gp ard fix v i j) {v | ∀ i, v i ≠ 0} := by
  refine noisyGram_continuousOn base X ?_ (continuous_extend _).continuousOn
    (fun k => (continuous_extend _).continuousOn) (fun v hv k => extend_ne_zero hv _) i j
  unfold vecNoise
  split_ifs
  · exact continuousOn_const
  · exact (continuous_extend _).continuousOn

/-! ### The bounds -/

theorem ranges_positive {name : String} (hn : name ∈ ALLOWED_COV) (gp ard fix : Bool) :
    ∃ r, getRangeHyps name d gp ard fix = .ok r ∧ r.length = vectorLength gp ard fix d ∧
      (∀ p ∈ r, 0 < p.1 ∧ p.1 ≤ p.2) ∧ (gp = false → r[dofPlace fix]? = some (2.00001, 200)) := by
  have hcov' : name ∈ getListFirst := Props.listFirst_eq ▸ hn
  cases gp <;> cases fix <;> cases ard <;>
    (refine ⟨_, by
        simp only [getRangeHyps, pyAssert, hn, hcov', bind, Except.bind, pure, Except.pure,
          if_true, Bool.not_true, Bool.not_false, Bool.false_eq_true, if_false]
        rfl, ?_⟩
     simp [RANGE_NOISE, RANGE_DOF, RANGE_SIGNAL, RANGE_LENGTHSCALES, vectorLength, dofPlace]
     norm_num
     try omega)

theorem within_ofFn {r : List (ℝ × ℝ)} {v : Fin r.length → ℝ} :
    Within r (List.ofFn v) ↔ ∀ i : Fin r.length, r[i].1 ≤ v i ∧ v i ≤ r[i].2 := by
  rw [Within, List.forall₂_iff_get]
  constructor
  · intro ⟨_, h⟩ i
    have := h i i.2 (by simp)
    simpa using this
  · intro h
    refine ⟨by simp, fun i h1 h2 => ?_⟩
    have := h ⟨i, h1⟩
    simpa using this

/-- An objective that is continuous on a set that contains the bounds has a best vector. -/
theorem best_of_continuous {α : Type} {value : α → ℝ} {f : List Flt → Py α} {S : Set (Fin N → ℝ)}
    (hf : ContinuousOnVectors value f S) {r : List (ℝ × ℝ)} (hN : r.length = N)
    (hr : ∀ p ∈ r, p.1 ≤ p.2) (hS : ∀ v, Within r (List.ofFn v) → v ∈ S) : HasBest value f r := by
  subst hN
  obtain ⟨F, hF, h⟩ := hf
  have hbox : {v : Fin r.length → ℝ | Within r (List.ofFn v)} =
      Set.pi Set.univ fun i : Fin r.length => Set.Icc r[i].1 r[i].2 := by
    ext v
    simp only [Set.mem_setOf_eq, within_ofFn, Set.mem_pi, Set.mem_univ, true_implies, Set.mem_Icc]
  have hc : IsCompact {v : Fin r.length → ℝ | Within r (List.ofFn v)} := by
    rw [hbox]
    exact isCompact_univ_pi fun i => isCompact_Icc
  have hne : {v : Fin r.length → ℝ | Within r (List.ofFn v)}.Nonempty :=
    ⟨fun i => r[i].1, within_ofFn.2 fun i => ⟨le_rfl, hr _ (List.getElem_mem _)⟩⟩
  obtain ⟨v₀, h0, hmin⟩ := hc.exists_isMinOn hne (hF.mono hS)
  obtain ⟨a, ha, ea⟩ := h v₀ (hS v₀ h0)
  refine ⟨List.ofFn v₀, a, h0, ha, fun l hl => ?_⟩
  have hlen : l.length = r.length := hl.length_eq.symm
  obtain ⟨v, rfl⟩ : ∃ v : Fin r.length → ℝ, List.ofFn v = l := by
    refine ⟨fun i => l[i.1]'(by rw [hlen]; exact i.2), ?_⟩
    exact List.ext_getElem (by simp [hlen]) fun i h1 h2 => by simp
  obtain ⟨b, hb, eb⟩ := h v (hS v hl)
  refine ⟨b, hb, ?_⟩
  rw [ea, eb]
  exact hmin hl

theorem within_nonzero {r : List (ℝ × ℝ)} (hr : ∀ p ∈ r, 0 < p.1) {v : Fin N → ℝ}
    (h : Within r (List.ofFn v)) (i : Fin N) : 0 < v i := by
  rw [Within, List.forall₂_iff_get] at h
  obtain ⟨hl, h⟩ := h
  simp only [List.length_ofFn] at hl
  have := h i (by rw [hl]; exact i.2) (by simp)
  simp only [List.get_eq_getElem, List.getElem_ofFn, Fin.eta] at this
  exact (hr _ (List.getElem_mem _)).trans_le this.1

end Verif.Lemmas
