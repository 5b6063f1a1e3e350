import Verif.Lemmas.StudentLaw
import Verif.Lemmas.DensityCond

/-! Conditioning a multivariate Student-t vector on a part of it. -/

namespace Verif.Lemmas

open MeasureTheory ProbabilityTheory Matrix Verif.Spec

variable {ι κ : Type} [Fintype ι] [DecidableEq ι] [Fintype κ] [DecidableEq κ]

theorem measurable_mvtDensity (ν : ℝ) (m : ι → ℝ) (K : Matrix ι ι ℝ) :
    Measurable (mvtDensity ν m K) := by
  unfold mvtDensity
  exact (((measurable_quad m K⁻¹).div_const _).const_add _ |>.pow_const _).const_mul _

theorem lintegral_mvtDensity {ν : ℝ} (hν : 2 < ν) (m : ι → ℝ) {K : Matrix ι ι ℝ} (hK : K.PosDef) :
    ∫⁻ y, ENNReal.ofReal (mvtDensity ν m K y) = 1 := by
  have := (isProbabilityMeasure_studentT hν m hK).measure_univ
  rwa [studentT, withDensity_apply _ MeasurableSet.univ, Measure.restrict_univ] at this

private theorem map_withDensity_equiv {α β : Type*} [MeasurableSpace α] [MeasurableSpace β]
    {μ : Measure α} {ν : Measure β} (e : α ≃ᵐ β) (he : MeasurePreserving e μ ν)
    (g : α → ENNReal) : (μ.withDensity g).map e = ν.withDensity (g ∘ e.symm) := by
  ext s hs
  rw [Measure.map_apply e.measurable hs, withDensity_apply _ (e.measurable hs),
    withDensity_apply _ hs, ← he.setLIntegral_comp_preimage_emb e.measurableEmbedding]
  simp

/-- The observed part of a Student-t vector is a Student-t vector, and given it the rest is a
Student-t vector with more degrees of freedom, the normal conditional mean, and the normal
conditional covariance scaled by the misfit of the observed part. -/
theorem studentT_cond {Ω : Type*} [MeasurableSpace Ω] {P : Measure Ω} [IsFiniteMeasure P]
    {y : Ω → ι → ℝ} {f : Ω → κ → ℝ} (hy : AEMeasurable y P) (hf : AEMeasurable f P)
    {K : Matrix ι ι ℝ} {k : Matrix ι κ ℝ} {C S : Matrix κ κ ℝ}
    (hK : K.PosDef) (hS : S = C - kᵀ * K⁻¹ * k) (hSp : S.PosDef)
    (hJ : (fromBlocks K k kᵀ C).PosDef) {ν : ℝ} (hν : 2 < ν) {m : ι → ℝ} {ms : κ → ℝ}
    (hlaw : P.map (fun ω => Sum.elim (y ω) (f ω)) =
      studentT ν (Sum.elim m ms) (fromBlocks K k kᵀ C)) :
    P.map y = studentT ν m K ∧
    condDistrib f y P =ᵐ[P.map y] fun Y =>
      studentT (ν + Fintype.card ι) (ms + (kᵀ * K⁻¹) *ᵥ (Y - m))
        (((ν + (Y - m) ⬝ᵥ (K⁻¹ *ᵥ (Y - m)) - 2) / (ν + Fintype.card ι - 2)) • S) := by
  have hcard : (0 : ℝ) ≤ Fintype.card ι := Nat.cast_nonneg _
  have hβ : ∀ Y : ι → ℝ, 0 ≤ (Y - m) ⬝ᵥ (K⁻¹ *ᵥ (Y - m)) := fun Y => by
    have := hK.inv.posSemidef.dotProduct_mulVec_nonneg (Y - m)
    rwa [star_trivial] at this
  set D : (ι → ℝ) → (κ → ℝ) → ℝ := fun Y F =>
    mvtDensity (ν + Fintype.card ι) (ms + (kᵀ * K⁻¹) *ᵥ (Y - m))
        (((ν + (Y - m) ⬝ᵥ (K⁻¹ *ᵥ (Y - m)) - 2) / (ν + Fintype.card ι - 2)) • S) F with hD
  have hfac : ∀ Y F, mvtDensity ν (Sum.elim m ms) (fromBlocks K k kᵀ C) (Sum.elim Y F) =
      mvtDensity ν m K Y * D Y F := fun Y F => mvtDensity_block hK hS hSp hJ hν m Y ms F
  have hpos : ∀ Y, 0 < mvtDensity ν m K Y := fun Y => mvtDensity_pos hν m hK Y
  have hmeas : Measurable (Function.uncurry fun Y F => ENNReal.ofReal (D Y F)) := by
    have h1 : (Function.uncurry fun Y F => ENNReal.ofReal (D Y F)) = fun z : (ι → ℝ) × (κ → ℝ) =>
        ENNReal.ofReal (mvtDensity ν (Sum.elim m ms) (fromBlocks K k kᵀ C) (Sum.elim z.1 z.2) /
          mvtDensity ν m K z.1) := by
      funext z
      rw [hfac, mul_div_cancel_left₀ _ (hpos z.1).ne']
      rfl
    rw [h1]
    refine ENNReal.measurable_ofReal.comp (((measurable_mvtDensity _ _ _).comp ?_).div
      ((measurable_mvtDensity _ _ _).comp measurable_fst))
    refine measurable_pi_lambda _ fun a => ?_
    rcases a with i | j
    · exact (measurable_pi_apply i).comp measurable_fst
    · exact (measurable_pi_apply j).comp measurable_snd
  have hone : ∀ Y, ∫⁻ F, ENNReal.ofReal (D Y F) = 1 := fun Y =>
    lintegral_mvtDensity (by linarith) _ (hSp.smul (div_pos (by linarith [hβ Y]) (by linarith)))
  have hz : AEMeasurable (fun ω => Sum.elim (y ω) (f ω)) P := by
    refine aemeasurable_pi_lambda _ fun a => ?_
    rcases a with i | j
    · exact (measurable_pi_apply i).comp_aemeasurable hy
    · exact (measurable_pi_apply j).comp_aemeasurable hf
  have hlaw' : P.map (fun ω => (y ω, f ω)) =
      ((volume : Measure (ι → ℝ)).prod (volume : Measure (κ → ℝ))).withDensity fun z =>
        ENNReal.ofReal (mvtDensity ν m K z.1) * ENNReal.ofReal (D z.1 z.2) := by
    have he := volume_measurePreserving_sumPiEquivProdPi fun _ : ι ⊕ κ => ℝ
    have h1 : P.map (fun ω => (y ω, f ω)) = (P.map fun ω => Sum.elim (y ω) (f ω)).map
        (MeasurableEquiv.sumPiEquivProdPi fun _ : ι ⊕ κ => ℝ) := by
      rw [AEMeasurable.map_map_of_aemeasurable (MeasurableEquiv.measurable _).aemeasurable hz]
      rfl
    rw [h1, hlaw, studentT, map_withDensity_equiv _ he]
    have hd : (fun w => ENNReal.ofReal (mvtDensity ν (Sum.elim m ms) (fromBlocks K k kᵀ C) w)) ∘
        (MeasurableEquiv.sumPiEquivProdPi fun _ : ι ⊕ κ => ℝ).symm = fun z =>
        ENNReal.ofReal (mvtDensity ν m K z.1) * ENNReal.ofReal (D z.1 z.2) := by
      funext z
      rw [← ENNReal.ofReal_mul (hpos z.1).le, ← hfac]
      simp only [Function.comp]
      congr 2
    rw [hd]
    rfl
  exact condDistrib_of_density hy hf
    (ENNReal.measurable_ofReal.comp (measurable_mvtDensity ν m K)) hmeas hone hlaw'

end Verif.Lemmas
