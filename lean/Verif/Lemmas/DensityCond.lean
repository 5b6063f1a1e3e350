import Mathlib.Probability.Kernel.CondDistrib
import Mathlib.Probability.Kernel.WithDensity
import Mathlib.MeasureTheory.Measure.WithDensity
import Mathlib.MeasureTheory.Measure.Prod

/-! Conditional distributions through a factorised density. -/

namespace Verif.Lemmas

open MeasureTheory ProbabilityTheory

variable {Ω α β : Type*} [MeasurableSpace Ω] [MeasurableSpace α] [MeasurableSpace β]
  [StandardBorelSpace β] [Nonempty β]

theorem condDistrib_of_density {P : Measure Ω} [IsFiniteMeasure P] {μ : Measure α} {ν : Measure β}
    [SFinite μ] [SFinite ν] {X : Ω → α} {Y : Ω → β} (hX : AEMeasurable X P) (hY : AEMeasurable Y P)
    {p : α → ENNReal} {q : α → β → ENNReal} (hp : Measurable p)
    (hq : Measurable (Function.uncurry q)) (hq1 : ∀ a, ∫⁻ b, q a b ∂ν = 1)
    (hlaw : P.map (fun ω => (X ω, Y ω)) = (μ.prod ν).withDensity fun z => p z.1 * q z.1 z.2) :
    P.map X = μ.withDensity p ∧
      condDistrib Y X P =ᵐ[P.map X] fun a => ν.withDensity (q a) := by
  have hpq : Measurable fun z : α × β => p z.1 * q z.1 z.2 := (hp.comp measurable_fst).mul hq
  have hqa : ∀ a, Measurable (q a) := fun a => hq.comp measurable_prodMk_left
  have hmarg : P.map X = μ.withDensity p := by
    have h1 : P.map X = (P.map fun ω => (X ω, Y ω)).map Prod.fst := by
      rw [AEMeasurable.map_map_of_aemeasurable measurable_fst.aemeasurable (hX.prodMk hY)]
      rfl
    rw [h1, hlaw]
    ext s hs
    rw [Measure.map_apply measurable_fst hs, withDensity_apply _ (measurable_fst hs),
      withDensity_apply _ hs, ← lintegral_indicator (measurable_fst hs),
      lintegral_prod _ (hpq.indicator (measurable_fst hs)).aemeasurable, ← lintegral_indicator hs]
    refine lintegral_congr fun a => ?_
    by_cases ha : a ∈ s
    · rw [Set.indicator_of_mem ha]
      have : ∀ b, (Prod.fst ⁻¹' s).indicator (fun z : α × β => p z.1 * q z.1 z.2) (a, b) =
          p a * q a b := fun b => Set.indicator_of_mem (by exact ha) _
      simp only [this]
      rw [lintegral_const_mul _ (hqa a), hq1, mul_one]
    · rw [Set.indicator_of_notMem ha]
      have : ∀ b, (Prod.fst ⁻¹' s).indicator (fun z : α × β => p z.1 * q z.1 z.2) (a, b) = 0 :=
        fun b => Set.indicator_of_notMem (by exact ha) _
      simp only [this, lintegral_zero]
  refine ⟨hmarg, ?_⟩
  let κ : Kernel α β := Kernel.withDensity (Kernel.const α ν) q
  have hκ : ∀ a, κ a = ν.withDensity (q a) := fun a => by
    rw [Kernel.withDensity_apply _ hq, Kernel.const_apply]
  haveI : IsMarkovKernel κ := ⟨fun a => ⟨by
    rw [hκ, withDensity_apply _ MeasurableSet.univ, Measure.restrict_univ, hq1]⟩⟩
  have hc := condDistrib_ae_eq_of_measure_eq_compProd X hY (κ := κ) (μ := P) (by
    rw [hlaw, hmarg]
    haveI : SFinite (μ.withDensity p) := by infer_instance
    ext s hs
    rw [withDensity_apply _ hs, Measure.compProd_apply hs,
      lintegral_withDensity_eq_lintegral_mul _ hp (Kernel.measurable_kernel_prodMk_left hs),
      ← lintegral_indicator hs, lintegral_prod _ (hpq.indicator hs).aemeasurable]
    refine lintegral_congr fun a => ?_
    have hsec : MeasurableSet (Prod.mk a ⁻¹' s) := measurable_prodMk_left hs
    rw [Pi.mul_apply, hκ, withDensity_apply _ hsec, ← lintegral_indicator hsec,
      ← lintegral_const_mul _ ((hqa a).indicator hsec)]
    refine lintegral_congr fun b => ?_
    by_cases hb : (a, b) ∈ s
    · rw [Set.indicator_of_mem hb, Set.indicator_of_mem (by exact hb)]
    · rw [Set.indicator_of_notMem hb, Set.indicator_of_notMem (by exact hb), mul_zero])
  filter_upwards [hc] with a ha
  rw [ha, hκ]

end Verif.Lemmas
