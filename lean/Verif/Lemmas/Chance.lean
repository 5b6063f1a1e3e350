import Verif.Spec.Chance
import Mathlib.MeasureTheory.Constructions.Pi
import Mathlib.MeasureTheory.Measure.Lebesgue.VolumeOfBalls

/-! # Distributions of scaled draws (lemmas for C111) -/

namespace Verif.Lemmas

open Verif.Spec MeasureTheory ProbabilityTheory

variable {Ω : Type} [MeasurableSpace Ω]

instance : IsProbabilityMeasure unitLaw := ⟨by simp [unitLaw]⟩

instance (lo hi : ℝ) : IsProbabilityMeasure (uniformLaw lo hi) := by
  unfold uniformLaw
  split
  · rename_i h
    have : (volume (Set.Icc lo hi)) ≠ 0 := by simp [h]
    exact cond_isProbabilityMeasure_of_finite this (by simp)
  · infer_instance

instance {d : ℕ} (B : Bounds d) : IsProbabilityMeasure (boxLaw B) := by
  unfold boxLaw
  infer_instance

theorem measurable_toInterval (lo hi : ℝ) : Measurable fun x : ℝ => max lo (min x hi) :=
  measurable_const.max (measurable_id.min measurable_const)

instance (lo hi : ℝ) : IsProbabilityMeasure (clippedNormal lo hi) := by
  unfold clippedNormal
  exact Measure.isProbabilityMeasure_map (measurable_toInterval lo hi).aemeasurable

theorem unitLaw_map (lo hi : ℝ) (hle : lo ≤ hi) :
    unitLaw.map (fun u => lo + (hi - lo) * u) = uniformLaw lo hi := by
  rcases hle.eq_or_lt with rfl | hlt
  · simp [uniformLaw]
  have hw : 0 < hi - lo := sub_pos.2 hlt
  have hf : Measurable fun u : ℝ => lo + (hi - lo) * u := by fun_prop
  have hpre : (fun u : ℝ => lo + (hi - lo) * u) ⁻¹' Set.Ico lo hi = Set.Ico 0 1 := by
    ext u
    simp only [Set.mem_preimage, Set.mem_Ico]
    constructor
    · rintro ⟨a, b⟩
      exact ⟨by nlinarith, by nlinarith⟩
    · rintro ⟨a, b⟩
      exact ⟨by nlinarith, by nlinarith⟩
  have hvol : (volume : Measure ℝ).map (fun u => lo + (hi - lo) * u) =
      ENNReal.ofReal (hi - lo)⁻¹ • volume := by
    have e : (fun u : ℝ => lo + (hi - lo) * u) = (fun x => lo + x) ∘ fun u => (hi - lo) * u := rfl
    rw [e, ← Measure.map_map (by fun_prop) (by fun_prop), Real.map_volume_mul_left hw.ne',
      Measure.map_smul, (measurePreserving_add_left volume lo).map_eq,
      abs_of_pos (inv_pos.2 hw)]
  rw [unitLaw, ← hpre, ← Measure.restrict_map hf measurableSet_Ico, hvol, uniformLaw, if_pos hlt,
    ProbabilityTheory.cond, Measure.restrict_smul, Measure.restrict_congr_set Ico_ae_eq_Icc,
    Real.volume_Icc, ENNReal.ofReal_inv_of_pos hw]

theorem normal_map (lo hi : ℝ) (hle : lo ≤ hi) :
    (gaussianReal 0 1).map (fun z => BaseBo.clip (z * ((hi - lo) / 4) + (hi + lo) / 2) lo hi) =
      clippedNormal lo hi := by
  have e : (fun z : ℝ => BaseBo.clip (z * ((hi - lo) / 4) + (hi + lo) / 2) lo hi) =
      (fun x => max lo (min x hi)) ∘ (fun x => x + (lo + hi) / 2) ∘ fun z => ((hi - lo) / 4) * z := by
    funext z
    simp only [BaseBo.clip, Function.comp]
    rw [show z * ((hi - lo) / 4) + (hi + lo) / 2 = (hi - lo) / 4 * z + (lo + hi) / 2 by ring,
      max_min_distrib_left, max_eq_right hle, max_comm]
  rw [e, ← Measure.map_map (measurable_toInterval lo hi) (by fun_prop),
    ← Measure.map_map (by fun_prop) (by fun_prop), gaussianReal_map_const_mul,
    gaussianReal_map_add_const, clippedNormal]
  congr 2
  · ring
  · rw [mul_one]
    ext
    simp [sq_nonneg]

/-- Coordinates drawn one after the other: points are independent, and so are their coordinates. -/
theorem iid_points {μ : Measure Ω} [IsProbabilityMeasure μ] {x : ℕ → Ω → ℝ} {law : Measure ℝ}
    (h : Iid μ x law) {n d : ℕ} (f : Fin d → ℝ → ℝ) (hf : ∀ j, Measurable (f j)) :
    μ.map (fun ω (i : Fin n) (j : Fin d) => f j (x (i * d + j) ω)) =
      Measure.pi fun _ => Measure.pi fun j => law.map (f j) := by
  have hl : IsProbabilityMeasure law := by
    rw [← h.law 0]
    exact Measure.isProbabilityMeasure_map (h.meas 0).aemeasurable
  have hp : ∀ j, IsProbabilityMeasure (law.map (f j)) := fun j =>
    Measure.isProbabilityMeasure_map (hf j).aemeasurable
  have hinj : Function.Injective fun p : Fin n × Fin d => (p.1 : ℕ) * d + p.2 := by
    rintro ⟨a, b⟩ ⟨a', b'⟩ hab
    have hb := b.isLt
    have hb' := b'.isLt
    simp only at hab
    have h1 : (a : ℕ) = a' := by
      have e1 : ((a : ℕ) * d + b) / d = a := by
        rw [Nat.mul_comm, Nat.mul_add_div (by omega), Nat.div_eq_of_lt hb, Nat.add_zero]
      have e2 : ((a' : ℕ) * d + b') / d = a' := by
        rw [Nat.mul_comm, Nat.mul_add_div (by omega), Nat.div_eq_of_lt hb', Nat.add_zero]
      rw [← e1, hab, e2]
    rw [h1] at hab
    exact Prod.ext (Fin.ext h1) (Fin.ext (Nat.add_left_cancel hab))
  have hind := (h.indep.precomp hinj).comp (fun p => f p.2) (fun p => hf p.2)
  have hmeas : ∀ p : Fin n × Fin d, Measurable (f p.2 ∘ x ((p.1 : ℕ) * d + p.2)) :=
    fun p => (hf p.2).comp (h.meas _)
  have key := hind.map_fun_eq_pi_map (fun p => (hmeas p).aemeasurable)
  have hlaw : ∀ p : Fin n × Fin d, μ.map (f p.2 ∘ x ((p.1 : ℕ) * d + p.2)) = law.map (f p.2) := by
    intro p
    rw [← Measure.map_map (hf p.2) (h.meas _), h.law]
  symm
  refine Measure.pi_eq_generateFrom (C := fun _ => Set.pi Set.univ '' Set.pi Set.univ fun _ =>
    {s : Set ℝ | MeasurableSet s}) (fun _ => generateFrom_pi) (fun _ => isPiSystem_pi)
    (fun _ => ?_) ?_
  · exact ⟨fun _ => Set.univ, fun _ => ⟨fun _ => Set.univ, fun _ _ => (MeasurableSet.univ : MeasurableSet (Set.univ : Set ℝ)), by simp⟩,
      fun _ => by simp, by simp [Set.iUnion_const]⟩
  · intro s hs
    have hs' : ∀ i : Fin n, ∃ t : Fin d → Set ℝ, (∀ j, MeasurableSet (t j)) ∧
        Set.pi Set.univ t = s i := by
      intro i
      obtain ⟨t, ht, e⟩ := hs i
      exact ⟨t, fun j => ht j trivial, e⟩
    choose t ht e using hs'
    have hS : Set.pi Set.univ s = (fun X : Fin n → Point d => fun p : Fin n × Fin d => X p.1 p.2) ⁻¹'
        Set.pi Set.univ fun p => t p.1 p.2 := by
      ext X
      simp only [Set.mem_pi, Set.mem_univ, true_implies, Set.mem_preimage, Prod.forall, ← e]
    have hT : MeasurableSet (Set.pi Set.univ fun p : Fin n × Fin d => t p.1 p.2) :=
      MeasurableSet.univ_pi fun p => ht p.1 p.2
    have hX : Measurable fun ω (i : Fin n) (j : Fin d) => f j (x (i * d + j) ω) :=
      measurable_pi_lambda _ fun i => measurable_pi_lambda _ fun j => hmeas (i, j)
    have hu : Measurable fun X : Fin n → Point d => fun p : Fin n × Fin d => X p.1 p.2 := by
      fun_prop
    rw [hS, Measure.map_apply hX (hu hT), ← Set.preimage_comp]
    have e2 := congrArg (fun m => m (Set.pi Set.univ fun p : Fin n × Fin d => t p.1 p.2)) key
    rw [Measure.map_apply (measurable_pi_lambda _ fun p => hmeas p) hT, Measure.pi_pi] at e2
    refine (Eq.trans ?_ e2).trans ?_
    · rfl
    · rw [Fintype.prod_prod_type]
      refine Finset.prod_congr rfl fun i _ => ?_
      rw [← e i, Measure.pi_pi]
      exact Finset.prod_congr rfl fun j _ => by rw [hlaw (i, j)]

end Verif.Lemmas
