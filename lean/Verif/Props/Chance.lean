import Verif.Lemmas.Chance
import Verif.Spec.Steps
import Verif.Spec.Run
import Mathlib.Probability.Independence.InfinitePi
import Mathlib.Probability.CDF

/-! # C111: the distribution of sampled points -/

namespace Verif.Props

open Verif.Spec Verif.Lemmas Verif.Constants MeasureTheory ProbabilityTheory

variable {Ω : Type} [MeasurableSpace Ω]

private theorem uniform_eq {d : ℕ} (B : Bounds d) (r : BaseBo.Draws d) (n : ℕ) :
    BaseBo.getSamples B r "uniform" n = .ok (List.ofFn fun (i : Fin n) (j : Fin d) =>
      (B j).1 + ((B j).2 - (B j).1) * r.uniform (i * d + j)) := by
  simp only [BaseBo.getSamples, pyAssert, ALLOWED_SAMPLING_METHOD, ALLOWED_INITIALIZING_METHOD_BO,
    bind, Except.bind, pure, Except.pure]
  simp [BaseBo.getSamplesUniform, List.ofFn_eq_map, List.map_ofFn]
  rw [← List.map_coe_finRange_eq_range, List.map_map]
  rfl

private theorem gaussian_eq {d : ℕ} (B : Bounds d) (r : BaseBo.Draws d) (n : ℕ) :
    BaseBo.getSamples B r "gaussian" n = .ok (List.ofFn fun (i : Fin n) (j : Fin d) =>
      BaseBo.clip (r.normal (i * d + j) * (((B j).2 - (B j).1) / 4) + ((B j).2 + (B j).1) / 2)
        (B j).1 (B j).2) := by
  simp only [BaseBo.getSamples, pyAssert, ALLOWED_SAMPLING_METHOD, ALLOWED_INITIALIZING_METHOD_BO,
    bind, Except.bind, pure, Except.pure]
  simp [BaseBo.getSamplesGaussian, List.ofFn_eq_map, List.map_ofFn]
  rw [← List.map_coe_finRange_eq_range, List.map_map]
  rfl

/-- C111. If the draws are independent and uniform on the unit interval, the `n` uniform samples are
independent and uniform on the search space. -/
theorem C111_uniform {μ : Measure Ω} [IsProbabilityMeasure μ] {d : ℕ} (B : Bounds d)
    (hB : ∀ j, (B j).1 ≤ (B j).2) (r : Ω → BaseBo.Draws d)
    (hr : Iid μ (fun k ω => (r ω).uniform k) unitLaw) (n : ℕ) :
    ∃ X : Ω → Fin n → Point d, Measurable X ∧
      (∀ ω, BaseBo.getSamples B (r ω) "uniform" n = .ok (List.ofFn (X ω))) ∧
      μ.map X = Measure.pi fun _ => boxLaw B := by
  refine ⟨_, ?_, fun ω => uniform_eq B (r ω) n, ?_⟩
  · refine measurable_pi_lambda _ fun i => measurable_pi_lambda _ fun j => ?_
    exact ((hr.meas _).const_mul _).const_add _
  · rw [iid_points hr (fun j u => (B j).1 + ((B j).2 - (B j).1) * u) (fun j => by fun_prop)]
    refine congrArg _ (funext fun _ => ?_)
    exact congrArg _ (funext fun j => unitLaw_map _ _ (hB j))

/-- C111. If the draws are independent and standard normal, the `n` normal samples are independent,
and so are their coordinates: normal around the middle of the side, with a quarter of its width as
standard deviation, moved to the nearest point of the side. -/
theorem C111_normal {μ : Measure Ω} [IsProbabilityMeasure μ] {d : ℕ} (B : Bounds d)
    (hB : ∀ j, (B j).1 ≤ (B j).2) (r : Ω → BaseBo.Draws d)
    (hr : Iid μ (fun k ω => (r ω).normal k) (gaussianReal 0 1)) (n : ℕ) :
    ∃ X : Ω → Fin n → Point d, Measurable X ∧
      (∀ ω, BaseBo.getSamples B (r ω) "gaussian" n = .ok (List.ofFn (X ω))) ∧
      μ.map X = Measure.pi fun _ => Measure.pi fun j => clippedNormal (B j).1 (B j).2 := by
  have hm : ∀ j : Fin d, Measurable fun z : ℝ =>
      BaseBo.clip (z * (((B j).2 - (B j).1) / 4) + ((B j).2 + (B j).1) / 2) (B j).1 (B j).2 := by
    intro j
    unfold BaseBo.clip
    fun_prop
  refine ⟨_, ?_, fun ω => gaussian_eq B (r ω) n, ?_⟩
  · exact measurable_pi_lambda _ fun i => measurable_pi_lambda _ fun j => (hm j).comp (hr.meas _)
  · rw [iid_points hr (fun j z => BaseBo.clip (z * (((B j).2 - (B j).1) / 4) +
      ((B j).2 + (B j).1) / 2) (B j).1 (B j).2) hm]
    refine congrArg _ (funext fun _ => ?_)
    exact congrArg _ (funext fun j => normal_map _ _ (hB j))

/-- C111. A Sobol or Halton point that is uniform on the unit cube gives a sample that is uniform on
the search space. (The points of a sequence are not independent.) -/
theorem C111_sequence {μ : Measure Ω} [IsProbabilityMeasure μ] {d : ℕ} (B : Bounds d)
    (hB : ∀ j, (B j).1 ≤ (B j).2) (r : Ω → BaseBo.Draws d) (m : String) (u : Ω → ℕ → Fin d → ℝ)
    (hm : (m = "sobol" ∧ u = fun ω => (r ω).sobol) ∨ (m = "halton" ∧ u = fun ω => (r ω).halton))
    (hu : ∀ k, Measurable (fun ω => u ω k)) (n : ℕ)
    (hl : ∀ k, μ.map (fun ω => u ω k) = Measure.pi fun _ => unitLaw) :
    ∃ X : Ω → Fin n → Point d, Measurable X ∧
      (∀ ω, BaseBo.getSamples B (r ω) m n = .ok (List.ofFn (X ω))) ∧
      ∀ i, μ.map (fun ω => X ω i) = boxLaw B := by
  have key : ∀ ω, BaseBo.getSamples B (r ω) m n = .ok (List.ofFn fun (i : Fin n) (j : Fin d) =>
      u ω i j * ((B j).2 - (B j).1) + (B j).1) := by
    intro ω
    rcases hm with ⟨rfl, rfl⟩ | ⟨rfl, rfl⟩ <;>
    · simp only [BaseBo.getSamples, pyAssert, ALLOWED_SAMPLING_METHOD,
        ALLOWED_INITIALIZING_METHOD_BO, bind, Except.bind, pure, Except.pure]
      simp [BaseBo.getSamplesQmc, List.ofFn_eq_map, List.map_ofFn]
      rw [if_neg (by omega), ← List.map_coe_finRange_eq_range, List.map_map]
      rfl
  have hc : ∀ (k : ℕ) (j : Fin d), Measurable fun ω => u ω k j := fun k j =>
    (measurable_pi_apply j).comp (hu k)
  refine ⟨_, ?_, key, fun i => ?_⟩
  · refine measurable_pi_lambda _ fun i => measurable_pi_lambda _ fun j => ?_
    exact ((hc i j).mul_const _).add_const _
  · have e : (fun (ω : Ω) (j : Fin d) => u ω i j * ((B j).2 - (B j).1) + (B j).1) =
        (fun (x : Point d) (j : Fin d) => (B j).1 + ((B j).2 - (B j).1) * x j) ∘ fun ω => u ω i := by
      funext ω j
      simp only [Function.comp]
      ring
    have hf : Measurable fun (x : Point d) (j : Fin d) => (B j).1 + ((B j).2 - (B j).1) * x j := by
      fun_prop
    rw [e, ← Measure.map_map hf (hu i), hl,
      Measure.pi_map_pi (f := fun j u => (B j).1 + ((B j).2 - (B j).1) * u)
        (fun j => by fun_prop), boxLaw]
    exact congrArg _ (funext fun j => unitLaw_map _ _ (hB j))

/-- C111. The uniform distribution in terms of volumes: a box in the search space has the probability
of its share of the volume. -/
theorem C111_volume {d : ℕ} (B C : Bounds d) (hB : ∀ j, (B j).1 < (B j).2)
    (hC : ∀ j, (B j).1 ≤ (C j).1 ∧ (C j).1 ≤ (C j).2 ∧ (C j).2 ≤ (B j).2) :
    boxLaw B {p | InBox C p} =
      ENNReal.ofReal (∏ j, ((C j).2 - (C j).1) / ((B j).2 - (B j).1)) := by
  have hs : {p : Point d | InBox C p} = Set.pi Set.univ fun j => Set.Icc (C j).1 (C j).2 := by
    ext p
    simp only [Set.mem_setOf_eq, InBox, Set.mem_pi, Set.mem_univ, true_implies, Set.mem_Icc]
  rw [hs, boxLaw, Measure.pi_pi, ENNReal.ofReal_prod_of_nonneg]
  · refine Finset.prod_congr rfl fun j _ => ?_
    rw [uniformLaw, if_pos (hB j), cond_apply measurableSet_Icc,
      Set.inter_eq_right.2 (Set.Icc_subset_Icc (hC j).1 (hC j).2.2), Real.volume_Icc,
      Real.volume_Icc, ENNReal.ofReal_div_of_pos (sub_pos.2 (hB j)), div_eq_mul_inv, mul_comm]
  · intro j _
    exact div_nonneg (sub_nonneg.2 (hC j).2.1) (sub_pos.2 (hB j)).le

/-- C111. Random search: the probability that one of `n` uniform samples hits a set of probability `p`
is `1 - (1 - p)^n`. -/
theorem C111_search {μ : Measure Ω} [IsProbabilityMeasure μ] {d : ℕ} (B : Bounds d)
    (hB : ∀ j, (B j).1 ≤ (B j).2) (r : Ω → BaseBo.Draws d)
    (hr : Iid μ (fun k ω => (r ω).uniform k) unitLaw) (n : ℕ) (A : Set (Point d))
    (hA : MeasurableSet A) :
    μ {ω | ∃ pts, BaseBo.getSamples B (r ω) "uniform" n = .ok pts ∧ ∃ p ∈ pts, p ∈ A} =
      1 - (1 - boxLaw B A) ^ n := by
  obtain ⟨X, hX, hs, hl⟩ := C111_uniform B hB r hr n
  have e : {ω | ∃ pts, BaseBo.getSamples B (r ω) "uniform" n = .ok pts ∧ ∃ p ∈ pts, p ∈ A} =
      (X ⁻¹' Set.pi Set.univ fun _ => Aᶜ)ᶜ := by
    ext ω
    simp [hs ω, Set.mem_pi, List.mem_ofFn]
  have hm : MeasurableSet (Set.pi Set.univ fun _ : Fin n => Aᶜ) :=
    MeasurableSet.univ_pi fun _ => hA.compl
  rw [e, measure_compl (hX hm) (measure_ne_top _ _), measure_univ, ← Measure.map_apply hX hm, hl,
    Measure.pi_pi, Finset.prod_const, Finset.card_univ, Fintype.card_fin,
    measure_compl hA (measure_ne_top _ _), measure_univ]

/-- C111. So with more and more samples random search hits every set of positive probability. -/
theorem C111_search_limit {μ : Measure Ω} [IsProbabilityMeasure μ] {d : ℕ} (B : Bounds d)
    (hB : ∀ j, (B j).1 ≤ (B j).2) (r : Ω → BaseBo.Draws d)
    (hr : Iid μ (fun k ω => (r ω).uniform k) unitLaw) (A : Set (Point d)) (hA : MeasurableSet A)
    (hp : boxLaw B A ≠ 0) :
    Filter.Tendsto (fun n : ℕ =>
      μ {ω | ∃ pts, BaseBo.getSamples B (r ω) "uniform" n = .ok pts ∧ ∃ p ∈ pts, p ∈ A})
      Filter.atTop (nhds 1) := by
  simp only [C111_search B hB r hr _ A hA]
  have h1 : 1 - boxLaw B A < 1 :=
    ENNReal.sub_lt_self ENNReal.one_ne_top one_ne_zero hp
  have := ENNReal.Tendsto.sub (tendsto_const_nhds (x := (1 : ENNReal)))
    (ENNReal.tendsto_pow_atTop_nhds_zero_of_lt_one h1) (Or.inl ENNReal.one_ne_top)
  simpa using this

private theorem normal_upper (x : ℝ) : gaussianReal 0 1 (Set.Ici x) = ENNReal.ofReal (Phi (-x)) := by
  have h := gaussianReal_map_neg (μ := 0) (v := 1)
  rw [neg_zero] at h
  rw [Phi, ofReal_cdf]
  conv_lhs => rw [← h]
  rw [Measure.map_apply (by fun_prop) measurableSet_Ici]
  congr 1
  ext y
  simp [le_neg]

/-- C111. Every side of a normal sample sits at its lower end with probability `Phi (-2)`, about 2.3
percent, at its upper end with the same probability, and strictly between with the rest. -/
theorem C111_ends (lo hi : ℝ) (hlt : lo < hi) :
    clippedNormal lo hi {lo} = ENNReal.ofReal (Phi (-2)) ∧
      clippedNormal lo hi {hi} = ENNReal.ofReal (Phi (-2)) ∧
      clippedNormal lo hi (Set.Ioo lo hi) = ENNReal.ofReal (1 - 2 * Phi (-2)) := by
  have hw : 0 < hi - lo := sub_pos.2 hlt
  have hm : Measurable fun z : ℝ => BaseBo.clip (z * ((hi - lo) / 4) + (hi + lo) / 2) lo hi := by
    unfold BaseBo.clip
    fun_prop
  have hP0 : 0 ≤ Phi (-2) := cdf_nonneg _ _
  have h1 : clippedNormal lo hi {lo} = ENNReal.ofReal (Phi (-2)) := by
    rw [← normal_map lo hi hlt.le, Measure.map_apply hm (measurableSet_singleton _), Phi, ofReal_cdf]
    congr 1
    ext z
    simp only [Set.mem_preimage, Set.mem_singleton_iff, Set.mem_Iic, BaseBo.clip]
    constructor
    · intro h
      rcases min_choice (max (z * ((hi - lo) / 4) + (hi + lo) / 2) lo) hi with e | e
      · rw [e] at h
        have := max_eq_right_iff.1 h
        nlinarith
      · rw [e] at h
        exact absurd h hlt.ne'
    · intro h
      rw [max_eq_right (by nlinarith), min_eq_left hlt.le]
  have h2 : clippedNormal lo hi {hi} = ENNReal.ofReal (Phi (-2)) := by
    rw [← normal_map lo hi hlt.le, Measure.map_apply hm (measurableSet_singleton _),
      ← normal_upper 2]
    congr 1
    ext z
    simp only [Set.mem_preimage, Set.mem_singleton_iff, Set.mem_Ici, BaseBo.clip]
    constructor
    · intro h
      have h3 := min_eq_right_iff.1 h
      rcases le_max_iff.1 h3 with h4 | h4
      · nlinarith
      · exact absurd hlt (not_lt.2 h4)
    · intro h
      rw [min_eq_right (le_max_of_le_left (by nlinarith))]
  refine ⟨h1, h2, ?_⟩
  have hall : clippedNormal lo hi (Set.Icc lo hi) = 1 := by
    rw [clippedNormal, Measure.map_apply (measurable_toInterval lo hi) measurableSet_Icc]
    rw [show (fun x => max lo (min x hi)) ⁻¹' Set.Icc lo hi = Set.univ by
      ext x
      simp only [Set.mem_preimage, Set.mem_Icc, le_max_left, true_and, Set.mem_univ, iff_true]
      exact max_le hlt.le (min_le_right _ _)]
    exact measure_univ
  have hsplit : Set.Icc lo hi = {lo} ∪ ({hi} ∪ Set.Ioo lo hi) := by
    ext x
    simp only [Set.mem_Icc, Set.mem_union, Set.mem_singleton_iff, Set.mem_Ioo]
    constructor
    · rintro ⟨a, b⟩
      rcases a.eq_or_lt with e | e
      · exact Or.inl e.symm
      rcases b.eq_or_lt with e' | e'
      · exact Or.inr (Or.inl e')
      · exact Or.inr (Or.inr ⟨e, e'⟩)
    · rintro (rfl | rfl | ⟨a, b⟩)
      · exact ⟨le_rfl, hlt.le⟩
      · exact ⟨hlt.le, le_rfl⟩
      · exact ⟨a.le, b.le⟩
  rw [hsplit, measure_union, measure_union, h1, h2] at hall
  · have hfin : clippedNormal lo hi (Set.Ioo lo hi) ≠ ⊤ := measure_ne_top _ _
    have hr := congrArg ENNReal.toReal hall
    rw [ENNReal.toReal_add ENNReal.ofReal_ne_top (by simp [hfin]),
      ENNReal.toReal_add ENNReal.ofReal_ne_top hfin, ENNReal.toReal_ofReal hP0,
      ENNReal.toReal_one] at hr
    rw [← ENNReal.ofReal_toReal hfin]
    congr 1
    linarith
  · simp
  · exact measurableSet_Ioo
  · rw [Set.disjoint_singleton_left]
    simp [hlt.ne]
  · exact (measurableSet_singleton _).union measurableSet_Ioo

/-- C111. So a normal sample lies in the interior of the search space with probability
`(1 - 2 Phi(-2))^d` only. -/
theorem C111_interior {d : ℕ} (B : Bounds d) (hB : ∀ j, (B j).1 < (B j).2) :
    (Measure.pi fun j => clippedNormal (B j).1 (B j).2)
      {p | ∀ j, (B j).1 < p j ∧ p j < (B j).2} = ENNReal.ofReal ((1 - 2 * Phi (-2)) ^ d) := by
  have hs : {p : Point d | ∀ j, (B j).1 < p j ∧ p j < (B j).2} =
      Set.pi Set.univ fun j => Set.Ioo (B j).1 (B j).2 := by
    ext p
    simp only [Set.mem_setOf_eq, Set.mem_pi, Set.mem_univ, true_implies, Set.mem_Ioo]
  have h0 : 0 ≤ 1 - 2 * Phi (-2) := by
    have hP0 : 0 ≤ Phi (-2) := cdf_nonneg _ _
    have h := (C111_ends 0 1 one_pos).1
    have h2 := (C111_ends 0 1 one_pos).2.1
    have hu : clippedNormal 0 1 ({0} ∪ {1}) ≤ 1 := prob_le_one
    rw [measure_union (by simp) (measurableSet_singleton _), h, h2,
      ← ENNReal.ofReal_add hP0 hP0] at hu
    have := ENNReal.ofReal_le_one.1 hu
    linarith
  rw [hs, Measure.pi_pi, ENNReal.ofReal_pow h0]
  simp [(C111_ends _ _ (hB _)).2.2]

/-! ### Cases -/

/-- Independent uniform and normal draws exist. -/
example : ∃ (Ω : Type) (_ : MeasurableSpace Ω) (μ : Measure Ω) (r : Ω → BaseBo.Draws 2),
    IsProbabilityMeasure μ ∧ Iid μ (fun k ω => (r ω).uniform k) unitLaw := by
  refine ⟨ℕ → ℝ, inferInstance, Measure.infinitePi fun _ => unitLaw,
    fun ω => ⟨ω, fun _ => 0, fun _ _ => 0, fun _ _ => 0⟩, inferInstance, ?_, ?_, ?_⟩
  · exact fun k => measurable_pi_apply k
  · exact iIndepFun_infinitePi (P := fun _ : ℕ => unitLaw) (X := fun _ => id) fun _ => measurable_id
  · exact fun k => Measure.infinitePi_map_eval _ k

example : ∃ (Ω : Type) (_ : MeasurableSpace Ω) (μ : Measure Ω) (r : Ω → BaseBo.Draws 2),
    IsProbabilityMeasure μ ∧ Iid μ (fun k ω => (r ω).normal k) (gaussianReal 0 1) := by
  refine ⟨ℕ → ℝ, inferInstance, Measure.infinitePi fun _ => gaussianReal 0 1,
    fun ω => ⟨fun _ => 0, ω, fun _ _ => 0, fun _ _ => 0⟩, inferInstance, ?_, ?_, ?_⟩
  · exact fun k => measurable_pi_apply k
  · exact iIndepFun_infinitePi (P := fun _ : ℕ => gaussianReal 0 1) (X := fun _ => id)
      fun _ => measurable_id
  · exact fun k => Measure.infinitePi_map_eval _ k

/-- A sequence whose points are uniform on the unit cube: here all points are the same. -/
example : ∃ (Ω : Type) (_ : MeasurableSpace Ω) (μ : Measure Ω) (r : Ω → BaseBo.Draws 2),
    IsProbabilityMeasure μ ∧ (∀ k, Measurable fun ω => (r ω).sobol k) ∧
    ∀ k, μ.map (fun ω => (r ω).sobol k) = Measure.pi fun _ => unitLaw :=
  ⟨Fin 2 → ℝ, inferInstance, Measure.pi fun _ => unitLaw,
    fun ω => ⟨fun _ => 0, fun _ => 0, fun _ => ω, fun _ _ => 0⟩, inferInstance,
    fun _ => measurable_id, fun _ => Measure.map_id⟩

/-- The left half of `[-1, 3]` has probability 1/2. -/
example : boxLaw (fun _ : Fin 1 => ((-1 : ℝ), (3 : ℝ))) {p | InBox (fun _ => (-1, 1)) p} =
    ENNReal.ofReal (1 / 2) := by
  rw [C111_volume _ _ (fun _ => by norm_num) (fun _ => by norm_num)]
  norm_num

end Verif.Props
