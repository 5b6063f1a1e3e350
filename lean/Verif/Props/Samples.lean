import Verif.Model.SampleFunctions
import Verif.Lemmas.StudentSample
import Verif.Spec.Samples

/-! C74, C75: the functions sampled from a process. -/

namespace Verif.Props

open Verif.Spec Verif.Lemmas Verif.SampleFunctions

variable {n : ℕ}

/-- C74 for a Gaussian process, over more than one point: one row per function, one entry per point,
and the rows are the draws in their order. Missing: one point, see `C74_gp_one_point`. -/
theorem C74_gp_shape_partial (g : Normal) (mu : Fin n → ℝ) (S : Matrix (Fin n) (Fin n) ℝ)
    (hn : 1 < n) {k : ℕ} (hk : 0 < k) {rv : ℕ → Fin n → ℝ} (hrv : g.frozen mu S = .ok rv) :
    ∃ a, sampleFunctions g mu S k = .ok a ∧ HasShape a k n ∧
      ∀ i < k, ∀ j : Fin n, Entry a i j (rv i j) := by
  have h1 : ¬ (k : ℤ) ≤ 0 := by omega
  refine ⟨.rows ((List.range k).map fun k => List.ofFn (rv k)), ?_, ?_, ?_⟩
  · simp only [sampleFunctions, hrv, stack, if_neg h1, dif_neg hn.ne', bind, Except.bind, pure,
      Except.pure, Int.toNat_natCast]
  · exact ⟨_, rfl, by simp, by simp⟩
  · intro i hi j
    exact ⟨_, List.ofFn (rv i), rfl, by simp [hi], by simp⟩

/-- C74 fails for a Gaussian process over one point: the array has rank one. -/
theorem C74_gp_one_point (g : Normal) (mu : Fin 1 → ℝ) (S : Matrix (Fin 1) (Fin 1) ℝ) {k : ℤ}
    {a : Array12} (h : sampleFunctions g mu S k = .ok a) : ∀ k' n' : ℕ, ¬ HasShape a k' n' := by
  rintro k' n' ⟨l, rfl, -⟩
  unfold sampleFunctions at h
  cases hg : g.frozen mu S with
  | error e => simp [hg, bind, Except.bind] at h
  | ok rv =>
    simp only [hg, bind, Except.bind, pure, Except.pure, stack] at h
    split at h <;> cases h

/-- C74 for a Student-t process, over more than one point or for one function: the rows are the
draws, each divided by the root of its mixing variable and moved to the mean. Missing: several
functions over one point, see `C74_tp_one_point`. -/
theorem C74_tp_shape_partial (g : Normal) (chi : ℝ → ℕ → ℝ) {nu : Flt} {x : ℕ → ℝ}
    (hnu : (nu = .pinf ∧ x = fun _ => 1) ∨ ∃ ν : ℝ, 0 < ν ∧ nu = .fin ν ∧ x = fun i => chi ν i / ν)
    (mu : Fin n → ℝ) (S : Matrix (Fin n) (Fin n) ℝ) {k : ℕ} (hx : ∀ i < k, 0 < x i) (hk : 0 < k)
    (hn : n ≠ 1 ∨ k = 1) {rv : ℕ → Fin n → ℝ} (hrv : g.frozen (fun _ => 0) S = .ok rv) :
    ∃ a, sampleFunctionsTp g chi nu mu S k = .ok a ∧ HasShape a k n ∧
      ∀ i < k, ∀ j : Fin n, Entry a i j (mu j + rv i j / √(x i)) := by
  have h1 : mixing chi nu k = .ok ((List.range k).map x) := by
    rcases hnu with ⟨rfl, rfl⟩ | ⟨ν, hν, rfl, rfl⟩
    · simp [mixing]
    · simp [mixing, hν.not_ge]
  have h4 : ¬ (k : ℤ) ≤ 0 := by omega
  have h5 : ¬ (n = 1 ∧ (k : ℤ) ≠ 1) := by
    rintro ⟨h, h'⟩
    rcases hn with hn | hn
    · exact hn h
    · exact h' (by exact_mod_cast hn)
  have h6 : ¬ ∃ a ∈ (List.range k).map x, a ≤ 0 := by
    rintro ⟨a, ha, ha'⟩
    obtain ⟨i, hi, rfl⟩ := List.mem_map.1 ha
    exact (hx i (List.mem_range.1 hi)).not_ge ha'
  refine ⟨.rows (((List.range k).map x).mapIdx fun k a => List.ofFn fun i => mu i + rv k i / √a),
    ?_, ⟨_, rfl, by simp, fun r hr => ?_⟩, fun i hi j => ?_⟩
  · simp only [sampleFunctionsTp, h1, hrv, combine, h4, h5, h6, if_false, bind, Except.bind]
  · obtain ⟨i, hi, rfl⟩ := List.mem_iff_getElem.1 hr
    simp
  · exact ⟨_, List.ofFn fun j => mu j + rv i j / √(x i), rfl, by simp [hi], by simp⟩

/-- C74 fails for a Student-t process: several functions over one point are refused, although the
arguments are admissible. -/
theorem C74_tp_one_point (g : Normal) (chi : ℝ → ℕ → ℝ) {nu : Flt}
    (hnu : nu = .pinf ∨ ∃ ν : ℝ, 0 < ν ∧ nu = .fin ν) (mu : Fin 1 → ℝ)
    (S : Matrix (Fin 1) (Fin 1) ℝ) {k : ℕ} (hk : 2 ≤ k) {rv : ℕ → Fin 1 → ℝ}
    (hrv : g.frozen (fun _ => 0) S = .ok rv) :
    sampleFunctionsTp g chi nu mu S k = .error .assertion := by
  have hx : ∃ x, mixing chi nu k = .ok x := by
    rcases hnu with rfl | ⟨ν, hν, rfl⟩
    · exact ⟨_, rfl⟩
    · exact ⟨_, by simp [mixing, hν.not_ge]; rfl⟩
  obtain ⟨x, h1⟩ := hx
  have h4 : ¬ (k : ℤ) ≤ 0 := by omega
  have h5 : (k : ℤ) ≠ 1 := by omega
  simp [sampleFunctionsTp, h1, hrv, combine, h4, h5, bind, Except.bind]

/-- C74: the arguments are admissible, for three functions over two points and over one point. -/
example : (∃ a, sampleFunctions ⟨fun _ _ => .ok fun k i => k + i⟩ ![1, 2] 1 3 = .ok a ∧
      HasShape a 3 2) ∧
    (∃ a, sampleFunctions ⟨fun _ _ => .ok fun k i => k + i⟩ ![1] 1 3 = .ok a) ∧
    sampleFunctionsTp ⟨fun _ _ => .ok fun k i => k + i⟩ (fun _ _ => 1) (.fin 5) ![1] 1 3 =
      .error .assertion := by
  obtain ⟨a, h1, h2, -⟩ := C74_gp_shape_partial ⟨fun _ _ => .ok fun k i => k + i⟩ ![1, 2] 1
    (by norm_num) (k := 3) (by norm_num) rfl
  exact ⟨⟨a, h1, h2⟩, ⟨_, rfl⟩, C74_tp_one_point _ _ (.inr ⟨5, by norm_num, rfl⟩) _ _
    (k := 3) (by norm_num) rfl⟩

section
open MeasureTheory ProbabilityTheory WithLp

variable {Ω : Type*} [MeasurableSpace Ω] {P : Measure Ω} [IsProbabilityMeasure P]
  {ν : ℝ} {S : Matrix (Fin n) (Fin n) ℝ} {k : ℕ} {g : Ω → Normal} {chi : Ω → ℝ → ℕ → ℝ}
  {Z : Ω → ℕ → Fin n → ℝ}

/-- C75: what `sample_functions` of a Student-t process draws. Its rows are independent, and each
follows the multivariate Student-t distribution with `ν` degrees of freedom, mean `mu` and
covariance `ν / (ν - 2)` times the matrix handed over; the last part is that factor, seen in the
second moments. -/
theorem C75_law (hν : 2 < ν) (mu : Fin n → ℝ) (hS : S.PosDef) (h : DrawsStudent P ν S k g chi Z)
    (hk : 0 < k) (hn : n ≠ 1 ∨ k = 1) :
    ∃ s : Fin k → Ω → Fin n → ℝ,
      (∀ᵐ ω ∂P, ∃ a, sampleFunctionsTp (g ω) (chi ω) (.fin ν) mu S k = .ok a ∧ HasShape a k n ∧
        ∀ (i : Fin k) (j : Fin n), Entry a i j (s i ω j)) ∧
      (∀ i, HasLaw (s i) (studentT ν mu ((ν / (ν - 2)) • S)) P) ∧ iIndepFun s P ∧
      ∀ i a b, ∫ ω, (s i ω a - mu a) * (s i ω b - mu b) ∂P = ν / (ν - 2) * S a b := by
  refine ⟨fun i ω j => mu j + Z ω i j / √(chi ω ν i / ν), ?_, fun i => ?_, ?_, fun i a b => ?_⟩
  · have hpos : ∀ᵐ ω ∂P, ∀ i : Fin k, 0 < chi ω ν i := by
      rw [ae_all_iff]
      intro i
      exact ((h.chis i i.2).ae_iff (p := fun r => 0 < r)
        (measurableSet_lt measurable_const measurable_id).mem).2 (gammaMeasure_pos _ _)
    filter_upwards [hpos] with ω hω
    obtain ⟨a, h1, h2, h3⟩ := C74_tp_shape_partial (g ω) (chi ω) (nu := .fin ν)
      (x := fun i => chi ω ν i / ν) (.inr ⟨ν, by linarith, rfl, rfl⟩) mu S
      (fun i hi => div_pos (hω ⟨i, hi⟩) (by linarith)) hk hn (h.normal ω)
    exact ⟨a, h1, h2, fun i j => h3 i i.2 j⟩
  · exact student_sample_law hν mu hS (h.chis i i.2) (h.rows i i.2) (h.pair i i.2)
  · refine h.indep.comp (fun i (p : ℝ × (Fin n → ℝ)) j => mu j + p.2 j / √(p.1 / ν)) fun i => ?_
    refine measurable_pi_lambda _ fun j => measurable_const.add (Measurable.div ?_ ?_)
    · exact (measurable_pi_apply j).comp measurable_snd
    · exact (measurable_fst.div_const ν).sqrt
  · simp only [add_sub_cancel_left]
    exact student_sample_cov hν hS.posSemidef (h.chis i i.2) (h.rows i i.2) (h.pair i i.2) a b

/-- C75 as stated fails for every finite number of degrees of freedom: the variance of every entry
of every sample differs from the one in the matrix. -/
theorem C75_violated (hν : 2 < ν) (mu : Fin n → ℝ) (hS : S.PosDef)
    (h : DrawsStudent P ν S k g chi Z) (hk : 0 < k) (hn : n ≠ 1 ∨ k = 1) :
    ∃ s : Fin k → Ω → Fin n → ℝ,
      (∀ᵐ ω ∂P, ∃ a, sampleFunctionsTp (g ω) (chi ω) (.fin ν) mu S k = .ok a ∧
        ∀ (i : Fin k) (j : Fin n), Entry a i j (s i ω j)) ∧
      ∀ i j, S j j < ∫ ω, (s i ω j - mu j) ^ 2 ∂P := by
  obtain ⟨s, h1, -, -, h2⟩ := C75_law hν mu hS h hk hn
  refine ⟨s, ?_, fun i j => ?_⟩
  · filter_upwards [h1] with ω hω
    obtain ⟨a, e1, -, e2⟩ := hω
    exact ⟨a, e1, e2⟩
  · simp only [sq]
    rw [h2]
    have h3 : 0 < S j j := hS.diag_pos
    have h4 : 1 < ν / (ν - 2) := by rw [lt_div_iff₀ (by linarith)]; linarith
    nlinarith

/-- C75, the part that holds: with infinitely many degrees of freedom, where the distribution is
normal, the rows have the mean and the covariance handed over. Missing: finite degrees of freedom,
see `C75_violated`. -/
theorem C75_infinite_partial (mu : Fin n → ℝ) (hS : S.PosSemidef) (chi' : ℝ → ℕ → ℝ)
    (hg : ∀ ω, (g ω).frozen (fun _ => 0) S = .ok (Z ω))
    (hZ : ∀ i < k, HasLaw (fun ω => Z ω i) ((multivariateGaussian 0 S).map (ofLp (p := 2))) P)
    (hk : 0 < k) (hn : n ≠ 1 ∨ k = 1) :
    ∃ s : Fin k → Ω → Fin n → ℝ,
      (∀ ω, ∃ a, sampleFunctionsTp (g ω) chi' .pinf mu S k = .ok a ∧ HasShape a k n ∧
        ∀ (i : Fin k) (j : Fin n), Entry a i j (s i ω j)) ∧
      ∀ i, HasLaw (s i) ((multivariateGaussian (toLp 2 mu) S).map (ofLp (p := 2))) P := by
  refine ⟨fun i ω j => mu j + Z ω i j, fun ω => ?_, fun i => ?_⟩
  · obtain ⟨a, h1, h2, h3⟩ := C74_tp_shape_partial (g ω) chi' (nu := .pinf) (x := fun _ => 1)
      (.inl ⟨rfl, rfl⟩) mu S (fun _ _ => one_pos) hk hn (hg ω)
    exact ⟨a, h1, h2, fun i j => by simpa using h3 i i.2 j⟩
  · have h1 := hZ i i.2
    refine ⟨?_, ?_⟩
    · exact (measurable_const_add mu).comp_aemeasurable h1.aemeasurable
    · have h2 : P.map (fun ω j => mu j + Z ω i j) = (P.map fun ω => Z ω i).map (fun z => mu + z) := by
        rw [AEMeasurable.map_map_of_aemeasurable (by fun_prop) h1.aemeasurable]
        rfl
      have h3 := multivariateGaussian_scale (toLp 2 mu) hS (t := 1) zero_le_one
      simp only [one_smul, one_pow] at h3
      rw [h2, h1.map_eq, ← h3, Measure.map_map (by fun_prop) (by fun_prop),
        Measure.map_map (by fun_prop) (by fun_prop)]
      rfl

/-- C74, C75: generators that keep the promise, for one sample over two points. -/
example : DrawsStudent
    ((gammaMeasure (5 / 2) (1 / 2)).prod
      ((multivariateGaussian 0 (1 : Matrix (Fin 2) (Fin 2) ℝ)).map (ofLp (p := 2)))) 5 1 1
    (fun ω => ⟨fun _ _ => .ok fun _ i => if h : i.val < 2 then ω.2 ⟨i.val, h⟩ else 0⟩)
    (fun ω _ _ => ω.1) (fun ω _ => ω.2) := by
  have hp : IsProbabilityMeasure (gammaMeasure (5 / 2) (1 / 2)) :=
    isProbabilityMeasure_gammaMeasure (by norm_num) (by norm_num)
  have hq : IsProbabilityMeasure
      ((multivariateGaussian 0 (1 : Matrix (Fin 2) (Fin 2) ℝ)).map (ofLp (p := 2))) :=
    Measure.isProbabilityMeasure_map (by fun_prop)
  refine ⟨fun ω => ?_, fun i _ => ⟨by fun_prop, ?_⟩, fun i _ => ⟨by fun_prop, ?_⟩,
    fun i _ => ?_, ?_⟩
  · refine congrArg Except.ok ?_
    funext _ i
    exact dif_pos i.2
  · exact Measure.map_snd_prod.trans (by rw [measure_univ, one_smul])
  · exact Measure.map_fst_prod.trans (by rw [measure_univ, one_smul])
  · exact indepFun_prod measurable_id measurable_id
  · exact iIndepFun.of_subsingleton
end

end Verif.Props
