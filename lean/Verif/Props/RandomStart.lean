import Verif.Props.Chance
import Verif.Props.Run
import Mathlib.Analysis.SpecialFunctions.Log.Basic
import Mathlib.Analysis.Complex.ExponentialBounds
import Mathlib.MeasureTheory.Measure.Lebesgue.Basic

/-! # What the random initial points alone guarantee for a run (C116) -/

namespace Verif.Props

open Verif.Spec Verif.WrappersBo Verif.Lemmas
open MeasureTheory ProbabilityTheory

variable {Ω : Type} [MeasurableSpace Ω] {σ : Type} {d : ℕ}

/-- Whole rounds evaluate the initial inputs and keep the values. -/
private theorem round_initials {env : Env d σ} {f : Point d → ℝ}
    (hf : ∀ k x, env.target k x = .ok (.fin (f x))) {initials : ℤ → Py (List (Point d))} {n : ℤ}
    {T : ℕ} {w w' : World d σ} {st : LoopSt d}
    (h : runSingleRound env initials n T w = (w', .ok st)) :
    ∃ pts, initials n = .ok pts ∧ ∀ p ∈ pts, Flt.fin (f p) ∈ st.Y := by
  rcases hi : initials n with e | pts
  · simp [runSingleRound, bind_apply, RunM.lift, hi, now] at h
  · refine ⟨pts, rfl, fun p hp => ?_⟩
    simp only [runSingleRound, bind_apply, RunM.lift, hi, now, (C12_same_round env T).1] at h
    rcases hr : optimizeWithInitialInputs env T pts { w with tick := w.tick + 1 } with ⟨w1, e | st1⟩
    · simp [hr] at h
    · simp only [hr, pure_apply, Prod.mk.injEq, Except.ok.injEq] at h
      obtain ⟨-, rfl⟩ := h
      obtain ⟨Q, hX, -, -, hl, -, -, -, ht⟩ := C11_initial_inputs env T pts _ _ _ hr
      obtain ⟨i, hi, rfl⟩ := List.getElem_of_mem hp
      have hY : i < st1.Y.length := by omega
      have e1 : st1.X[i]? = some pts[i] := by
        rw [hX, List.getElem?_append_left hi, List.getElem?_eq_getElem hi]
      have := ht i pts[i] st1.Y[i] e1 (List.getElem?_eq_getElem hY)
      rw [hf, Except.ok.injEq] at this
      rw [this]
      exact List.getElem_mem hY

private theorem round_initials' {env : Env d σ} {f : Point d → ℝ}
    (hf : ∀ k x, env.target k x = .ok (.fin (f x))) {initials : ℤ → Py (List (Point d))} {n : ℤ}
    {T : ℕ} {st : LoopSt d} (h : RunGives env initials n T st) :
    ∃ pts, initials n = .ok pts ∧ ∀ p ∈ pts, Flt.fin (f p) ∈ st.Y := by
  obtain ⟨w, w', h | h⟩ := h
  · exact round_initials hf h
  · by_cases hn : 0 < n
    · rw [← (C12_same_round env T).2 initials n hn] at h
      exact round_initials hf h
    · simp [classOptimize, bind_apply, RunM.lift, pyAssert, hn] at h

/-- C116: with independent uniform draws, the best response of a run from `n` random initial points is
at most `t` with probability at least `1 - (1 - p) ^ n`, if `p` is the probability of a set of inputs
at which the target does not exceed `t`; whatever the surrogate, the acquisition function and the
number of iterations. -/
theorem C116_hit {μ : Measure Ω} [IsProbabilityMeasure μ] (B : Bounds d)
    (hB : ∀ j, (B j).1 ≤ (B j).2) (r : Ω → BaseBo.Draws d)
    (hr : Iid μ (fun k ω => (r ω).uniform k) unitLaw) (env : Ω → Env d σ) (f : Point d → ℝ)
    (hf : ∀ ω k x, (env ω).target k x = .ok (.fin (f x))) (n T : ℕ) {A : Set (Point d)}
    (hA : MeasurableSet A) {t : ℝ} (hAt : ∀ x ∈ A, f x ≤ t) :
    1 - (1 - boxLaw B A) ^ n ≤ μ {ω | ∀ st,
      RunGives (env ω) (BaseBo.getInitials B (r ω) "uniform") n T st →
        ∃ v, Flt.fin v ∈ st.Y ∧ v ≤ t} := by
  rw [← C111_search B hB r hr n A hA]
  refine measure_mono ?_
  rintro ω ⟨pts, hp, x, hx, hxA⟩ st hst
  obtain ⟨pts', hp', hY⟩ := round_initials' (hf ω) hst
  have e : BaseBo.getInitials B (r ω) "uniform" n = BaseBo.getSamples B (r ω) "uniform" n := by
    simp [BaseBo.getInitials, Constants.ALLOWED_INITIALIZING_METHOD_BO, pyAssert, bind, Except.bind]
  rw [e, hp, Except.ok.injEq] at hp'
  subst hp'
  exact ⟨f x, hY x hx, hAt x hxA⟩

/-- C116: so the best response comes below every level that the target keeps on a set of positive
probability, with probability tending to one as the number of initial points grows. -/
theorem C116_limit {μ : Measure Ω} [IsProbabilityMeasure μ] (B : Bounds d)
    (hB : ∀ j, (B j).1 ≤ (B j).2) (r : Ω → BaseBo.Draws d)
    (hr : Iid μ (fun k ω => (r ω).uniform k) unitLaw) (env : Ω → Env d σ) (f : Point d → ℝ)
    (hf : ∀ ω k x, (env ω).target k x = .ok (.fin (f x))) (T : ℕ) {A : Set (Point d)}
    (hA : MeasurableSet A) (hp : boxLaw B A ≠ 0) {t : ℝ} (hAt : ∀ x ∈ A, f x ≤ t) :
    Filter.Tendsto (fun n : ℕ => μ {ω | ∀ st,
      RunGives (env ω) (BaseBo.getInitials B (r ω) "uniform") n T st →
        ∃ v, Flt.fin v ∈ st.Y ∧ v ≤ t}) Filter.atTop (nhds 1) := by
  refine tendsto_of_tendsto_of_tendsto_of_le_of_le (C111_search_limit B hB r hr A hA hp)
    tendsto_const_nhds (fun n => ?_) fun n => prob_le_one
  rw [C111_search B hB r hr n A hA]
  exact C116_hit B hB r hr env f hf n T hA hAt

/-- The part of the box within `ρ` of a point, side by side. -/
private def near (B : Bounds d) (z : Point d) (ρ : ℝ) : Set (Point d) :=
  Set.pi Set.univ fun j => Set.Icc (max (B j).1 (z j - ρ)) (min (B j).2 (z j + ρ))

private theorem near_law (B : Bounds d) (hB : ∀ j, (B j).1 < (B j).2) {z : Point d} (hz : InBox B z)
    {ρ : ℝ} (hρ : 0 < ρ) :
    ENNReal.ofReal (∏ j, min 1 (ρ / ((B j).2 - (B j).1))) ≤ boxLaw B (near B z ρ) := by
  have hprob : ∀ j, SigmaFinite (uniformLaw (B j).1 (B j).2) := by
    intro j
    rw [uniformLaw, if_pos (hB j)]
    infer_instance
  rw [boxLaw, near, Measure.pi_pi, ENNReal.ofReal_prod_of_nonneg fun j _ =>
    le_min zero_le_one (div_nonneg hρ.le (sub_nonneg.2 (hB j).le))]
  refine Finset.prod_le_prod' fun j _ => ?_
  have hw : 0 < (B j).2 - (B j).1 := sub_pos.2 (hB j)
  have hsub : Set.Icc (max (B j).1 (z j - ρ)) (min (B j).2 (z j + ρ)) ⊆
      Set.Icc (B j).1 (B j).2 :=
    Set.Icc_subset_Icc (le_max_left _ _) (min_le_left _ _)
  rw [uniformLaw, if_pos (hB j), cond_apply measurableSet_Icc, Set.inter_eq_right.2 hsub,
    Real.volume_Icc, Real.volume_Icc, ← ENNReal.ofReal_inv_of_pos hw,
    ← ENNReal.ofReal_mul (inv_nonneg.2 hw.le)]
  refine ENNReal.ofReal_le_ofReal ?_
  obtain ⟨h1, h2⟩ := hz j
  have hlen : min ((B j).2 - (B j).1) ρ ≤ min (B j).2 (z j + ρ) - max (B j).1 (z j - ρ) := by
    rcases le_total (B j).2 (z j + ρ) with ha | ha <;>
      rcases le_total (B j).1 (z j - ρ) with hb | hb <;>
      simp only [min_eq_left, min_eq_right, max_eq_left, max_eq_right, ha, hb]
    · exact (min_le_right _ _).trans (by linarith)
    · exact (min_le_left _ _)
    · exact (min_le_right _ _).trans (by linarith)
    · exact (min_le_right _ _).trans (by linarith)
  have e : min 1 (ρ / ((B j).2 - (B j).1)) = ((B j).2 - (B j).1)⁻¹ * min ((B j).2 - (B j).1) ρ := by
    rw [mul_min_of_nonneg _ _ (inv_nonneg.2 hw.le), inv_mul_cancel₀ hw.ne', inv_mul_eq_div]
  rw [e]
  exact mul_le_mul_of_nonneg_left hlen (inv_nonneg.2 hw.le)

/-- C116: for a target that grows at most by `L` times the distance from a point `z` of the box (the
largest distance of the coordinates), the best response exceeds the value at `z` by at most `ε` with
probability at least `1 - (1 - p) ^ n`, `p` the product of the ratios of `ε / L` to the sides. -/
theorem C116_lipschitz {μ : Measure Ω} [IsProbabilityMeasure μ] (B : Bounds d)
    (hB : ∀ j, (B j).1 < (B j).2) (r : Ω → BaseBo.Draws d)
    (hr : Iid μ (fun k ω => (r ω).uniform k) unitLaw) (env : Ω → Env d σ) (f : Point d → ℝ)
    (hf : ∀ ω k x, (env ω).target k x = .ok (.fin (f x))) (n T : ℕ) {z : Point d} (hz : InBox B z)
    {L ε : ℝ} (hL : 0 < L) (hε : 0 < ε)
    (hlip : ∀ x, InBox B x → ∀ D, 0 ≤ D → (∀ j, |x j - z j| ≤ D) → f x ≤ f z + L * D) :
    ENNReal.ofReal (1 - (1 - ∏ j, min 1 (ε / L / ((B j).2 - (B j).1))) ^ n) ≤ μ {ω | ∀ st,
      RunGives (env ω) (BaseBo.getInitials B (r ω) "uniform") n T st →
        ∃ v, Flt.fin v ∈ st.Y ∧ v ≤ f z + ε} := by
  have hρ : 0 < ε / L := div_pos hε hL
  have hA : MeasurableSet (near B z (ε / L)) := MeasurableSet.univ_pi fun _ => measurableSet_Icc
  have hAt : ∀ x ∈ near B z (ε / L), f x ≤ f z + ε := by
    intro x hx
    have hx' : ∀ j, max (B j).1 (z j - ε / L) ≤ x j ∧ x j ≤ min (B j).2 (z j + ε / L) :=
      fun j => hx j (Set.mem_univ j)
    have := hlip x (fun j => ⟨(le_max_left _ _).trans (hx' j).1, (hx' j).2.trans (min_le_left _ _)⟩)
      (ε / L) hρ.le fun j => abs_le.2
        ⟨by linarith [(le_max_right (B j).1 (z j - ε / L)).trans (hx' j).1],
          by linarith [(hx' j).2.trans (min_le_right (B j).2 (z j + ε / L))]⟩
    rwa [mul_div_cancel₀ _ hL.ne'] at this
  refine le_trans ?_ (C116_hit B (fun j => (hB j).le) r hr env f hf n T hA hAt)
  have hp0 : 0 ≤ ∏ j, min 1 (ε / L / ((B j).2 - (B j).1)) := Finset.prod_nonneg fun j _ =>
    le_min zero_le_one (div_nonneg hρ.le (sub_nonneg.2 (hB j).le))
  have hp1 : ∏ j, min 1 (ε / L / ((B j).2 - (B j).1)) ≤ 1 := Finset.prod_le_one
    (fun j _ => le_min zero_le_one (div_nonneg hρ.le (sub_nonneg.2 (hB j).le)))
    fun j _ => min_le_left _ _
  have h1p : 0 ≤ 1 - ∏ j, min 1 (ε / L / ((B j).2 - (B j).1)) := by linarith
  rw [ENNReal.ofReal_sub _ (pow_nonneg h1p n), ENNReal.ofReal_one, ENNReal.ofReal_pow h1p,
    ENNReal.ofReal_sub _ hp0, ENNReal.ofReal_one]
  exact tsub_le_tsub_left (pow_le_pow_left' (tsub_le_tsub_left (near_law B hB hz hρ) 1) n) 1

/-- C116: so `n ≥ log (1 / δ) / p` initial points suffice for the probability `1 - δ`. -/
theorem C116_enough {μ : Measure Ω} [IsProbabilityMeasure μ] (B : Bounds d)
    (hB : ∀ j, (B j).1 < (B j).2) (r : Ω → BaseBo.Draws d)
    (hr : Iid μ (fun k ω => (r ω).uniform k) unitLaw) (env : Ω → Env d σ) (f : Point d → ℝ)
    (hf : ∀ ω k x, (env ω).target k x = .ok (.fin (f x))) (n T : ℕ) {z : Point d} (hz : InBox B z)
    {L ε δ : ℝ} (hL : 0 < L) (hε : 0 < ε) (hδ : 0 < δ)
    (hlip : ∀ x, InBox B x → ∀ D, 0 ≤ D → (∀ j, |x j - z j| ≤ D) → f x ≤ f z + L * D)
    (hn : Real.log (1 / δ) ≤ n * ∏ j, min 1 (ε / L / ((B j).2 - (B j).1))) :
    ENNReal.ofReal (1 - δ) ≤ μ {ω | ∀ st,
      RunGives (env ω) (BaseBo.getInitials B (r ω) "uniform") n T st →
        ∃ v, Flt.fin v ∈ st.Y ∧ v ≤ f z + ε} := by
  refine le_trans (ENNReal.ofReal_le_ofReal ?_)
    (C116_lipschitz B hB r hr env f hf n T hz hL hε hlip)
  have hρ : 0 < ε / L := div_pos hε hL
  set p := ∏ j, min 1 (ε / L / ((B j).2 - (B j).1)) with hpdef
  have hp1 : p ≤ 1 := Finset.prod_le_one
    (fun j _ => le_min zero_le_one (div_nonneg hρ.le (sub_nonneg.2 (hB j).le)))
    fun j _ => min_le_left _ _
  have h1 : (1 - p) ^ n ≤ Real.exp (-(n * p)) := by
    rw [show -(n * p) = n * (-p) by ring, Real.exp_nat_mul]
    refine pow_le_pow_left₀ (by linarith) ?_ n
    linarith [Real.add_one_le_exp (-p)]
  have h2 : Real.exp (-(n * p)) ≤ δ := by
    rw [one_div, Real.log_inv] at hn
    calc Real.exp (-(n * p)) ≤ Real.exp (Real.log δ) := Real.exp_le_exp.2 (by linarith)
      _ = δ := Real.exp_log hδ
  linarith

private theorem initials_run {env : Env d σ} {f : Point d → ℝ}
    (hf : ∀ k x, env.target k x = .ok (.fin (f x))) (X : List (Point d)) (w : World d σ) :
    ∃ w' Y ts, classInitials env X w = (w', .ok (Y, ts)) ∧ Y.length = X.length := by
  induction X generalizing w with
  | nil => exact ⟨w, [], [], rfl, rfl⟩
  | cons x X ih =>
    obtain ⟨w', Y, ts, h, hl⟩ :=
      ih ⟨w.model, w.tick + 1 + 1, w.log ++ [x]⟩
    refine ⟨w', .fin (f x) :: Y, (env.clock (w.tick + 1) - env.clock w.tick) :: ts, ?_, by simp [hl]⟩
    simp only [classInitials, bind_apply, now, callTarget, hf, h]
    rfl

private theorem round_returns {env : Env d σ} {f : Point d → ℝ}
    (hf : ∀ k x, env.target k x = .ok (.fin (f x))) (w : World d σ)
    {initials : ℤ → Py (List (Point d))} {n : ℤ} (hn : 0 < n) {X : List (Point d)}
    (e : initials n = .ok X) : ∃ st, RunGives env initials n 0 st := by
  obtain ⟨w', Y, ts, h, hl⟩ := initials_run hf X { w with tick := w.tick + 1 }
  refine ⟨{ X := X, Y := Y, time_all := ts ++ [] }, w,
    { w' with tick := w'.tick + 1 + 1 + 1 }, Or.inr ?_⟩
  simp only [classOptimize, bind_apply, RunM.lift, pyAssert, now, e, optimizeWithInitialInputs, h,
    optimizeWithAllInitialInformation, hl, if_true, classLoop, pure_apply, gt_iff_lt, hn]

/-- Draws, a box, a target and a surrogate as C116 asks for. Runs without further iterations return,
for all draws; and 1600 initial points find a value within 3/10 of the least one with probability more
than 98 percent. -/
example : ∃ (Ω : Type) (_ : MeasurableSpace Ω) (μ : Measure Ω) (r : Ω → BaseBo.Draws 2)
    (env : Ω → Env 2 Unit), IsProbabilityMeasure μ ∧
    Iid μ (fun k ω => (r ω).uniform k) unitLaw ∧
    (∀ ω k x, (env ω).target k x = .ok (.fin (3 * |x 0|))) ∧
    (∀ ω, ∃ st, RunGives (env ω) (BaseBo.getInitials (fun _ => (-1, 1)) (r ω) "uniform") 1600 0 st) ∧
    ENNReal.ofReal (1 - 1 / 50) ≤ μ {ω | ∀ st,
      RunGives (env ω) (BaseBo.getInitials (fun _ => (-1, 1)) (r ω) "uniform") (1600 : ℕ) 0 st →
        ∃ v, Flt.fin v ∈ st.Y ∧ v ≤ 3 * |(0 : Point 2) 0| + 3 / 10} := by
  have hr : Iid (Measure.infinitePi fun _ : ℕ => unitLaw) (fun k ω =>
      ((⟨ω, fun _ => 0, fun _ _ => 0, fun _ _ => 0⟩ : BaseBo.Draws 2)).uniform k) unitLaw :=
    ⟨fun k => measurable_pi_apply k,
      iIndepFun_infinitePi (P := fun _ : ℕ => unitLaw) (X := fun _ => id) fun _ => measurable_id,
      fun k => Measure.infinitePi_map_eval _ k⟩
  have hf : ∀ (ω : ℕ → ℝ) k x, ((⟨fun t => t, fun _ x => .ok (.fin (3 * |x 0|)),
      fun _ t _ _ => (((), t), .error .value)⟩ : Env 2 Unit)).target k x =
        .ok (.fin (3 * |x 0|)) := fun _ _ _ => rfl
  refine ⟨ℕ → ℝ, inferInstance, Measure.infinitePi fun _ => unitLaw,
    fun ω => ⟨ω, fun _ => 0, fun _ _ => 0, fun _ _ => 0⟩,
    fun _ => ⟨fun t => t, fun _ x => .ok (.fin (3 * |x 0|)), fun _ t _ _ => (((), t), .error .value)⟩,
    inferInstance, hr, hf, fun ω => ?_,
    C116_enough (μ := Measure.infinitePi fun _ : ℕ => unitLaw) (fun _ : Fin 2 => (-1, 1))
      (fun _ => by norm_num) _ hr _ (fun x => 3 * |x 0|) hf 1600 0
      (z := 0) (fun _ => by norm_num) (L := 3) (ε := 3 / 10) (δ := 1 / 50) (by norm_num) (by norm_num)
      (by norm_num) ?_ ?_⟩
  · obtain ⟨X, -, hX, -⟩ := C111_uniform (fun _ : Fin 2 => (-1, 1)) (fun _ => by norm_num) _ hr 1600
    have e : BaseBo.getInitials (fun _ : Fin 2 => ((-1 : ℝ), (1 : ℝ)))
        ⟨ω, fun _ => 0, fun _ _ => 0, fun _ _ => 0⟩ "uniform" 1600 = .ok (List.ofFn (X ω)) := by
      rw [← hX ω]
      simp [BaseBo.getInitials, Constants.ALLOWED_INITIALIZING_METHOD_BO, pyAssert, bind, Except.bind]
    exact round_returns (f := fun x => 3 * |x 0|) (fun _ _ => rfl) ⟨(), 0, []⟩ (by norm_num) e
  · intro x _ D _ h
    have := h 0
    simp only [Pi.zero_apply, sub_zero, abs_zero, mul_zero, zero_add] at this ⊢
    linarith
  · have h1 : Real.log (1 / (1 / 50 : ℝ)) ≤ 4 := by
      rw [Real.log_le_iff_le_exp (by norm_num)]
      have h2 : (2.7182818283 : ℝ) < Real.exp 1 := Real.exp_one_gt_d9
      have h3 : Real.exp 4 = Real.exp 1 ^ 4 := by rw [← Real.exp_nat_mul]; norm_num
      rw [h3]
      calc (1 / (1 / 50 : ℝ)) ≤ 2.7182818283 ^ 4 := by norm_num
        _ ≤ _ := pow_le_pow_left₀ (by norm_num) h2.le 4
    refine h1.trans ?_
    simp only [Fin.prod_univ_two]
    norm_num

end Verif.Props
