import Verif.Spec.ThompsonSearch
import Verif.Props.Thompson
import Verif.Props.Chance

/-! # C155: Thompson sampling is random search -/

namespace Verif.Props

open Verif.Spec Verif.Lemmas Verif.UtilsBo Verif.BoCommon Verif.BaseBo Verif.Constants
open Verif.SampleFunctions Verif.ThompsonSampling Verif.WrappersBo
open MeasureTheory ProbabilityTheory

variable {d : ℕ}

/-- C155: the queries of a run that returns are the initial points and then, for every pass, the
first of its test points. -/
theorem C155_first {env : Installed} {r : Draws d} {o : ℕ → TsOracles d} {B : Bounds d}
    {target : ℕ → Point d → Py Flt} {num_init num_iter : ℤ} {nY : Bool} {sm : String} {ns : ℤ}
    {w w' : World d Unit} (hw : w.log = []) {X : List (Point d)} {Y : List Flt}
    (h : thompsonSamplingGp env r o B target num_init num_iter nY sm ns w = (w', .ok (X, Y))) :
    ∃ X0 firsts, getInitials B r sm num_init = .ok X0 ∧ X = X0 ++ firsts ∧
      firsts.length = num_iter.toNat ∧
      ∀ k < num_iter.toNat, ∃ pts, getSamples B (o k).draws sm ns = .ok pts ∧
        1 < pts.length ∧ firsts[k]? = pts[0]? := by
  obtain ⟨X0, h0, hl, ht, -, -, -, hk⟩ := C55_keeps_data hw h
  refine ⟨X0, X.drop X0.length, h0, ?_, by simp [hl], fun k hlt => ?_⟩
  · conv_lhs => rw [← List.take_append_drop X0.length X, ht]
  · obtain ⟨_, p, Yr, e1, -, e2, -⟩ := hk k hlt
    obtain ⟨pts, g1, g2, g3, -⟩ := C54_always_first e2
    exact ⟨pts, g1, g2, by rw [List.getElem?_drop, e1, g3]⟩

/-- C155, the violation: nothing observed has any influence on where a run looks. Two runs with the
same draws of points query the same points in the same order, whatever their targets return, their
fits of the hyperparameters and their sampled functions are, and whether they normalise. -/
theorem C155_blind {env env' : Installed} {r : Draws d} {o o' : ℕ → TsOracles d} {B : Bounds d}
    (ho : ∀ k, (o k).draws = (o' k).draws) {target target' : ℕ → Point d → Py Flt}
    {num_init num_iter : ℤ} {nY nY' : Bool} {sm : String} {ns : ℤ}
    {w v w' v' : World d Unit} (hw : w.log = []) (hv : v.log = []) {X X' : List (Point d)}
    {Y Y' : List Flt}
    (h : thompsonSamplingGp env r o B target num_init num_iter nY sm ns w = (w', .ok (X, Y)))
    (h' : thompsonSamplingGp env' r o' B target' num_init num_iter nY' sm ns v =
      (v', .ok (X', Y'))) : X' = X := by
  obtain ⟨X0, F, h0, rfl, hl, hF⟩ := C155_first hw h
  obtain ⟨X1, G, h1, rfl, hl', hG⟩ := C155_first hv h'
  rw [h0] at h1
  obtain rfl := Except.ok.inj h1
  congr 1
  refine List.ext_getElem? fun k => ?_
  by_cases hk : k < num_iter.toNat
  · obtain ⟨p, a1, -, a2⟩ := hF k hk
    obtain ⟨q, b1, -, b2⟩ := hG k hk
    rw [ho k, b1] at a1
    obtain rfl := Except.ok.inj a1
    rw [a2, b2]
  · rw [List.getElem?_eq_none (by omega), List.getElem?_eq_none (by omega)]

private theorem uniform_points {d : ℕ} (B : Bounds d) (r : BaseBo.Draws d) (n : ℕ) :
    BaseBo.getSamples B r "uniform" n = .ok (List.ofFn fun (i : Fin n) (j : Fin d) =>
      (B j).1 + ((B j).2 - (B j).1) * r.uniform (i * d + j)) := by
  simp only [BaseBo.getSamples, pyAssert, ALLOWED_SAMPLING_METHOD, ALLOWED_INITIALIZING_METHOD_BO,
    bind, Except.bind, pure, Except.pure]
  simp [BaseBo.getSamplesUniform, List.ofFn_eq_map, List.map_ofFn]
  rw [← List.map_coe_finRange_eq_range, List.map_map]
  rfl

/-- Which of all draws the `m`-th coordinate of a query comes from. -/
private def place (n d m : ℕ) : ℕ × ℕ :=
  if m < n * d then (0, m) else ((m - n * d) / d + 1, (m - n * d) % d)

private theorem place_injective (n d : ℕ) : Function.Injective (place n d) := by
  intro a b hab
  unfold place at hab
  split at hab <;> split at hab <;> rw [Prod.mk.injEq] at hab
  · exact hab.2
  · exact absurd hab.1.symm (Nat.succ_ne_zero _)
  · exact absurd hab.1 (Nat.succ_ne_zero _)
  · rw [Nat.add_right_cancel_iff] at hab
    have h1 := Nat.div_add_mod (a - n * d) d
    have h2 := Nat.div_add_mod (b - n * d) d
    rw [hab.1, hab.2] at h1
    omega

private theorem used_iid {Ω : Type} [MeasurableSpace Ω] {μ : Measure Ω} {r : Ω → BaseBo.Draws d}
    {o : Ω → ℕ → TsOracles d} (h : FreshDraws μ r o) (n : ℕ) :
    Iid μ (fun m ω => blockDraw (r ω) (o ω) (place n d m)) unitLaw :=
  ⟨fun m => h.meas _, h.indep.precomp (place_injective n d), fun m => h.law _⟩

/-- C155: with independent uniform draws the `n + T` queries of a run from `n` initial points with
`T` passes are independent and uniform on the search space: it is random search. -/
theorem C155_random {Ω : Type} [MeasurableSpace Ω] {μ : Measure Ω} [IsProbabilityMeasure μ]
    (B : Bounds d) (hB : ∀ j, (B j).1 ≤ (B j).2) (env : Ω → Installed) (r : Ω → Draws d)
    (o : Ω → ℕ → TsOracles d) (hr : FreshDraws μ r o) (target : Ω → ℕ → Point d → Py Flt) (n T : ℕ)
    (nY : Bool) (ns : ℤ) :
    ∃ Q : Ω → Fin (n + T) → Point d, Measurable Q ∧ μ.map Q = Measure.pi (fun _ => boxLaw B) ∧
      ∀ ω w, w.log = [] → ∀ w' X Y, thompsonSamplingGp (env ω) (r ω) (o ω) B (target ω) n T nY
        "uniform" ns w = (w', .ok (X, Y)) → X = List.ofFn (Q ω) := by
  have hi := used_iid hr n
  refine ⟨fun ω i j => (B j).1 + ((B j).2 - (B j).1) *
    blockDraw (r ω) (o ω) (place n d (i * d + j)), ?_, ?_, ?_⟩
  · refine measurable_pi_lambda _ fun i => measurable_pi_lambda _ fun j => ?_
    exact ((hi.meas _).const_mul _).const_add _
  · rw [iid_points hi (fun j u => (B j).1 + ((B j).2 - (B j).1) * u) (fun j => by fun_prop)]
    refine congrArg _ (funext fun _ => ?_)
    exact congrArg _ (funext fun j => unitLaw_map _ _ (hB j))
  · intro ω w hw w' X Y h
    obtain ⟨X0, F, h0, rfl, hl, hF⟩ := C155_first hw h
    rw [C13_initials, if_pos (Or.inl rfl), uniform_points] at h0
    obtain rfl := Except.ok.inj h0
    rw [List.ofFn_add]
    congr 1
    · refine congrArg _ (funext fun i => funext fun j => ?_)
      have hlt : (i : ℕ) * d + j < n * d := by
        have := j.isLt
        have := Nat.mul_le_mul_right d (show (i : ℕ) + 1 ≤ n from i.isLt)
        rw [Nat.add_mul] at this
        omega
      have e : place n d (i * d + j) = (0, i * d + j) := if_pos hlt
      simp only [Fin.val_castLE, e, blockDraw]
    · refine List.ext_getElem? fun k => ?_
      rw [Int.toNat_natCast] at hl hF
      by_cases hk : k < T
      · obtain ⟨pts, a1, a2, a3⟩ := hF k hk
        have hns : ∃ m : ℕ, ns = m := by
          refine Int.eq_ofNat_of_zero_le (not_lt.1 fun hneg => ?_)
          have h0 : getSamplesUniform B (o ω k).draws ns = pts := by
            simpa [getSamples, pyAssert, ALLOWED_SAMPLING_METHOD, ALLOWED_INITIALIZING_METHOD_BO,
              bind, Except.bind, pure, Except.pure] using a1
          rw [← h0] at a2
          simp only [getSamplesUniform, List.length_map, List.length_range] at a2
          omega
        obtain ⟨m, rfl⟩ := hns
        rw [uniform_points] at a1
        obtain rfl := Except.ok.inj a1
        rw [List.length_ofFn] at a2
        rw [a3]
        simp only [List.getElem?_ofFn, hk, dif_pos, show 0 < m by omega]
        congr 1
        funext j
        have h1 : ¬ (n + k) * d + j < n * d := by
          rw [Nat.add_mul]
          omega
        have h2 : (n + k) * d + j - n * d = k * d + j := by
          rw [Nat.add_mul]
          omega
        have h3 : (k * d + j) / d = k := by
          rw [Nat.mul_comm, Nat.mul_add_div (by have := j.isLt; omega), Nat.div_eq_of_lt j.isLt,
            Nat.add_zero]
        have h4 : (k * d + j) % d = j := by
          rw [Nat.mul_comm, Nat.mul_add_mod, Nat.mod_eq_of_lt j.isLt]
        simp only [Fin.val_natAdd, place, if_neg h1, h2, h3, h4, blockDraw, Nat.zero_mul,
          Nat.zero_add]
      · rw [List.getElem?_eq_none (by omega), List.getElem?_eq_none (by simp; omega)]

/-- C155: the probability that a run with working routines queries a point of a set of probability
`p` is exactly `1 - (1 - p) ^ (n + T)`, as for `n + T` points drawn without looking at anything. -/
theorem C155_hit {Ω : Type} [MeasurableSpace Ω] {μ : Measure Ω} [IsProbabilityMeasure μ]
    (hd : 0 < d) (B : Bounds d) (hB : ∀ j, (B j).1 ≤ (B j).2) (env : Ω → Installed) (r : Ω → Draws d)
    (hu : ∀ ω, UnitDraws (r ω)) (o : Ω → ℕ → TsOracles d) (ho : ∀ ω k, TsWell (o ω k))
    (hr : FreshDraws μ r o) (target : Ω → ℕ → Point d → Py Flt)
    (ht : ∀ ω k x, InBox B x → ∃ y : ℝ, target ω k x = .ok (.fin y)) {n : ℕ} (hn : 0 < n) (T : ℕ)
    (nY : Bool) {ns : ℤ} (hns : 2 ≤ ns) (w : World d Unit) (hw : w.log = []) {A : Set (Point d)}
    (hA : MeasurableSet A) :
    μ {ω | ∃ w' X Y, thompsonSamplingGp (env ω) (r ω) (o ω) B (target ω) n T nY "uniform" ns w =
      (w', .ok (X, Y)) ∧ ∃ x ∈ X, x ∈ A} = 1 - (1 - boxLaw B A) ^ (n + T) := by
  obtain ⟨Q, hQ, hl, hX⟩ := C155_random B hB env r o hr target n T nY ns
  have e : {ω | ∃ w' X Y, thompsonSamplingGp (env ω) (r ω) (o ω) B (target ω) n T nY "uniform" ns w =
      (w', .ok (X, Y)) ∧ ∃ x ∈ X, x ∈ A} = (Q ⁻¹' Set.pi Set.univ fun _ => Aᶜ)ᶜ := by
    ext ω
    obtain ⟨w', X, Y, h1, -⟩ := (C73_run (env ω) hd (hu ω) (ho ω) hB (ht ω) (num_init := n)
      (by omega) T nY (sm := "uniform") (by decide) (ns := ns) w hw).1 hns
    have h2 := hX ω w hw w' X Y h1
    simp only [Set.mem_setOf_eq, Set.mem_compl_iff, Set.mem_preimage, Set.mem_pi, Set.mem_univ,
      true_implies, not_forall, not_not]
    constructor
    · rintro ⟨w2, X2, Y2, h3, x, hx, hxA⟩
      rw [hX ω w hw w2 X2 Y2 h3, List.mem_ofFn] at hx
      obtain ⟨i, rfl⟩ := hx
      exact ⟨i, hxA⟩
    · rintro ⟨i, hi⟩
      exact ⟨w', X, Y, h1, Q ω i, by rw [h2, List.mem_ofFn]; exact ⟨i, rfl⟩, hi⟩
  have hm : MeasurableSet (Set.pi Set.univ fun _ : Fin (n + T) => Aᶜ) :=
    MeasurableSet.univ_pi fun _ => hA.compl
  rw [e, measure_compl (hQ hm) (measure_ne_top _ _), measure_univ, ← Measure.map_apply hQ hm, hl,
    Measure.pi_pi, Finset.prod_const, Finset.card_univ, Fintype.card_fin,
    measure_compl hA (measure_ne_top _ _), measure_univ]

/-- C155: so the best response of a run is at most `t` with probability exactly
`1 - (1 - p) ^ (n + T)`, `p` the probability of the inputs at which the target is at most `t`. -/
theorem C155_best {Ω : Type} [MeasurableSpace Ω] {μ : Measure Ω} [IsProbabilityMeasure μ]
    (hd : 0 < d) (B : Bounds d) (hB : ∀ j, (B j).1 ≤ (B j).2) (env : Ω → Installed) (r : Ω → Draws d)
    (hu : ∀ ω, UnitDraws (r ω)) (o : Ω → ℕ → TsOracles d) (ho : ∀ ω k, TsWell (o ω k))
    (hr : FreshDraws μ r o) {f : Point d → ℝ} (hf : Measurable f) {n : ℕ} (hn : 0 < n) (T : ℕ)
    (nY : Bool) {ns : ℤ} (hns : 2 ≤ ns) (w : World d Unit) (hw : w.log = []) (t : ℝ) :
    μ {ω | ∃ w' X Y, thompsonSamplingGp (env ω) (r ω) (o ω) B (fun _ x => .ok (.fin (f x))) n T nY
      "uniform" ns w = (w', .ok (X, Y)) ∧ ∃ v, Flt.fin v ∈ Y ∧ v ≤ t} =
      1 - (1 - boxLaw B {x | f x ≤ t}) ^ (n + T) := by
  have hA : MeasurableSet {x | f x ≤ t} := hf measurableSet_Iic
  rw [← C155_hit hd B hB env r hu o ho hr (fun _ _ x => .ok (.fin (f x)))
    (fun _ _ x _ => ⟨f x, rfl⟩) hn T nY hns w hw hA]
  congr 1
  ext ω
  simp only [Set.mem_setOf_eq]
  refine exists_congr fun w' => exists_congr fun X => exists_congr fun Y => and_congr_right fun h => ?_
  obtain ⟨X0, -, -, -, -, hlen, hp, -⟩ := C55_keeps_data hw h
  constructor
  · rintro ⟨v, hv, hvt⟩
    obtain ⟨i, hi⟩ := List.mem_iff_getElem?.1 hv
    obtain ⟨p, h1, h2⟩ := hp i _ hi
    have h3 : f p = v := by simpa using h2
    exact ⟨p, List.mem_of_getElem? h1, h3 ▸ hvt⟩
  · rintro ⟨x, hx, hxt⟩
    obtain ⟨i, hi⟩ := List.mem_iff_getElem?.1 hx
    have hiX := (List.getElem?_eq_some_iff.1 hi).1
    have hiY : Y[i]? = some (Y[i]'(by omega)) := List.getElem?_eq_getElem (by omega)
    obtain ⟨p, h1, h2⟩ := hp i _ hiY
    rw [hi] at h1
    obtain rfl := Option.some.inj h1
    have h3 : Flt.fin (f x) = Y[i]'(by omega) := Except.ok.inj h2
    exact ⟨f x, by rw [h3]; exact List.getElem_mem _, hxt⟩

/-! ### Cases -/

private noncomputable def unitPart (u : ℝ) : ℝ := max 0 (min u 1)

private theorem unitPart_law : unitLaw.map unitPart = unitLaw := by
  have e : unitPart =ᵐ[unitLaw] id := by
    rw [unitLaw]
    filter_upwards [ae_restrict_mem measurableSet_Ico] with u hu
    rw [unitPart, min_eq_left hu.2.le, max_eq_right hu.1, id]
  rw [Measure.map_congr e, Measure.map_id]

/-- Independent draws and working routines exist; a run of two initial points and three passes over
`[0, 10]²` then finds a response of at most 1 of the target `x ↦ x 0` with probability
`1 - 0.9 ^ 5`, about 41 percent, whatever the process learns. -/
example : ∃ (Ω : Type) (_ : MeasurableSpace Ω) (μ : Measure Ω) (r : Ω → Draws 2)
    (o : Ω → ℕ → TsOracles 2), IsProbabilityMeasure μ ∧ FreshDraws μ r o ∧
    (∀ ω, UnitDraws (r ω)) ∧ (∀ ω k, TsWell (o ω k)) ∧
    μ {ω | ∃ w' X Y, thompsonSamplingGp ⟨false, false⟩ (r ω) (o ω) exBox
      (fun _ x => .ok (.fin (x 0))) (2 : ℕ) (3 : ℕ) true "uniform" 200 ⟨(), 0, []⟩ =
        (w', .ok (X, Y)) ∧ ∃ v, Flt.fin v ∈ Y ∧ v ≤ 1} =
      1 - (1 - boxLaw exBox {x | x 0 ≤ 1}) ^ 5 := by
  have hm : Measurable unitPart := by unfold unitPart; fun_prop
  let r : (ℕ × ℕ → ℝ) → Draws 2 := fun ω =>
    ⟨fun i => unitPart (ω (0, i)), fun _ => 0, fun _ _ => 0, fun _ _ => 0⟩
  let o : (ℕ × ℕ → ℝ) → ℕ → TsOracles 2 := fun ω k =>
    { exTs with draws := ⟨fun i => unitPart (ω (k + 1, i)), fun _ => 0, fun _ _ => 0, fun _ _ => 0⟩ }
  have hb : ∀ ω p, blockDraw (r ω) (o ω) p = unitPart (ω p) := by
    rintro ω ⟨k | k, i⟩ <;> rfl
  have hu : ∀ u, 0 ≤ unitPart u ∧ unitPart u ≤ 1 := fun u =>
    ⟨le_max_left _ _, max_le zero_le_one (min_le_right _ _)⟩
  have hF : FreshDraws (Measure.infinitePi fun _ : ℕ × ℕ => unitLaw) r o := by
    refine ⟨fun p => ?_, ?_, fun p => ?_⟩
    · simp only [hb]
      exact hm.comp (measurable_pi_apply p)
    · simp only [hb]
      exact iIndepFun_infinitePi (P := fun _ : ℕ × ℕ => unitLaw) (X := fun _ => unitPart)
        fun _ => hm
    · simp only [hb]
      rw [show (fun ω : ℕ × ℕ → ℝ => unitPart (ω p)) = unitPart ∘ fun ω => ω p from rfl,
        ← Measure.map_map hm (measurable_pi_apply p)]
      rw [show Measure.map (fun ω : ℕ × ℕ → ℝ => ω p) (Measure.infinitePi fun _ => unitLaw) = unitLaw
        from Measure.infinitePi_map_eval _ p, unitPart_law]
  have hr : ∀ ω, UnitDraws (r ω) := fun ω =>
    ⟨fun k => hu _, fun k j => by norm_num [r], fun k j => by norm_num [r]⟩
  have ho : ∀ ω k, TsWell (o ω k) := fun ω k =>
    ⟨exTs_well.fit, ⟨fun k => hu _, fun k j => by norm_num [o], fun k j => by norm_num [o]⟩,
      exTs_well.normal⟩
  exact ⟨ℕ × ℕ → ℝ, inferInstance, Measure.infinitePi fun _ => unitLaw, r, o, inferInstance, hF, hr,
    ho, C155_best (by norm_num) exBox exBox_le (fun _ => ⟨false, false⟩) r hr o ho hF
      (measurable_pi_apply 0) (by norm_num) 3 true (by norm_num) _ rfl 1⟩

/-- The share of `[0, 10]²` in which the first coordinate is at most 1. -/
example : boxLaw exBox {x | InBox (fun j => if j = 0 then (0, 1) else (0, 10)) x} =
    ENNReal.ofReal (1 / 10) := by
  rw [C111_volume _ _ (fun j => by simp [exBox]) (fun j => by
    fin_cases j <;> norm_num [exBox])]
  norm_num [exBox, Fin.prod_univ_two]

/-- The hypotheses of `C155_blind`: two targets with nothing in common, the same draws. -/
example : ∃ w' X Y w2 X2 Y2,
    thompsonSamplingGp ⟨false, false⟩ exTs.draws (fun _ => exTs) exBox
      (fun _ x => .ok (.fin (x 0 ^ 2))) 1 3 true "sobol" 2 ⟨(), 0, []⟩ = (w', .ok (X, Y)) ∧
    thompsonSamplingGp ⟨true, false⟩ exTs.draws
      (fun k => { exTs with normal := Normal.always fun i => (i + k : ℝ) }) exBox
      (fun k x => .ok (.fin (k - 7 * x 1))) 1 3 false "sobol" 2 ⟨(), 0, []⟩ = (w2, .ok (X2, Y2)) ∧
    X2 = X ∧ X.length = 4 := by
  obtain ⟨w', X, Y, h, hl, -⟩ := (C73_run ⟨false, false⟩ (by norm_num) exTs_well.draws
    (o := fun _ => exTs) (fun _ => exTs_well) exBox_le
    (target := fun _ x => .ok (.fin (x 0 ^ 2))) (fun _ x _ => ⟨x 0 ^ 2, rfl⟩) (num_init := 1)
    (by norm_num) 3 true (sm := "sobol") (by decide) (ns := 2) ⟨(), 0, []⟩ rfl).1 (by norm_num)
  obtain ⟨w2, X2, Y2, h2, -⟩ := (C73_run ⟨true, false⟩ (by norm_num) exTs_well.draws
    (o := fun k => { exTs with normal := Normal.always fun i => (i + k : ℝ) })
    (fun k => ⟨exTs_well.fit, exTs_well.draws, fun _ _ _ _ _ => ⟨_, rfl⟩⟩) exBox_le
    (target := fun k x => .ok (.fin (k - 7 * x 1))) (fun k x _ => ⟨k - 7 * x 1, rfl⟩)
    (num_init := 1) (by norm_num) 3 false (sm := "sobol") (by decide) (ns := 2) ⟨(), 0, []⟩ rfl).1
    (by norm_num)
  refine ⟨w', X, Y, w2, X2, Y2, h, h2, C155_blind (fun _ => rfl) rfl rfl h h2, ?_⟩
  push_cast at hl
  omega

end Verif.Props
