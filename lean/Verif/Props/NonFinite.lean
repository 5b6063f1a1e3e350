import Verif.Lemmas.NonFiniteStep
import Verif.Lemmas.Bootstrap
import Verif.Props.Steps
import Verif.Props.Options
import Verif.Props.Run
import Mathlib.Analysis.SpecialFunctions.Exp

/-! # Responses that are infinite or NaN (C119, C120) -/

namespace Verif.Props

open Verif.Spec Verif.Trees Verif.NonFinite Verif.Lemmas Verif.Constants Verif.BoCommon
open Verif.WrapperClass (Args BayesianOptimization RunOracles ModelState create)
open Verif.WrappersBo
open MeasureTheory

variable {Ω : Type} [MeasurableSpace Ω] {d : ℕ}

/-! ### C119 -/

/-- C119. What min-max normalisation makes of responses that are not all numbers: one NaN, or −∞ beside
anything else, turns every response into NaN; +∞ beside numbers becomes NaN and the numbers become
zero; infinities of one sign alone stay. Some response is never a number afterwards. -/
theorem C119_normalize (Y : List Flt) :
    (.nan ∈ Y → NonFinite.normalizeMinMax Y = .ok (List.replicate Y.length .nan)) ∧
    (.ninf ∈ Y → (∃ z ∈ Y, z ≠ .ninf) →
      NonFinite.normalizeMinMax Y = .ok (List.replicate Y.length .nan)) ∧
    (.pinf ∈ Y → (∃ x : ℝ, .fin x ∈ Y) → .nan ∉ Y → .ninf ∉ Y →
      NonFinite.normalizeMinMax Y = .ok (Y.map fun y => if y = .pinf then .nan else .fin 0)) ∧
    (∀ z, Y ≠ [] → (∀ y ∈ Y, y = z) → z ≠ .nan → NonFinite.normalizeMinMax Y = .ok Y) ∧
    ((∃ y ∈ Y, ¬ IsNumber y) → ∃ Y', NonFinite.normalizeMinMax Y = .ok Y' ∧
      Y'.length = Y.length ∧ ∃ z ∈ Y', ¬ IsNumber z) := by
  have e : (Y.map fun _ => Flt.nan) = List.replicate Y.length .nan := List.map_const' ..
  refine ⟨fun h => e ▸ normalize_nan h, fun h ⟨z, hz, hz'⟩ => e ▸ normalize_ninf h hz hz',
    fun h ⟨x, hx⟩ h1 h2 => normalize_pinf h hx h1 h2, fun z hY h hz => normalize_same hY h hz,
    fun ⟨y, hy, hn⟩ => normalize_bad hy hn⟩

/-- C119. On numbers nothing is new: normalisation, trees, forests and the likelihood are those of the
exact model. -/
theorem C119_agrees (Y : List ℝ) :
    NonFinite.normalizeMinMax (Y.map .fin) =
      (UtilsBo.normalizeMinMax Y).map (List.map Flt.fin) ∧
    (∀ (rnd : ForestRnd d) X num dm sm ratio replace nf rl,
      NonFinite.getGenericTrees rnd X (Y.map .fin) num dm sm ratio replace nf rl =
        (Trees.getGenericTrees rnd X Y num dm sm ratio replace nf rl).map (List.map asTreeF)) ∧
    (∀ (rnd : ForestRnd d) X num dm sm nf, NonFinite.getRandomForest rnd X (Y.map .fin) num dm sm nf =
        (Trees.getRandomForest rnd X Y num dm sm nf).map (List.map asTreeF)) ∧
    ∀ (X : Covariance.Inputs Y.length d) hyps cov μ ard fix ug,
      NonFinite.negLogMl X (fun i => .fin Y[i]) hyps cov μ ard fix ug =
        Gp.negLogMl X (fun i => Y[i]) hyps cov μ ard fix true ug := by
  refine ⟨normalize_fin Y, fun rnd X num dm sm ratio replace nf rl => generic_fin ..,
    fun rnd X num dm sm nf => ?_, fun X hyps cov μ ard fix ug => negLogMl_fin ..⟩
  rw [NonFinite.forest_generic, NonFinite.forest_generic', generic_fin]

/-- C119. A tree on a sample with a response that is not a number raises `TypeError`: every split
scores NaN, no split is found, and the missing split is indexed. -/
theorem C119_tree {rnd : TreeRnd d} (hr : TreeRndOk rnd) {X : List (Point d)} {Y : List Flt}
    (hl : X.length = Y.length) {nf : ℤ} (h0 : 0 ≤ nf) (hd : nf ≤ d) (dm sm : ℤ) (rl : Bool)
    {y : Flt} (hy : y ∈ Y) (hn : ¬ IsNumber y) :
    NonFinite.growTree rnd X Y dm sm nf rl = .error .type := by
  refine growTree_nan hr ?_ hl h0 hd dm sm rl hy hn
  rintro rfl
  rw [List.length_nil, eq_comm, List.length_eq_zero_iff] at hl
  simp [hl] at hy

/-- C119. An ensemble is fitted exactly if no tree has drawn a response that is not a number;
otherwise it raises `TypeError`. -/
theorem C119_ensemble {rnd : ForestRnd d} {replace : Bool} (hr : ForestRndOk rnd replace)
    {X : List (Point d)} {Y : List Flt} (hl : X.length = Y.length) (hX : X ≠ []) {ratio : ℝ}
    (h0 : 0 < ratio) (h1 : replace = false → ratio ≤ 1) (hk : 1 ≤ (X.length : ℝ) * ratio) {nf : ℤ}
    (hn1 : 1 ≤ nf) (hnd : nf ≤ d) (m : ℕ) (dm sm : ℤ) (rl : Bool) :
    (NonFinite.getGenericTrees rnd X Y m dm sm ratio replace nf rl = .error .type ↔
      ∃ t < m, ∃ i ∈ rnd.sample t X.length ⌊(X.length : ℝ) * ratio⌋₊, ∃ y, Y[i]? = some y ∧
        ¬ IsNumber y) ∧
    ((∀ t < m, ∀ i ∈ rnd.sample t X.length ⌊(X.length : ℝ) * ratio⌋₊, ∀ y, Y[i]? = some y →
        IsNumber y) → ∃ T, NonFinite.getGenericTrees rnd X Y m dm sm ratio replace nf rl = .ok T ∧
          T.length = m) := by
  have key := fun t => sample_tree (hr.sample t) (hr.tree t) hl hX h0 h1 hk hn1 hnd dm sm rl
  have e : NonFinite.getGenericTrees rnd X Y m dm sm ratio replace nf rl =
      (List.range m).mapM (fun k => (do
        let (X_, Y_) ← NonFinite.subsample (rnd.sample k) X Y ratio replace
        NonFinite.growTree (rnd.tree k) X_ Y_ dm sm nf rl)) := by
    unfold NonFinite.getGenericTrees
    cases replace
    · simp [pyAssert, hl, h0, h1 rfl, bind, Except.bind]
    · simp [pyAssert, hl, h0, bind, Except.bind]
  obtain ⟨a, b⟩ := mapM_error_iff (e := .type) (l := List.range m) (g := fun k => (do
        let (X_, Y_) ← NonFinite.subsample (rnd.sample k) X Y ratio replace
        NonFinite.growTree (rnd.tree k) X_ Y_ dm sm nf rl)) fun k _ => by
    by_cases hb : ∃ i ∈ rnd.sample k X.length ⌊(X.length : ℝ) * ratio⌋₊, ∃ y, Y[i]? = some y ∧
        ¬ IsNumber y
    · exact .inr ((key k).1 hb)
    · exact .inl ((key k).2 hb)
  rw [e]
  constructor
  · rw [a]
    constructor
    · rintro ⟨t, ht, h⟩
      refine ⟨t, List.mem_range.1 ht, ?_⟩
      by_contra hb
      obtain ⟨T, hT⟩ := (key t).2 hb
      rw [hT] at h
      simp at h
    · rintro ⟨t, ht, hb⟩
      exact ⟨t, List.mem_range.2 ht, (key t).1 hb⟩
  · intro h
    obtain ⟨T, h1, h2⟩ := b fun t ht he => by
      obtain ⟨T, hT⟩ := (key t).2 (by
        rintro ⟨i, hi, y, hy, hn⟩
        exact hn (h t (List.mem_range.1 ht) i hi y hy))
      rw [hT] at he
      simp at he
    exact ⟨T, h1, by simpa using h2⟩

/-- C119. The same for the random forest, whose samples are as long as the data. -/
theorem C119_forest {rnd : ForestRnd d} (hr : ForestRndOk rnd true)
    {X : List (Point d)} {Y : List Flt} (hl : X.length = Y.length) (hX : X ≠ []) {nf : ℤ}
    (hn1 : 1 ≤ nf) (hnd : nf ≤ d) (m : ℕ) (dm sm : ℤ) :
    (NonFinite.getRandomForest rnd X Y m dm sm nf = .error .type ↔
      ∃ t < m, ∃ i ∈ rnd.sample t X.length X.length, ∃ y, Y[i]? = some y ∧ ¬ IsNumber y) ∧
    ((∀ t < m, ∀ i ∈ rnd.sample t X.length X.length, ∀ y, Y[i]? = some y → IsNumber y) →
      ∃ T, NonFinite.getRandomForest rnd X Y m dm sm nf = .ok T ∧ T.length = m) := by
  have h := C119_ensemble hr hl hX one_pos (by simp) (by
    have : 0 < X.length := List.length_pos_iff.2 hX
    rw [mul_one]
    exact_mod_cast this) hn1 hnd m dm sm false
  rw [mul_one, Nat.floor_natCast] at h
  rw [NonFinite.forest_generic]
  exact h

/-- C119. With exactly one response that is not a number, a forest of `m` trees on `n` rows is fitted
with probability `((n - 1) / n) ^ (n m)`, which is at most `exp (-m)`. -/
theorem C119_chance {μ : Measure Ω} (rnd : Ω → ForestRnd d) (hr : ∀ ω, ForestRndOk (rnd ω) true)
    {X : List (Point d)} {Y : List Flt} (hl : X.length = Y.length) {m : ℕ}
    (hc : TreeDraws μ m X.length X.length fun ω t => (rnd ω).sample t X.length X.length)
    {nf : ℤ} (hn1 : 1 ≤ nf) (hnd : nf ≤ d) (dm sm : ℤ) {i : ℕ} (hi : i < Y.length)
    (hbad : ¬ IsNumber Y[i]) (hgood : ∀ (j : ℕ) (hj : j < Y.length), j ≠ i → IsNumber Y[j]) :
    μ {ω | ∃ T, NonFinite.getRandomForest (rnd ω) X Y m dm sm nf = .ok T} =
      ENNReal.ofReal ((((X.length : ℝ) - 1) / X.length) ^ (X.length * m)) ∧
    (((X.length : ℝ) - 1) / X.length) ^ (X.length * m) ≤ Real.exp (-m) := by
  have hX : X ≠ [] := by
    rintro rfl
    rw [List.length_nil] at hl
    omega
  have hpos : (0 : ℝ) < X.length := by exact_mod_cast List.length_pos_iff.2 hX
  constructor
  · rw [← measure_avoid_all hc (hl ▸ hi)]
    congr 1
    ext ω
    obtain ⟨h1, h2⟩ := C119_forest (hr ω) hl hX hn1 hnd m dm sm
    simp only [Set.mem_setOf_eq]
    constructor
    · rintro ⟨T, hT⟩ t ht hit
      have := h1.2 ⟨t, ht, i, hit, Y[i], List.getElem?_eq_getElem hi, hbad⟩
      rw [hT] at this
      simp at this
    · intro h
      obtain ⟨T, hT, -⟩ := h2 fun t ht j hj y hy => by
        obtain ⟨hj', rfl⟩ := List.getElem?_eq_some_iff.1 hy
        exact hgood j hj' fun e => h t ht (e ▸ hj)
      exact ⟨T, hT⟩
  · have h1 : ((X.length : ℝ) - 1) / X.length ≤ Real.exp (-(1 / X.length)) := by
      have := Real.add_one_le_exp (-(1 / (X.length : ℝ)))
      have e : ((X.length : ℝ) - 1) / X.length = -(1 / X.length) + 1 := by
        field_simp
        ring
      rw [e]
      exact this
    have h0 : 0 ≤ ((X.length : ℝ) - 1) / X.length := by
      refine div_nonneg ?_ hpos.le
      have : (1 : ℝ) ≤ X.length := by exact_mod_cast List.length_pos_iff.2 hX
      linarith
    refine (pow_le_pow_left₀ h0 h1 _).trans ?_
    rw [← Real.exp_nat_mul]
    refine le_of_eq (congrArg Real.exp ?_)
    push_cast
    field_simp

/-! ### C120 -/

/-- C120. A Gaussian process step that is fitted by the marginal likelihood raises `ValueError` as soon
as one response is not a number, in every state, with every optimiser that evaluates the start. -/
theorem C120_gp_step {inst : UtilsBo.Installed} {a : Args d} {w : BayesianOptimization d}
    {st : ModelState} (hw : create inst a = .ok (w, st)) (ha : FitsEachStep a) {o : RunOracles d}
    (ho : ∀ k, EvaluatesStart (o.routines k).fitHyps) (clock : ℕ → ℝ) (s : ModelState × ℕ) (t : ℕ)
    {X : List (Point d)} {Y : List Flt} (hl : X.length = Y.length) {y : Flt} (hy : y ∈ Y)
    (hn : ¬ IsNumber y) : (NonFinite.step w o clock s t X Y).2 = .error .value := by
  obtain ⟨hck, -, -, e1, -, e3, e4, m', -, h | ⟨-, e5, bo, e6, hi⟩ | h⟩ := create_ok hw
  · exact absurd (ha.surrogate.symm.trans h.1) (by decide)
  · obtain ⟨-, c2, -, c4, -, -⟩ := own_checked hck
    obtain ⟨-, -, -, i1, -, i2, i3, i4, -, -, -, i5, -⟩ := gp_init_ok hi
    obtain ⟨e, he⟩ := finites_bad hy hn
    have hs : w.str_surrogate = "gp" := e1.trans ha.surrogate
    have ht : ¬ "gp" ∈ ALLOWED_SURROGATE_TREES := by decide
    have := gpOptimize_bad (bo := bo) (i4.trans ha.selection) (i1 ▸ ha.cov) (i2 ▸ ha.prior)
      (i3 ▸ i5) (ho s.2) clock X.get hl hy hn (e3 ▸ c4) (e4 ▸ c2)
      (mlm := w.str_mlm_method.getD STR_MLM_METHOD) (s := s.1.gp)
      (by rw [e5]; exact ha.mode.elim .inl fun h => .inr (.inl h)) t
    simp only [NonFinite.step, he, NonFinite.optimizeSingleIteration, hs, ht, if_false, if_true, e6,
      this]
  · exact absurd (ha.surrogate.symm.trans h.1) (by decide)

/-- C120. The same for a step in the mode 'converged' that still fits. -/
theorem C120_gp_converged {inst : UtilsBo.Installed} {a : Args d} {w : BayesianOptimization d}
    {st : ModelState} (hw : create inst a = .ok (w, st)) (h1 : a.str_surrogate = "gp")
    (h2 : a.str_modelselection_method = "ml") (h3 : a.str_mlm_method = "converged")
    (h4 : a.str_cov ∈ baseNames) (h5 : PriorTotal a.prior_mu) {o : RunOracles d}
    (ho : ∀ k, EvaluatesStart (o.routines k).fitHyps) (clock : ℕ → ℝ) (s : ModelState × ℕ)
    (hs : s.1.gp.is_optimize_hyps = true) (t : ℕ)
    {X : List (Point d)} {Y : List Flt} (hl : X.length = Y.length) {y : Flt} (hy : y ∈ Y)
    (hn : ¬ IsNumber y) : (NonFinite.step w o clock s t X Y).2 = .error .value := by
  obtain ⟨hck, -, -, e1, -, e3, e4, m', -, h | ⟨-, e5, bo, e6, hi⟩ | h⟩ := create_ok hw
  · exact absurd (h1.symm.trans h.1) (by decide)
  · obtain ⟨-, c2, -, c4, -, -⟩ := own_checked hck
    obtain ⟨-, -, -, i1, -, i2, i3, i4, -, -, -, i5, -⟩ := gp_init_ok hi
    obtain ⟨e, he⟩ := finites_bad hy hn
    have hs' : w.str_surrogate = "gp" := e1.trans h1
    have ht : ¬ "gp" ∈ ALLOWED_SURROGATE_TREES := by decide
    have := gpOptimize_bad (bo := bo) (i4.trans h2) (i1 ▸ h4) (i2 ▸ h5)
      (i3 ▸ i5) (ho s.2) clock X.get hl hy hn (e3 ▸ c4) (e4 ▸ c2)
      (mlm := w.str_mlm_method.getD STR_MLM_METHOD) (s := s.1.gp)
      (by rw [e5]; exact .inr (.inr ⟨h3, hs⟩)) t
    simp only [NonFinite.step, he, NonFinite.optimizeSingleIteration, hs', ht, if_false, if_true, e6,
      this]
  · exact absurd (h1.symm.trans h.1) (by decide)

/-- C120. A random forest step. With normalisation, one NaN, or −∞ beside anything else, ends it with
`TypeError`. Otherwise it ends with `TypeError` exactly if one of the hundred trees draws a row whose
response is not a number. -/
theorem C120_forest_step {inst : UtilsBo.Installed} {a : Args d} {w : BayesianOptimization d}
    {st : ModelState} (hw : create inst a = .ok (w, st)) (hs : a.str_surrogate = "rf") (hd : 0 < d)
    {o : RunOracles d} (ho : ∀ k, ForestRndOk (o.forest k) true) (clock : ℕ → ℝ)
    (s : ModelState × ℕ) (t : ℕ) {X : List (Point d)} {Y : List Flt} (hl : X.length = Y.length)
    {y : Flt} (hy : y ∈ Y) (hn : ¬ IsNumber y) :
    (a.normalize_Y = true → (.nan ∈ Y ∨ (.ninf ∈ Y ∧ ∃ z ∈ Y, z ≠ .ninf)) →
      (NonFinite.step w o clock s t X Y).2 = .error .type) ∧
    ((a.normalize_Y = false ∨ (.nan ∉ Y ∧ (.ninf ∈ Y → ∀ z ∈ Y, z = .ninf))) →
      ((NonFinite.step w o clock s t X Y).2 = .error .type ↔ ∃ k < 100,
        ∃ i ∈ (o.forest s.2).sample k X.length X.length, ∃ z, Y[i]? = some z ∧ ¬ IsNumber z)) := by
  obtain ⟨hck, -, -, e1, -, e3, e4, m', -, ⟨-, -, bo, e6, hi⟩ | h | h⟩ := create_ok hw
  rotate_left
  · exact absurd (hs.symm.trans h.1) (by decide)
  · exact absurd (hs.symm.trans h.1) (by decide)
  obtain ⟨-, c2, -, c4, -, -⟩ := own_checked hck
  obtain ⟨-, -, i1, i2, -, -⟩ := trees_init_ok hi
  obtain ⟨e, he⟩ := finites_bad hy hn
  have hs' : w.str_surrogate = "rf" := e1.trans hs
  have ht : "rf" ∈ ALLOWED_SURROGATE_TREES := by decide
  have hlY : 0 < Y.length := List.length_pos_of_mem hy
  have hX : X ≠ [] := by
    rintro rfl
    rw [List.length_nil] at hl
    omega
  have hd1 : (1 : ℝ) ≤ Real.sqrt d := by
    rw [Real.one_le_sqrt]
    exact_mod_cast hd
  have hd2 : Real.sqrt d ≤ d := by
    rw [Real.sqrt_le_left (by positivity)]
    have : (1 : ℝ) ≤ d := by exact_mod_cast hd
    nlinarith
  have hn1 : (1 : ℤ) ≤ ⌊Real.sqrt d⌋ := Int.le_floor.2 (by exact_mod_cast hd1)
  have hnd : ⌊Real.sqrt d⌋ ≤ (d : ℤ) := by
    have := (Int.floor_le (Real.sqrt d)).trans hd2
    exact_mod_cast this
  have main : ∀ Y', (if bo.normalize_Y then NonFinite.normalizeMinMax Y else .ok Y) = .ok Y' →
      Y'.length = Y.length → ((NonFinite.step w o clock s t X Y).2 = .error .type ↔ ∃ k < 100,
        ∃ i ∈ (o.forest s.2).sample k X.length X.length, ∃ z, Y'[i]? = some z ∧ ¬ IsNumber z) := by
    intro Y' hY' hl'
    have h1 := treesOptimize_bad (σ := ModelState) i1 (o.forest s.2) clock hl (e3 ▸ c4)
      (show 0 < w.num_samples_ao from e4 ▸ c2) hY' (s.1, t)
    have h2 := (C119_forest (ho s.2) (hl.trans hl'.symm) hX hn1 hnd 100 5 1).1
    simp only [NonFinite.step, he, NonFinite.optimizeSingleIteration, hs', ht, if_true, e6]
    rw [h1]
    exact h2
  constructor
  · intro hN hbad
    have hY' : NonFinite.normalizeMinMax Y = .ok (List.replicate Y.length .nan) := by
      obtain ⟨n1, n2, -⟩ := C119_normalize Y
      rcases hbad with h | ⟨h, h'⟩
      · exact n1 h
      · exact n2 h h'
    refine (main _ (by rw [i2, hN]; exact hY') (by simp)).2 ⟨0, by norm_num, ?_⟩
    have hlen := ((ho s.2).sample 0).length X.length X.length (by omega) (fun _ => le_rfl)
    have hlt := ((ho s.2).sample 0).lt X.length X.length (by omega) (fun _ => le_rfl)
    obtain ⟨i, hi⟩ := List.exists_mem_of_length_pos
      (l := (o.forest s.2).sample 0 X.length X.length) (by omega)
    have := hlt i hi
    refine ⟨i, hi, .nan, ?_, by simp [IsNumber]⟩
    rw [List.getElem?_replicate, if_pos (by omega)]
  · intro hgood
    by_cases hN : a.normalize_Y = true
    · obtain ⟨g1, g2⟩ := hgood.resolve_left (by simp [hN])
      by_cases hsame : ∃ z, z ≠ .nan ∧ ∀ y ∈ Y, y = z
      · obtain ⟨z, hz, hz'⟩ := hsame
        exact main Y (by
          rw [i2, hN]
          exact (C119_normalize Y).2.2.2.1 z (List.ne_nil_of_mem hy) hz' hz) rfl
      · have hni : .ninf ∉ Y := fun h => hsame ⟨.ninf, by simp, g2 h⟩
        have hp : .pinf ∈ Y := by
          cases y with
          | fin x => exact absurd ⟨x, rfl⟩ hn
          | pinf => exact hy
          | ninf => exact absurd hy hni
          | nan => exact absurd hy g1
        have hf : ∃ x : ℝ, .fin x ∈ Y := by
          by_contra hno
          refine hsame ⟨.pinf, by simp, fun z hz => ?_⟩
          cases z with
          | fin x => exact absurd ⟨x, hz⟩ hno
          | pinf => rfl
          | ninf => exact absurd hz hni
          | nan => exact absurd hz g1
        rw [main _ (by rw [i2, hN]; exact (C119_normalize Y).2.2.1 hp hf g1 hni) (by simp)]
        refine exists_congr fun k => and_congr_right fun _ => exists_congr fun i =>
          and_congr_right fun _ => ?_
        rw [List.getElem?_map]
        cases hYi : Y[i]? with
        | none => simp
        | some z =>
          have hz : z ∈ Y := List.mem_of_getElem? hYi
          cases z with
          | fin x => simp [IsNumber]
          | pinf => simp [IsNumber]
          | ninf => exact absurd hz hni
          | nan => exact absurd hz g1
    · exact main Y (by rw [i2]; simp [hN]) rfl

/-- C120. Every step, whether it returns or raises and whatever the responses are, uses up the random numbers
of one step: the next one does not reuse them. -/
theorem C120_fresh_draws (w : BayesianOptimization d) (o : RunOracles d) (clock : ℕ → ℝ)
    (s : ModelState × ℕ) (t : ℕ) (X : List (Point d)) (Y : List Flt) :
    (NonFinite.step w o clock s t X Y).1.1.2 = s.2 + 1 := by
  unfold NonFinite.step
  rcases h : UtilsBo.finites Y with e | y
  · rfl
  · simp [WrapperClass.step, h]

/-- C120. A run that is given a response that is not a number raises `ValueError` in its first
iteration and does not call the target. -/
theorem C120_start {inst : UtilsBo.Installed} {a : Args d} {w : BayesianOptimization d}
    {st : ModelState} (hw : create inst a = .ok (w, st)) (ha : FitsEachStep a) {o : RunOracles d}
    (ho : ∀ k, EvaluatesStart (o.routines k).fitHyps) (clock : ℕ → ℝ)
    {env : Env d (ModelState × ℕ)} (henv : FollowsSteps w o clock env) (T : ℕ)
    {X : List (Point d)} {Y : List Flt}
    (hl : X.length = Y.length) {y : Flt} (hy : y ∈ Y) (hn : ¬ IsNumber y)
    (u : World d (ModelState × ℕ)) :
    ∃ u', optimizeWithAllInitialInformation env (T + 1) X Y u = (u', .error .value) ∧
      u'.log = u.log := by
  have h := C120_gp_step hw ha ho clock u.model (u.tick + 1 + 1) hl hy hn
  have hs' := henv u.model (u.tick + 1 + 1) X Y (by rw [h]; simp)
  rcases hs : NonFinite.step w o clock u.model (u.tick + 1 + 1) X Y with ⟨⟨s', t'⟩, r⟩
  rw [hs] at h
  simp only at h
  subst h
  rw [hs] at hs'
  simp only [optimizeWithAllInitialInformation, bind_apply, RunM.lift, pyAssert, hl, if_true, now,
    classLoop, classIteration, callStep, hs']
  exact ⟨_, rfl, rfl⟩

/-- Whole runs end in the loop on all initial information. -/
private theorem run_loop {σ : Type} {env : Env d σ} {initials : ℤ → Py (List (Point d))} {n : ℤ}
    {T : ℕ} {st : LoopSt d} (h : RunGives env initials n T st) : ∃ X Y w w' st',
      optimizeWithAllInitialInformation env T X Y w = (w', .ok st') ∧ st'.Y = st.Y := by
  obtain ⟨w, w', h⟩ := h
  have key : ∀ X w w' st, optimizeWithInitialInputs env T X w = (w', .ok st) → ∃ X Y w w' st',
      optimizeWithAllInitialInformation env T X Y w = (w', .ok st') ∧ st'.Y = st.Y := by
    intro X w w' st h
    rcases hi : classInitials env X w with ⟨w1, e | ⟨Y, ts⟩⟩
    · simp [optimizeWithInitialInputs, bind_apply, hi] at h
    · simp only [optimizeWithInitialInputs, bind_apply, hi] at h
      rcases hr : optimizeWithAllInitialInformation env T X Y w1 with ⟨w2, e | r1⟩
      · rw [hr] at h
        simp at h
      · rw [hr] at h
        simp only [pure_apply, Prod.mk.injEq, Except.ok.injEq] at h
        obtain ⟨rfl, rfl⟩ := h
        exact ⟨X, Y, w1, w2, r1, hr, rfl⟩
  rcases h with h | h
  · rcases hi : initials n with e | pts
    · simp [runSingleRound, bind_apply, RunM.lift, hi, now] at h
    · simp only [runSingleRound, bind_apply, RunM.lift, hi, now, (C12_same_round env T).1] at h
      rcases hr : optimizeWithInitialInputs env T pts { w with tick := w.tick + 1 } with ⟨w1, e | st1⟩
      · simp [hr] at h
      · simp only [hr, pure_apply, Prod.mk.injEq, Except.ok.injEq] at h
        obtain ⟨-, rfl⟩ := h
        exact key _ _ _ _ hr
  · by_cases hn : n > 0
    · rcases hi : initials n with e | pts
      · simp [classOptimize, bind_apply, RunM.lift, hi, now, pyAssert, hn] at h
      · simp only [classOptimize, bind_apply, RunM.lift, hi, now, pyAssert, hn, if_true] at h
        rcases hr : optimizeWithInitialInputs env T pts { w with tick := w.tick + 1 } with
          ⟨w1, e | st1⟩
        · simp [hr] at h
        · simp only [hr, pure_apply, Prod.mk.injEq, Except.ok.injEq] at h
          obtain ⟨-, rfl⟩ := h
          exact key _ _ _ _ hr
    · simp [classOptimize, bind_apply, RunM.lift, pyAssert, hn] at h

/-- C120. If a run that fits in every step returns, all its responses but perhaps the last are
numbers: a target that returns NaN or an infinity earlier has ended the run. -/
theorem C120_run {inst : UtilsBo.Installed} {a : Args d} {w : BayesianOptimization d}
    {st : ModelState} (hw : create inst a = .ok (w, st)) (ha : FitsEachStep a) {o : RunOracles d}
    (ho : ∀ k, EvaluatesStart (o.routines k).fitHyps) (clock : ℕ → ℝ)
    {env : Env d (ModelState × ℕ)} (henv : FollowsSteps w o clock env)
    {initials : ℤ → Py (List (Point d))} {n : ℤ} {T : ℕ}
    {res : LoopSt d} (h : RunGives env initials n (T + 1) res) :
    ∀ y ∈ res.Y.dropLast, IsNumber y := by
  obtain ⟨X, Y, u, u', st', hr, e⟩ := run_loop h
  rw [← e]
  refine run_good (fun s t X Y hl ⟨y, hy, hn⟩ => ?_) hr
  have hb := C120_gp_step hw ha ho clock s t hl hy hn
  exact ⟨_, by rw [henv s t X Y (by rw [hb]; simp), hb]⟩

/-- C120. A run with random forests and normalised responses that returns has met no NaN before its
last step. -/
theorem C120_forest_run {inst : UtilsBo.Installed} {a : Args d} {w : BayesianOptimization d}
    {st : ModelState} (hw : create inst a = .ok (w, st)) (hs : a.str_surrogate = "rf")
    (hN : a.normalize_Y = true) (hd : 0 < d) {o : RunOracles d}
    (ho : ∀ k, ForestRndOk (o.forest k) true) (clock : ℕ → ℝ)
    {env : Env d (ModelState × ℕ)} (henv : FollowsSteps w o clock env)
    {initials : ℤ → Py (List (Point d))} {n : ℤ} {T : ℕ} {res : LoopSt d}
    (h : RunGives env initials n (T + 1) res) :
    ∀ y ∈ res.Y.dropLast, y ≠ .nan := by
  obtain ⟨X, Y, u, u', st', hr, e⟩ := run_loop h
  rw [← e]
  refine run_good (fun s t X Y hl ⟨y, hy, hn⟩ => ?_) hr
  have hy' : y = .nan := not_not.1 hn
  subst hy'
  have hb := (C120_forest_step hw hs hd ho clock s t hl hy (by simp [IsNumber])).1 hN (.inl hy)
  exact ⟨_, by rw [henv s t X Y (by rw [hb]; simp), hb]⟩

/-! ### Concrete cases -/

/-- C119: three responses of every kind. -/
example : NonFinite.normalizeMinMax [.fin 1, .nan, .fin 2] = .ok [.nan, .nan, .nan] ∧
    NonFinite.normalizeMinMax [.fin 1, .ninf, .fin 2] = .ok [.nan, .nan, .nan] ∧
    NonFinite.normalizeMinMax [.fin 1, .pinf, .fin 2] = .ok [.fin 0, .nan, .fin 0] ∧
    NonFinite.normalizeMinMax [.pinf, .pinf] = .ok [.pinf, .pinf] := by
  refine ⟨(C119_normalize _).1 (by simp), (C119_normalize _).2.1 (by simp) ⟨.fin 1, by simp⟩, ?_,
    (C119_normalize _).2.2.2.1 .pinf (by simp) (by simp) (by simp)⟩
  rw [(C119_normalize _).2.2.1 (by simp) ⟨1, by simp⟩ (by simp) (by simp)]
  simp

/-- C119: forests whose trees all draw the first row only. An infinite second response goes
unnoticed, an infinite first one ends the fit. -/
example : (∃ T, NonFinite.getRandomForest exForest.forest [fun _ => 0, fun _ => 1]
      [.fin 3, .pinf] 5 5 1 1 = .ok T ∧ T.length = 5) ∧
    NonFinite.getRandomForest exForest.forest [fun _ => 0, fun _ => 1]
      [.pinf, .fin 3] 5 5 1 1 = .error .type := by
  constructor
  · refine (C119_forest exForest_ok rfl (by simp) (by norm_num) (by norm_num) 5 5 1).2 ?_
    intro t _ i hi y hy
    have : i = 0 := (List.mem_replicate.1 hi).2
    subst this
    simp at hy
    exact ⟨3, hy.symm⟩
  · refine (C119_forest exForest_ok rfl (by simp) (by norm_num) (by norm_num) 5 5 1).1.2
      ⟨0, by norm_num, 0, by simp [exForest], .pinf, rfl, by simp [IsNumber]⟩

/-- C119: five trees on three rows, one of them infinite, are fitted with probability
`(2/3)^15 < 0.0023`. -/
example : ∃ (μ : Measure (Fin 5 → Fin 3 → Fin 3)) (r : (Fin 5 → Fin 3 → Fin 3) → ForestRnd 2),
    μ {ω | ∃ T, NonFinite.getRandomForest (r ω) [fun _ => 0, fun _ => 1, fun _ => 2]
      [.fin 3, .pinf, .fin 4] 5 5 1 1 = .ok T} = ENNReal.ofReal ((2 / 3) ^ 15) := by
  let r : (Fin 5 → Fin 3 → Fin 3) → ForestRnd 2 := fun v =>
    ⟨fun t n k => if h : t < 5 ∧ n = 3 ∧ k = 3 then List.ofFn fun s => (v ⟨t, h.1⟩ s : ℕ)
      else List.replicate k 0, fun _ _ => firstRnd 2⟩
  have hr : ∀ ω, ForestRndOk (r ω) true := by
    intro ω
    refine ⟨fun t => ⟨fun n k hn _ => ?_, fun n k hn _ i hi => ?_, by simp⟩, fun _ _ => firstRnd_ok 2⟩
    · by_cases h : t < 5 ∧ n = 3 ∧ k = 3
      · simp only [r, h, and_self, dif_pos, List.length_ofFn]
      · simp only [r, h, dif_neg, not_false_iff, List.length_replicate]
    · by_cases h : t < 5 ∧ n = 3 ∧ k = 3
      · simp only [r, h, and_self, dif_pos, List.mem_ofFn] at hi
        obtain ⟨s, rfl⟩ := hi
        have := (ω ⟨t, h.1⟩ s).2
        omega
      · simp only [r, h, dif_neg, not_false_iff] at hi
        rw [(List.mem_replicate.1 hi).2]
        exact hn
  refine ⟨(((3 : ENNReal) ^ 3) ^ 5)⁻¹ • Measure.count, r, ?_⟩
  have h := (C119_chance (μ := (((3 : ENNReal) ^ 3) ^ 5)⁻¹ • Measure.count) r hr
    (X := [fun _ => 0, fun _ => 1, fun _ => 2]) (Y := [.fin 3, .pinf, .fin 4]) rfl (m := 5)
    ⟨id, measurable_id, fun v t => by simp [r], fun v => by simp⟩ (nf := 1) (by norm_num)
    (by norm_num) 5 1 (i := 1) (by simp) (by simp [IsNumber]) (fun j hj hj' => ?_)).1
  · norm_num at h ⊢
    exact h
  · simp only [List.length_cons, List.length_nil] at hj
    interval_cases j
    · exact ⟨3, rfl⟩
    · exact absurd rfl hj'
    · exact ⟨4, rfl⟩

/-- The routines of the example, evaluating the objective at the start. -/
noncomputable def exOracles' : RunOracles 2 := ⟨fun _ => exRoutines', fun _ => exForest.forest⟩

theorem exOracles'_start (k : ℕ) : EvaluatesStart (exOracles'.routines k).fitHyps := by
  intro method f x0 bounds jac e he
  show (do let _ ← f x0; return x0 : Py (List Flt)) = _
  simp only [he, bind, Except.bind]

/-- C120: the default object, and a run on two initial points of which one has the response NaN. -/
example : ∃ w u', create ⟨false, false⟩ (exArgs "gp" "L-BFGS-B") = .ok (w, {}) ∧
    optimizeWithAllInitialInformation (NonFinite.runEnv w exOracles' (fun k => k)
      (fun _ x => .ok (.fin (x 0)))) 3 [fun _ => 1, fun _ => 2] [.fin 1, .nan] ⟨({}, 0), 0, []⟩ =
        (u', .error .value) ∧ u'.log = [] := by
  obtain ⟨w, hw⟩ : ∃ w, create ⟨false, false⟩ (exArgs "gp" "L-BFGS-B") = .ok (w, {}) := by
    have h3 : (0 : ℤ) < NUM_SAMPLES_AO := by norm_num [NUM_SAMPLES_AO]
    simp only [create, WrapperClass.ownChecks, exArgs, WrapperClass.getModelBo, BoWGp.init,
      BaseBo.initBase, UtilsBo.checkOptimizerMethodBo, pyAssert, exBox_le, h3, implies_true, if_true,
      bind, Except.bind, pure, Except.pure]
    exact ⟨_, rfl⟩
  have hf : FitsEachStep (exArgs "gp" "L-BFGS-B") :=
    ⟨rfl, rfl, .inl rfl, by show STR_COV ∈ _; decide, prior_none 2⟩
  obtain ⟨u', h, hlog⟩ := C120_start hw hf exOracles'_start (fun k => k) (env := NonFinite.runEnv w
    exOracles' (fun k => k) fun _ x => .ok (.fin (x 0))) (fun _ _ _ _ _ => rfl) 2 (X := [fun _ => 1, fun _ => 2]) (Y := [.fin 1, .nan]) rfl
    (y := .nan) (by simp) (by simp [IsNumber]) ⟨({}, 0), 0, []⟩
  exact ⟨w, u', hw, h, hlog⟩

/-- C120: the same with a random forest. -/
example : ∃ w, create ⟨false, false⟩ (exArgs "rf" "random_search") = .ok (w, {}) ∧
    (NonFinite.step w exOracles' (fun k => k) ({}, 0) 0 [fun _ => 1, fun _ => 2] [.fin 1, .nan]).2 =
      .error .type := by
  obtain ⟨w, hw⟩ : ∃ w, create ⟨false, false⟩ (exArgs "rf" "random_search") = .ok (w, {}) := by
    have h3 : (0 : ℤ) < NUM_SAMPLES_AO := by norm_num [NUM_SAMPLES_AO]
    simp only [create, WrapperClass.ownChecks, exArgs, WrapperClass.getModelBo, BoWTrees.init,
      BaseBo.initBase, UtilsBo.checkOptimizerMethodBo, pyAssert, exBox_le, h3, implies_true, if_true,
      bind, Except.bind, pure, Except.pure]
    exact ⟨_, rfl⟩
  exact ⟨w, hw, (C120_forest_step hw rfl (by norm_num) (fun _ => exForest_ok) (fun k => k) _ _ rfl
    (y := .nan) (by simp) (by simp [IsNumber])).1 rfl (.inl (by simp))⟩

/-- C120: runs that return, with a Gaussian process and with a forest. -/
example (c : String × String) (hc : c ∈ [("gp", "L-BFGS-B"), ("rf", "random_search")]) :
    ∃ w res, create ⟨false, false⟩ (exArgs c.1 c.2) = .ok (w, {}) ∧
    RunGives (NonFinite.runEnv w exOracles' (fun k => k) (fun _ x => .ok (.fin (x 0))))
      (fun _ => .ok [fun _ => 1, fun _ => 2]) 2 3 res := by
  obtain ⟨w, hw⟩ : ∃ w, create ⟨false, false⟩ (exArgs c.1 c.2) = .ok (w, {}) := by
    have h3 : (0 : ℤ) < NUM_SAMPLES_AO := by norm_num [NUM_SAMPLES_AO]
    simp only [List.mem_cons, List.not_mem_nil, or_false] at hc
    rcases hc with rfl | rfl
    all_goals
      simp only [create, WrapperClass.ownChecks, exArgs, WrapperClass.getModelBo, BoWGp.init,
        BoWTrees.init, BaseBo.initBase, UtilsBo.checkOptimizerMethodBo, pyAssert, exBox_le, h3,
        implies_true, if_true, bind, Except.bind, pure, Except.pure]
      exact ⟨_, rfl⟩
  have hfit : ∀ P, Minimizes exRoutines'.fitHyps P := by
    intro P method f x0 bounds jac h0 hf
    obtain ⟨y, g, h1, -⟩ := hf x0 h0
    refine ⟨x0, h0, ?_⟩
    simp only [exRoutines', h1, bind, Except.bind, pure, Except.pure]
  have hwell : RunsWell (exArgs c.1 c.2) exOracles' :=
    ⟨fun _ _ => hfit _, fun _ _ => hfit _, fun _ => ⟨(exRoutines_acq exBox_le).lbfgsb,
      (exRoutines_acq exBox_le).direct, (exRoutines_acq exBox_le).cma,
      (exRoutines_acq exBox_le).draws⟩, fun _ => exForest_ok⟩
  have hs := step_total hw (exArgs_runs c.1 c.2).1 hwell (fun k => k)
    (fun _ x => .ok (.fin (x 0)))
  have hs' : StepTotal (NonFinite.runEnv w exOracles' (fun k => k) (fun _ x => .ok (.fin (x 0))))
      (exArgs c.1 c.2).range_X (RunInv (exArgs c.1 c.2)) := by
    intro s t X Y h1 h2 h3
    obtain ⟨s', t', p, i, h⟩ := hs s t X Y h1 h2 h3
    refine ⟨s', t', p, i, ?_⟩
    rw [show (NonFinite.runEnv w exOracles' (fun k => k) (fun _ x => .ok (.fin (x 0)))).step s t X
        (Y.map .fin) = (WrapperClass.runEnv w exOracles' (fun k => k)
          (fun _ x => .ok (.fin (x 0)))).step s t X (Y.map .fin) by
      show NonFinite.step _ _ _ _ _ _ _ = _
      unfold NonFinite.step
      rw [finites_fin]
      rfl]
    exact h
  obtain ⟨u, res, h⟩ := inputs_total hs' (fun _ x _ => ⟨x 0, rfl⟩) 3
    (X := [fun _ => 1, fun _ => 2]) (w := ⟨(({} : ModelState), 0), 1, []⟩)
    (fun _ => ⟨by simp, by simp⟩) (by simp) (by
      intro x hx i
      show (0 : ℝ) ≤ x i ∧ x i ≤ 10
      rcases List.mem_cons.1 hx with rfl | hx
      · norm_num
      · rw [List.mem_singleton.1 hx]
        norm_num)
  refine ⟨w, res, hw, ⟨({}, 0), 0, []⟩, { u with tick := u.tick + 1 }, .inr ?_⟩
  simp [classOptimize, bind_apply, RunM.lift, pyAssert, now, pure_apply, h, NonFinite.runEnv] at h ⊢

end Verif.Props
