import Verif.Lemmas.RoundedTreesStep
import Verif.Lemmas.RoundedStep
import Verif.Props.RoundedStepReturns

/-! # C160: a step with random forests in double precision -/

namespace Verif.Props

open Verif.Spec Verif.Lemmas Verif.Constants Verif.UtilsBo Verif.BaseBo Verif.BoCommon Verif.BoWTrees
open Verif.Trees (Tree ForestRnd)
open Verif.RoundedTrees (Orders)

section

variable {fl cdf pdf lg : ℝ → ℝ} {o : Orders} {d : ℕ} {σ : Type} {bo : BaseBO d} {orc : TreesOracles d}
  {clock : ℕ → ℝ} {X : List (Point d)} {Y : List ℝ} {sm : String} {ns : ℤ} {st : σ} {t : ℕ} {r : σ × ℕ}
  {p : Point d} {info : DictInfoTrees d} {η : ℝ}

/-- C160: without rounding and with exact library functions, a step is the one of exact arithmetic. -/
theorem C160_exact (ho : SumsAll o) :
    RoundedTreesStep.optimize (σ := σ) id Acquisition.normCdf Acquisition.normPdf Real.log o bo orc clock X Y
        sm ns = BoWTrees.optimize bo orc clock X Y sm ns := by
  have h1 : ∀ rnd X Y, RoundedTreesStep.getTrees id o bo rnd X Y = BoWTrees.getTrees bo rnd X Y := by
    intro rnd X Y
    simp only [RoundedTreesStep.getTrees, BoWTrees.getTrees, RoundedTrees.getRandomForest_id ho, id]
  have h2 : RoundedTreesStep.computeAcquisitions id Acquisition.normCdf Acquisition.normPdf Real.log o bo =
      BoWTrees.computeAcquisitions bo := by
    funext Xs X Y trees
    simp only [RoundedTreesStep.computeAcquisitions, BoWTrees.computeAcquisitions,
      RoundedTreesStep.computePosteriors, BoWTrees.computePosteriors, RoundedTrees.predictByTrees_id ho,
      roundedChoose_id, id]
  have h3 : Rounded.normalizeMinMax id Y = normalizeMinMax Y := rfl
  unfold RoundedTreesStep.optimize BoWTrees.optimize
  simp only [h1, h2, h3, getSamples_id, id]

/-- C160: the forest of a step that returns consists of a hundred trees of depth at most five whose leaves are
not empty and hold pairs of inputs and normalised responses; the chosen point is one of the sampled ones, all of
which lie in the search space, and no other one has a greater computed value. -/
theorem C160_step (hf : Nearest fl) (ho : SumsAll o) (hd : 0 < d) (hd53 : d < 2 ^ 53)
    (hr : ForestRndOk orc.forest true) (hX : X ≠ []) (hn : X.length ≤ 2 ^ 45)
    (h : RoundedTreesStep.optimize fl cdf pdf lg o bo orc clock X Y sm ns (st, t) = (r, .ok (p, info))) :
    r = (st, t + 6) ∧ info.Y_original = Y ∧ info.trees.length = 100 ∧
      SoundForest X info.Y_normalized 5 info.trees ∧
      (∀ q ∈ info.next_points, InBox bo.range_X q) ∧
      ∃ i : ℕ, info.next_points[i]? = some p ∧ ∃ v : ℝ, info.acquisitions[i]? = some v ∧
        (∀ (j : ℕ) w, info.acquisitions[j]? = some w → v ≤ w) := by
  obtain ⟨-, -, -, e1, -, e2, e3, -, e4, -, ⟨i, h1, h2⟩, -⟩ := treesStep_ok h
  have hsur : bo.str_surrogate = "rf" := by
    by_contra hne
    unfold RoundedTreesStep.getTrees at e2
    obtain ⟨_, -, e2⟩ := py_bind_ok e2
    rw [if_neg hne] at e2
    cases e2
  have hl : X.length = info.Y_normalized.length := by
    unfold RoundedTreesStep.getTrees at e2
    obtain ⟨_, k, -⟩ := py_bind_ok e2
    exact pyAssert_ok k
  obtain ⟨trees, k1, k2, k3, -⟩ := treesStep_forest hf ho hd hd53 hsur hr hX hl hn
  obtain rfl := Except.ok.inj (e2.symm.trans k1)
  refine ⟨e3, e1, k2, k3, e4, i, ?_, ?_⟩
  · unfold pyIndex at h2
    split at h2
    · rename_i z hz
      rw [hz, Except.ok.inj h2]
    · cases h2
  · rcases npArgmin_spec h1 with ⟨h3, -⟩ | ⟨⟨a, h3, h4, -⟩, -⟩
    · rw [List.getElem?_map] at h3
      cases hi : info.acquisitions[i]? <;> rw [hi] at h3 <;> simp at h3
    · rw [List.getElem?_map] at h3
      cases hi : info.acquisitions[i]? with
      | none => rw [hi] at h3; simp at h3
      | some v =>
        rw [hi, Option.map_some, Option.some.injEq] at h3
        refine ⟨v, rfl, fun j w hj => ?_⟩
        have := h4 j (.fin w) (by simp [hj])
        rw [← h3] at this
        exact this

/-- C160: the point that a step with a random forest chooses in double precision. Under the exact predictions of
the forest that was grown, its value is close to the largest among the sampled points. -/
theorem C160_choice (hf : Nearest fl) (ho : SumsAll o) (hη : 0 ≤ η) (hη1 : η ≤ 1 / 2) (hc : CdfWithin η cdf)
    (hp : PdfWithin η pdf) (hlg : LogWithin η lg) (hd : 0 < d) (hd53 : d < 2 ^ 53)
    (hr : ForestRndOk orc.forest true) (hn : X.length ≤ 2 ^ 45) (hY : ∀ y ∈ Y, y ∈ Double)
    (hacq : bo.str_acq ∈ ALLOWED_BO_ACQ)
    (h : RoundedTreesStep.optimize fl cdf pdf lg o bo orc clock X Y sm ns (st, t) = (r, .ok (p, info)))
    {M : ℝ} (hM0 : (2 : ℝ) ^ (-500 : ℤ) ≤ M) (hM : ∀ y ∈ info.Y_normalized, |y| ≤ M)
    {b : ℝ} (hb : IsBest info.Y_normalized b) {κ D em es w Δ : ℝ} (hκ : κ = 2 * Real.log (X.length + 1))
    (hD : D = (3 + κ) * M) (hem : em = ((X.length : ℝ) + 109) / 2 ^ 51 * M)
    (hes : es = √(10 * ((X.length : ℝ) + 109) / 2 ^ 52) * M)
    (hpi : bo.str_acq = "pi" → 2 * (es + 1 / 80000) ≤ w - es ∧
      ∀ x ∈ info.next_points, ∀ m s, Trees.predictByTreesOne x info.trees = .ok (m, s) → w ≤ s)
    (hΔ : Δ = acqError bo.str_acq η κ (fl GP_NOISE) em es D w) :
    ∃ mean dev : Point d → ℝ, (∀ x, Trees.predictByTreesOne x info.trees = .ok (mean x, dev x)) ∧
      NearBest (fun x => acqMeaning bo.str_acq b κ (fl GP_NOISE) (mean x) (dev x)) info.next_points
        (2 * Δ + 2 / 2 ^ 53 * (D + 1 + Δ) + (2 : ℝ) ^ (-1075 : ℤ)) p := by
  obtain ⟨-, -, -, -, e0, e2, -, -, -, ⟨a, ha, hacqs⟩, ⟨i, h1, h2⟩, -⟩ := treesStep_ok h
  have hsur : bo.str_surrogate = "rf" := by
    by_contra hne
    unfold RoundedTreesStep.getTrees at e2
    obtain ⟨_, -, e2⟩ := py_bind_ok e2
    rw [if_neg hne] at e2
    cases e2
  have hl : X.length = info.Y_normalized.length := by
    unfold RoundedTreesStep.getTrees at e2
    obtain ⟨_, k, -⟩ := py_bind_ok e2
    exact pyAssert_ok k
  have hX : X ≠ [] := by
    rintro rfl
    have := List.length_pos_of_mem hb.1
    simp at hl
    omega
  have hYd : ∀ y ∈ info.Y_normalized, y ∈ Double := by
    split at e0
    · exact normalized_double hf hY e0
    · rw [← Except.ok.inj e0]
      exact hY
  obtain ⟨trees, k1, k2, k3, k4⟩ := treesStep_forest hf ho hd hd53 hsur hr hX hl hn
  obtain rfl := Except.ok.inj (e2.symm.trans k1)
  obtain ⟨mean, dev, mean', dev', hpred⟩ := treesStep_predictions hf ho k3 k2 k4 hn hYd hM0 hM
  refine ⟨mean, dev, fun x => (hpred x).1, ?_⟩
  have hps : info.next_points ≠ [] := by
    intro h0
    rw [h0] at h2
    simp [pyIndex] at h2
  have hM' : 0 ≤ M := le_trans (by positivity) hM0
  have hκ0 : 0 ≤ κ := by
    rw [hκ]
    have := Real.log_nonneg (show (1 : ℝ) ≤ (X.length : ℝ) + 1 by linarith [Nat.cast_nonneg (α := ℝ) X.length])
    linarith
  obtain ⟨f, hch, hval⟩ := value_near (Y := info.Y_normalized) (b := b) (κ := κ) (σ := fl GP_NOISE) (w := w)
    (em := em) (es := es) (D := D) (noise := some (fl GP_NOISE)) hacq hf hη hη1 hc hp hlg hYd hb
    (lt_of_le_of_lt (hl ▸ hn) (by norm_num)) (by rw [← hl]; exact hκ) (fun _ => ⟨rfl, noise_literal hf⟩)
    fun h => (hpi h).1
  have key : ∀ x, ∃ v, x ∈ info.next_points → f [mean' x] [dev' x] info.Y_normalized = .ok [v] ∧
      |v - acqMeaning bo.str_acq b κ (fl GP_NOISE) (mean x) (dev x)| ≤ Δ ∧ |v| ≤ D + 1 + Δ := by
    intro x
    by_cases hx : x ∈ info.next_points
    swap
    · exact ⟨0, fun h => absurd h hx⟩
    obtain ⟨q1, -, ⟨q3, q4, q5⟩, ⟨q6, q7, q8⟩, q9, q10⟩ := hpred x
    have hbM := hM b hb.1
    have hκs := mul_le_mul_of_nonneg_left q8 hκ0
    have hκM := mul_nonneg hκ0 hM'
    obtain ⟨v, v1, v2, v3⟩ := hval (mean x) (dev x) (mean' x) (dev' x) q3 q4 q5 q6 (hem ▸ q9) (hes ▸ q10)
      (by
        have := abs_sub b (mean x)
        rw [hD]
        linarith) (by rw [hD]; linarith) fun h => (hpi h).2 x hx _ _ q1
    rw [hΔ]
    exact ⟨v, fun _ => ⟨v1, v2, v3⟩⟩
  choose v hv using key
  have hcomp := treesStep_values (bo := bo) hl hps (fun x => (hpred x).2.1) hch fun x hx => (hv x hx).1
  obtain rfl := Except.ok.inj (ha.symm.trans hcomp)
  have h3 : npArgmin ((info.next_points.map fun x => -1 * fl (v x * 10)).map Flt.fin) = .ok i := by
    rw [hacqs] at h1
    simpa only [List.map_map, Function.comp_def] using h1
  exact argmin_near hf h3 h2 (fun x hx => (hv x hx).2.1) fun x hx => (hv x hx).2.2

/-- C160: a step with a random forest returns in double precision, with any acquisition function and any way of
sampling but the grid. -/
theorem C160_returns (hf : Nearest fl) (ho : SumsAll o) (hη : 0 ≤ η) (hη1 : η ≤ 1 / 2) (hc : CdfWithin η cdf)
    (hp : PdfWithin η pdf) (hlg : LogWithin η lg) (hd : 0 < d) (hd53 : d < 2 ^ 53)
    (hr : ForestRndOk orc.forest true) (hX : X ≠ []) (hl : X.length = Y.length) (hn : X.length ≤ 2 ^ 45)
    (hY : ∀ y ∈ Y, y ∈ Double) (hsur : bo.str_surrogate = "rf") (hacq : bo.str_acq ∈ ALLOWED_BO_ACQ)
    (hB : DoubleBox bo.range_X) (hdr : DoubleDraws orc.draws) (clock : ℕ → ℝ)
    (hsm : sm ∈ ALLOWED_SAMPLING_METHOD) (hg : sm ≠ "grid") (hns : 0 < ns) (st : σ) (t : ℕ) :
    ∃ p info, RoundedTreesStep.optimize fl cdf pdf lg o bo orc clock X Y sm ns (st, t) =
      ((st, t + 6), .ok (p, info)) := by
  have hYne : Y ≠ [] := by
    rintro rfl
    exact hX (List.length_eq_zero_iff.1 hl)
  obtain ⟨Y', hY', hl', hYd, ⟨b, hb⟩⟩ : ∃ Y', (if bo.normalize_Y = true then Rounded.normalizeMinMax fl Y
      else .ok Y) = .ok Y' ∧ Y'.length = Y.length ∧ (∀ y ∈ Y', y ∈ Double) ∧ ∃ b, IsBest Y' b := by
    have key : ∀ Y' : List ℝ, (if bo.normalize_Y = true then Rounded.normalizeMinMax fl Y else .ok Y) = .ok Y' →
        Y'.length = Y.length → (∀ y ∈ Y', y ∈ Double) → ∃ Y', (if bo.normalize_Y = true then
          Rounded.normalizeMinMax fl Y else .ok Y) = .ok Y' ∧ Y'.length = Y.length ∧ (∀ y ∈ Y', y ∈ Double) ∧
          ∃ b, IsBest Y' b := by
      intro Y' h1 h2 h3
      obtain ⟨b, hb⟩ := npMin_exists (l := Y') (by
        rintro rfl
        exact hYne (List.length_eq_zero_iff.1 h2.symm))
      exact ⟨Y', h1, h2, h3, b, npMin_ok.1 hb⟩
    by_cases hnorm : bo.normalize_Y = true
    · simp only [hnorm, if_true] at key ⊢
      obtain ⟨mx, h1⟩ := npMax_exists hYne
      obtain ⟨mn, h2⟩ := npMin_exists hYne
      have h3 : ∃ Y', Rounded.normalizeMinMax fl Y = .ok Y' ∧ Y'.length = Y.length := by
        unfold Rounded.normalizeMinMax
        simp only [h1, h2, bind, Except.bind]
        split
        · exact ⟨_, rfl, by simp⟩
        · exact ⟨_, rfl, rfl⟩
      obtain ⟨Y', h3, h4⟩ := h3
      exact key Y' h3 h4 (normalized_double hf hY h3)
    · simp only [hnorm, if_false, Bool.false_eq_true] at key ⊢
      exact key Y rfl rfl hY
  have hXY : X.length = Y'.length := hl.trans hl'.symm
  obtain ⟨trees, k1, k2, k3, k4⟩ := treesStep_forest hf ho hd hd53 hsur hr hX hXY hn
  obtain ⟨M, hM0, hM⟩ : ∃ M : ℝ, (2 : ℝ) ^ (-500 : ℤ) ≤ M ∧ ∀ y ∈ Y', |y| ≤ M := by
    have h0 : ∀ a ∈ Y'.map fun y => |y|, (0 : ℝ) ≤ a := by
      intro a ha
      obtain ⟨y, -, rfl⟩ := List.mem_map.1 ha
      exact abs_nonneg y
    refine ⟨(2 : ℝ) ^ (-500 : ℤ) + (Y'.map fun y => |y|).sum, ?_, fun y hy => ?_⟩
    · linarith [List.sum_nonneg h0]
    · have h1 := List.single_le_sum h0 |y| (List.mem_map_of_mem hy)
      have h2 : (0 : ℝ) < (2 : ℝ) ^ (-500 : ℤ) := by positivity
      linarith
  obtain ⟨mean, dev, mean', dev', hpred⟩ := treesStep_predictions hf ho k3 k2 k4 hn hYd hM0 hM
  obtain ⟨pts, s1, s2⟩ := roundedSamples_returns (fl := fl) (B := bo.range_X) (r := orc.draws) hsm hg hns
  have s3 : ∀ q ∈ pts, InBox bo.range_X q := C103_in_box hf bo.range_X hB orc.draws hdr sm ns
    (fun e => absurd e hg) pts s1
  have hM' : 0 ≤ M := le_trans (by positivity) hM0
  obtain ⟨κ, hκ⟩ : ∃ κ, κ = 2 * Real.log (Y'.length + 1) := ⟨_, rfl⟩
  have hκ0 : 0 ≤ κ := by
    rw [hκ]
    have := Real.log_nonneg (show (1 : ℝ) ≤ (Y'.length : ℝ) + 1 by
      linarith [Nat.cast_nonneg (α := ℝ) Y'.length])
    linarith
  obtain ⟨f, hch, hval⟩ : ∃ f, RoundedChoice.chooseFunAcquisition fl cdf pdf lg bo.str_acq
      (some (fl GP_NOISE)) = .ok f ∧ ∀ x, ∃ v, f [mean' x] [dev' x] Y' = .ok [v] := by
    by_cases hpi : bo.str_acq = "pi"
    · refine ⟨fun m s Y => RoundedAcquisition.pi fl cdf m s Y (fl JITTER_ACQ), ?_, fun x =>
        pi_single hf hb (hpred x).2.2.1.2.2⟩
      simp [RoundedChoice.chooseFunAcquisition, hpi, pyAssert, ALLOWED_BO_ACQ, bind, Except.bind, pure,
        Except.pure]
    · obtain ⟨f, hch, hval⟩ := value_near (Y := Y') (b := b) (κ := κ) (σ := fl GP_NOISE) (w := 0)
        (em := ((X.length : ℝ) + 109) / 2 ^ 51 * M) (es := √(10 * ((X.length : ℝ) + 109) / 2 ^ 52) * M)
        (D := (3 + κ) * M) (noise := some (fl GP_NOISE)) hacq hf hη hη1 hc hp hlg hYd hb
        (lt_of_le_of_lt (hXY ▸ hn) (by norm_num)) hκ (fun _ => ⟨rfl, noise_literal hf⟩) fun h => absurd h hpi
      refine ⟨f, hch, fun x => ?_⟩
      obtain ⟨q1, -, ⟨q3, q4, q5⟩, ⟨q6, q7, q8⟩, q9, q10⟩ := hpred x
      have hbM := hM b hb.1
      have hκs := mul_le_mul_of_nonneg_left q8 hκ0
      have hκM := mul_nonneg hκ0 hM'
      obtain ⟨v, v1, -⟩ := hval (mean x) (dev x) (mean' x) (dev' x) q3 q4 q5 q6 q9 q10
        (by
          have := abs_sub b (mean x)
          linarith) (by linarith) fun h => absurd h hpi
      exact ⟨v, v1⟩
  choose v hv using hval
  have hcomp := treesStep_values (bo := bo) hXY s2 (fun x => (hpred x).2.1) hch fun x _ => hv x
  obtain ⟨i, hi⟩ := npArgmin_exists (l := ((pts.map fun x => fl (v x * 10)).map (-1 * ·)).map Flt.fin)
    (by simpa using s2)
  have hilt : i < pts.length := by
    have : i < (((pts.map fun x => fl (v x * 10)).map (-1 * ·)).map Flt.fin).length := by
      rcases npArgmin_spec hi with ⟨h, -⟩ | ⟨⟨v, h, -⟩, -⟩
      · exact (List.getElem?_eq_some_iff.1 h).1
      · exact (List.getElem?_eq_some_iff.1 h).1
    simpa using this
  have hidx : pyIndex pts i = .ok pts[i] := by
    simp [pyIndex, List.getElem?_eq_getElem hilt]
  refine ⟨pts[i],
    { next_points := pts
      acquisitions := (pts.map fun x => fl (v x * 10)).map (-1 * ·)
      Y_original := Y
      Y_normalized := Y'
      trees := trees
      time_surrogate := fl (clock (t + 2) - clock (t + 1))
      time_acq := fl (clock (t + 4) - clock (t + 3))
      time_overall := fl (clock (t + 5) - clock t) }, ?_⟩
  unfold RoundedTreesStep.optimize
  rw [lift_bind (assert_true hl), lift_bind (assert_true hns), lift_bind (assert_true hsm),
    now_bind, lift_bind hY', now_bind, lift_bind k1, now_bind, now_bind, lift_bind s1,
    lift_bind (inBounds_total s3), lift_bind hcomp, lift_bind hi, lift_bind hidx, now_bind,
    now_bind]
  rfl

private theorem typical_sizes {n : ℕ} (hn : n ≤ 1000) :
    0 ≤ 2 * Real.log ((n : ℝ) + 1) ∧ 2 * Real.log ((n : ℝ) + 1) ≤ 14 ∧
      ((n : ℝ) + 109) / 2 ^ 51 * 10 ≤ 1 / 10 ^ 10 ∧
      √(10 * ((n : ℝ) + 109) / 2 ^ 52) * 10 ≤ 16 / 10 ^ 6 := by
  have hn' : (n : ℝ) ≤ 1000 := by exact_mod_cast hn
  have hn0 : (0 : ℝ) ≤ n := Nat.cast_nonneg n
  refine ⟨?_, ?_, ?_, ?_⟩
  · have := Real.log_nonneg (show (1 : ℝ) ≤ (n : ℝ) + 1 by linarith)
    linarith
  · have h1 : Real.log ((n : ℝ) + 1) ≤ 7 := by
      rw [Real.log_le_iff_le_exp (by linarith)]
      have h2 : (1001 : ℝ) ≤ (2.7182818283 : ℝ) ^ 7 := by norm_num
      have h3 : (2.7182818283 : ℝ) ^ 7 ≤ Real.exp 1 ^ 7 :=
        pow_le_pow_left₀ (by norm_num) Real.exp_one_gt_d9.le 7
      have h4 : Real.exp 1 ^ 7 = Real.exp 7 := by
        rw [← Real.exp_nat_mul]
        norm_num
      linarith
    linarith
  · rw [div_mul_eq_mul_div, div_le_iff₀ (by norm_num)]
    norm_num
    linarith
  · have h1 : √(10 * ((n : ℝ) + 109) / 2 ^ 52) ≤ 16 / 10 ^ 7 := by
      refine Real.sqrt_le_iff.2 ⟨by norm_num, ?_⟩
      rw [div_le_iff₀ (by norm_num)]
      norm_num
      linarith
    linarith

/-- C160, a case with numbers: up to a thousand responses that are not all the same and are normalised, library
functions with relative error `2 ** -40`, and expected improvement, confidence bounds, exploitation or
exploration: the value of the chosen point is within `0.001` of the largest one. The best normalised response is
zero. -/
theorem C160_typical (hf : Nearest fl) (ho : SumsAll o) (hc : CdfWithin (1 / 2 ^ 40) cdf)
    (hp : PdfWithin (1 / 2 ^ 40) pdf) (hlg : LogWithin (1 / 2 ^ 40) lg) (hd : 0 < d) (hd53 : d < 2 ^ 53)
    (hr : ForestRndOk orc.forest true) (hn : X.length ≤ 1000) (hY : ∀ y ∈ Y, y ∈ Double)
    (hY2 : ∃ a ∈ Y, ∃ b ∈ Y, a < b) (hnorm : bo.normalize_Y = true)
    (hacq : bo.str_acq ∈ ["ei", "ucb", "pure_exploit", "pure_explore"])
    (h : RoundedTreesStep.optimize fl cdf pdf lg o bo orc clock X Y sm ns (st, t) = (r, .ok (p, info))) :
    ∃ mean dev : Point d → ℝ, (∀ x, Trees.predictByTreesOne x info.trees = .ok (mean x, dev x)) ∧
      NearBest (fun x => acqMeaning bo.str_acq 0 (2 * Real.log (X.length + 1)) (fl GP_NOISE) (mean x) (dev x))
        info.next_points (1 / 1000) p := by
  obtain ⟨-, -, -, -, e0, -⟩ := treesStep_ok h
  rw [if_pos hnorm] at e0
  obtain ⟨a, ha, b, hb, hab⟩ := hY2
  have hYne : Y ≠ [] := List.ne_nil_of_mem ha
  obtain ⟨hi, h1⟩ := npMax_exists hYne
  obtain ⟨lo, h2⟩ := npMin_exists hYne
  have h1' := npMax_ok.1 h1
  have h2' := npMin_ok.1 h2
  obtain ⟨out, k1, k2, k3, -⟩ := C104_normalize hf Y hY lo hi h2' h1'
    (lt_of_le_of_lt (h2'.2 a ha) (lt_of_lt_of_le hab (h1'.2 b hb)))
  have hout : out = info.Y_normalized := Except.ok.inj (k1.symm.trans e0)
  have hrange : ∀ v ∈ info.Y_normalized, 0 ≤ v ∧ v ≤ 10 := by
    intro v hv
    obtain ⟨i, hi'⟩ := List.mem_iff_getElem?.1 hv
    rw [← hout] at hi'
    have hlt : i < Y.length := by
      have := (List.getElem?_eq_some_iff.1 hi').1
      omega
    obtain ⟨q1, q2, -⟩ := k3 i _ v (List.getElem?_eq_getElem hlt) hi'
    exact ⟨q1, q2⟩
  have hbest : IsBest info.Y_normalized 0 := by
    refine ⟨?_, fun v hv => (hrange v hv).1⟩
    obtain ⟨i, hi'⟩ := List.mem_iff_getElem?.1 h2'.1
    have hlt : i < out.length := by
      have := (List.getElem?_eq_some_iff.1 hi').1
      omega
    have := (k3 i lo _ hi' (List.getElem?_eq_getElem hlt)).2.2.2.1 rfl
    rw [← hout, ← this]
    exact List.getElem_mem hlt
  have hall : bo.str_acq ∈ ALLOWED_BO_ACQ := by
    simp only [List.mem_cons, List.not_mem_nil, or_false] at hacq
    rcases hacq with e | e | e | e <;> rw [e] <;> simp [ALLOWED_BO_ACQ]
  obtain ⟨mean, dev, m1, m2, m3⟩ := C160_choice (M := 10) (w := 0) hf ho (by positivity) (by norm_num) hc hp hlg hd
    hd53 hr (hn.trans (by norm_num)) hY hall h
    ((zpow_le_one_of_nonpos₀ (by norm_num) (by norm_num)).trans (by norm_num))
    (fun v hv => abs_le.2 ⟨by linarith [(hrange v hv).1], (hrange v hv).2⟩) hbest rfl rfl rfl rfl (by
      intro e
      rw [e] at hacq
      simp at hacq) rfl
  refine ⟨mean, dev, m1, m2, fun y hy => (m3 y hy).trans (add_le_add le_rfl ?_)⟩
  obtain ⟨s1, s2, s3, s4⟩ := typical_sizes hn
  have s5 : 0 ≤ √(10 * ((X.length : ℝ) + 109) / 2 ^ 52) * 10 := by positivity
  have s6 : 0 ≤ ((X.length : ℝ) + 109) / 2 ^ 51 * 10 := by positivity
  have t0 : ∀ k : ℤ, k ≤ -100 → (2 : ℝ) ^ k ≤ 1 / 10 ^ 10 ∧ 0 ≤ (2 : ℝ) ^ k := by
    intro k hk
    have h1 : (2 : ℝ) ^ k ≤ (2 : ℝ) ^ (-100 : ℤ) := zpow_le_zpow_right₀ (by norm_num) hk
    refine ⟨h1.trans ?_, by positivity⟩
    norm_num
  have t1 := t0 (-1073) (by norm_num)
  have t2 := t0 (-1074) (by norm_num)
  have t3 := t0 (-1075) (by norm_num)
  generalize ((X.length : ℝ) + 109) / 2 ^ 51 * 10 = em at *
  generalize √(10 * ((X.length : ℝ) + 109) / 2 ^ 52) * 10 = es at *
  generalize 2 * Real.log ((X.length : ℝ) + 1) = κ at *
  have u1 := mul_le_mul s2 s4 s5 (by norm_num : (0 : ℝ) ≤ 14)
  have u2 := mul_nonneg s1 s5
  simp only [List.mem_cons, List.not_mem_nil, or_false] at hacq
  rcases hacq with e | e | e | e <;> rw [e] <;> simp only [acqError, String.reduceEq, if_true, if_false]
  · generalize (2 : ℝ) ^ (-1073 : ℤ) = τ₁ at t1 ⊢
    generalize (2 : ℝ) ^ (-1075 : ℤ) = τ₃ at t3 ⊢
    clear u1 u2 m3 m1 m2 k1 k2 k3 t2 t0
    norm_num at s2 s3 s4 t1 t3 ⊢
    linarith
  · have u3 := mul_le_mul t2.1 (show 1 + (3 + κ) * 10 + es ≤ 172 by linarith) (by linarith)
      (by norm_num : (0 : ℝ) ≤ 1 / 10 ^ 10)
    generalize (2 : ℝ) ^ (-1074 : ℤ) * (1 + (3 + κ) * 10 + es) = τ₂ at u3 ⊢
    generalize (2 : ℝ) ^ (-1075 : ℤ) = τ₃ at t3 ⊢
    generalize κ * es = z at u1 u2 ⊢
    clear m3 m1 m2 k1 k2 k3 t2 t0 t1
    norm_num at s2 s3 s4 t3 u1 u3 ⊢
    linarith
  · generalize (2 : ℝ) ^ (-1075 : ℤ) = τ₃ at t3 ⊢
    clear u1 u2 m3 m1 m2 k1 k2 k3 t2 t0 t1
    norm_num at s2 s3 s4 t3 ⊢
    linarith
  · generalize (2 : ℝ) ^ (-1075 : ℤ) = τ₃ at t3 ⊢
    clear u1 u2 m3 m1 m2 k1 k2 k3 t2 t0 t1
    norm_num at s2 s3 s4 t3 ⊢
    linarith

end

private noncomputable def rfBo (str_acq : String) : BaseBO 2 :=
  { range_X := fun _ => (-5, 5)
    str_surrogate := "rf"
    str_acq := str_acq
    str_optimizer_method_bo := "random_search"
    normalize_Y := true }

private noncomputable def rfOracles : TreesOracles 2 :=
  { forest := ⟨fun _ _ k => List.replicate k 0, fun _ _ => firstRnd 2⟩
    draws := ⟨fun _ => 1 / 2, fun _ => 0, fun _ _ => 1 / 4, fun _ _ => 3 / 4⟩ }

/-- C160: three responses in two dimensions, sampled candidates, and each of the four acquisition functions: the
step returns and its choice is close to the best one. -/
example : ∃ (fl cdf pdf lg : ℝ → ℝ), Nearest fl ∧ ∀ acq ∈ ["ei", "ucb", "pure_exploit", "pure_explore"],
    ∃ p info, RoundedTreesStep.optimize fl cdf pdf lg ⟨inTurn, inTurn⟩ (rfBo acq) rfOracles (fun _ => 0)
        [![1, 2], ![0, -1], ![3, 3]] [3, 4, 9] "sobol" 100 ((), 0) = (((), 6), .ok (p, info)) ∧
      ∃ mean dev : Point 2 → ℝ, NearBest (fun x => acqMeaning acq 0 (2 * Real.log ((3 : ℕ) + 1)) (fl GP_NOISE)
        (mean x) (dev x)) info.next_points (1 / 1000) p := by
  have hf := roundAway_nearest
  have hcd : CdfWithin (1 / 2 ^ 40) fun x => roundAway (Acquisition.normCdf x) := by
    have h := cdfWithin_round hf
    exact ⟨h.nonneg, h.le_one, fun x => (h.near x).trans (by norm_num)⟩
  have hpd : PdfWithin (1 / 2 ^ 40) fun x => roundAway (Acquisition.normPdf x) :=
    fun x => (pdfWithin_round hf x).trans (by norm_num)
  have hlg : LogWithin (1 / 2 ^ 40) fun x => roundAway (Real.log x) := fun n =>
    (logWithin_round hf n).trans (mul_le_mul_of_nonneg_right (by norm_num)
      (Real.log_nonneg (by linarith [Nat.cast_nonneg (α := ℝ) n])))
  have hnat : ∀ n : ℕ, n < 2 ^ 53 → (n : ℝ) ∈ Double := fun n hn => double_nat hn
  have hY : ∀ y ∈ ([3, 4, 9] : List ℝ), y ∈ Double := by
    intro y hy
    simp only [List.mem_cons, List.not_mem_nil, or_false] at hy
    rcases hy with rfl | rfl | rfl
    · simpa using hnat 3 (by norm_num)
    · simpa using hnat 4 (by norm_num)
    · simpa using hnat 9 (by norm_num)
  have hr : ForestRndOk rfOracles.forest true := ⟨fun _ => ⟨by simp [rfOracles], fun n k hk _ i hi => by
    simp [rfOracles] at hi
    omega, fun h => absurd h (by simp)⟩, fun _ _ => firstRnd_ok 2⟩
  have hB : ∀ acq, DoubleBox (rfBo acq).range_X := fun acq i =>
    ⟨⟨-5, 0, by norm_num, by norm_num, by simp [rfBo]⟩, ⟨5, 0, by norm_num, by norm_num, by simp [rfBo]⟩,
      by simp [rfBo]⟩
  have hdr : DoubleDraws rfOracles.draws := by
    refine ⟨fun k => ⟨⟨1, -1, by norm_num, by norm_num, by norm_num [rfOracles]⟩, by norm_num [rfOracles],
      by norm_num [rfOracles]⟩, fun k j => ⟨⟨1, -2, by norm_num, by norm_num, by norm_num [rfOracles]⟩,
      by norm_num [rfOracles], by norm_num [rfOracles]⟩, fun k j => ⟨⟨3, -2, by norm_num, by norm_num,
      by norm_num [rfOracles]⟩, by norm_num [rfOracles], by norm_num [rfOracles]⟩⟩
  refine ⟨roundAway, fun x => roundAway (Acquisition.normCdf x), fun x => roundAway (Acquisition.normPdf x),
    fun x => roundAway (Real.log x), hf, fun acq hacq => ?_⟩
  have hall : acq ∈ ALLOWED_BO_ACQ := by
    simp only [List.mem_cons, List.not_mem_nil, or_false] at hacq
    rcases hacq with rfl | rfl | rfl | rfl <;> simp [ALLOWED_BO_ACQ]
  obtain ⟨p, info, h⟩ := C160_returns (σ := Unit) (bo := rfBo acq) (orc := rfOracles) (sm := "sobol") (ns := 100)
    (X := [![1, 2], ![0, -1], ![3, 3]]) (Y := [3, 4, 9]) hf inTurn_sumsAll (by norm_num) (by norm_num) hcd hpd hlg
    (by norm_num) (by norm_num) hr (by simp) rfl (by norm_num) hY rfl hall (hB acq) hdr (fun _ => 0)
    (by simp [ALLOWED_SAMPLING_METHOD, ALLOWED_INITIALIZING_METHOD_BO]) (by simp) (by norm_num) () 0
  obtain ⟨mean, dev, -, h2⟩ := C160_typical hf inTurn_sumsAll hcd hpd hlg (by norm_num) (by norm_num) hr
    (by norm_num) hY ⟨3, by simp, 4, by simp, by norm_num⟩ rfl hacq h
  exact ⟨p, info, h, mean, dev, h2⟩

end Verif.Props
