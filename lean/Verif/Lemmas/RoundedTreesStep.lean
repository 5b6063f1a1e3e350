import Verif.Model.RoundedTreesStep
import Verif.Lemmas.RoundedValues
import Verif.Lemmas.StepTrace
import Verif.Lemmas.StepTotal
import Verif.Props.RoundedForest

/-! # A step with random forests in double precision (lemmas for C160) -/

namespace Verif.Lemmas

open Verif.Spec Verif.Constants Verif.UtilsBo Verif.BaseBo Verif.BoCommon Verif.Acquisition Verif.BoWTrees
open Verif.Trees (Tree ForestRnd)
open Verif.RoundedTrees (Orders)

variable {fl cdf pdf lg : ℝ → ℝ} {o : Orders} {d : ℕ}

theorem zipWith_maps {α : Type*} (g : ℝ → ℝ → ℝ) (m s : α → ℝ) (l : List α) :
    List.zipWith g (l.map m) (l.map s) = l.map fun x => g (m x) (s x) := by
  induction l with
  | nil => rfl
  | cons a t ih => simp [ih]

/-- Acquisition functions treat candidates one by one. -/
theorem acq_rows {acq : String} {noise : Option ℝ} {f : AcqFun}
    (hf : RoundedChoice.chooseFunAcquisition fl cdf pdf lg acq noise = .ok f) {α : Type*} {l : List α}
    (hl : l ≠ []) {m s v : α → ℝ} {Y : List ℝ} (h : ∀ x ∈ l, f [m x] [s x] Y = .ok [v x]) :
    f (l.map m) (l.map s) Y = .ok (l.map v) := by
  obtain ⟨a, ha⟩ := List.exists_mem_of_ne_nil l hl
  unfold RoundedChoice.chooseFunAcquisition at hf
  obtain ⟨_, -, hf⟩ := py_bind_ok hf
  split at hf
  · obtain rfl := Except.ok.inj hf
    have hY := h a ha
    cases hb : npMin Y with
    | error e => simp [RoundedAcquisition.pi, pyAssert, bind, Except.bind, hb] at hY
    | ok b =>
      have k : ∀ x ∈ l, fl (s x + fl JITTER_ACQ) ≠ 0 ∧ 
          v x = cdf (RoundedAcquisition.valZ fl b (fl JITTER_ACQ) (m x) (s x)) := by
        intro x hx
        have := h x hx
        by_cases h0 : fl (s x + fl JITTER_ACQ) = 0
        · simp [RoundedAcquisition.pi, pyAssert, bind, Except.bind, hb, guardDiv, h0] at this
        have h1 : ¬ (0 = fl (s x + fl JITTER_ACQ)) := fun e => h0 e.symm
        simp [RoundedAcquisition.pi, pyAssert, bind, Except.bind, hb, guardDiv, h1, pure, Except.pure] at this
        exact ⟨h0, this.symm⟩
      have h0 : (0 : ℝ) ∉ l.map fun x => fl (s x + fl JITTER_ACQ) := by
        simp only [List.mem_map, not_exists, not_and]
        exact fun x hx => (k x hx).1
      simp only [RoundedAcquisition.pi, pyAssert, List.length_map, if_true, bind, Except.bind, hb, guardDiv,
        List.map_map, Function.comp_def, h0, if_false, pure, Except.pure, zipWith_maps, Except.ok.injEq]
      exact List.map_congr_left fun x hx => (k x hx).2.symm
  split at hf
  · obtain rfl := Except.ok.inj hf
    have hY := h a ha
    cases hb : npMin Y with
    | error e => simp [RoundedAcquisition.ei, pyAssert, bind, Except.bind, hb] at hY
    | ok b =>
      have k : ∀ x ∈ l, fl (s x + fl JITTER_ACQ) ≠ 0 ∧ 
          v x = fl (fl (fl (b - m x) * cdf (RoundedAcquisition.valZ fl b (fl JITTER_ACQ) (m x) (s x))) +
            fl (s x * pdf (RoundedAcquisition.valZ fl b (fl JITTER_ACQ) (m x) (s x)))) := by
        intro x hx
        have := h x hx
        by_cases h0 : fl (s x + fl JITTER_ACQ) = 0
        · simp [RoundedAcquisition.ei, pyAssert, bind, Except.bind, hb, guardDiv, h0] at this
        have h1 : ¬ (0 = fl (s x + fl JITTER_ACQ)) := fun e => h0 e.symm
        simp [RoundedAcquisition.ei, pyAssert, bind, Except.bind, hb, guardDiv, h1, pure, Except.pure] at this
        exact ⟨h0, this.symm⟩
      have h0 : (0 : ℝ) ∉ l.map fun x => fl (s x + fl JITTER_ACQ) := by
        simp only [List.mem_map, not_exists, not_and]
        exact fun x hx => (k x hx).1
      simp only [RoundedAcquisition.ei, pyAssert, List.length_map, if_true, bind, Except.bind, hb, guardDiv,
        List.map_map, Function.comp_def, h0, if_false, pure, Except.pure, zipWith_maps, Except.ok.injEq]
      exact List.map_congr_left fun x hx => (k x hx).2.symm
  split at hf
  · obtain rfl := Except.ok.inj hf
    have k : ∀ x ∈ l, v x = fl (-m x + fl (fl (2 * lg (fl ((Y.length : ℝ) + 1))) * s x)) := by
      intro x hx
      have := h x hx
      simp [RoundedAcquisition.ucb, pyAssert, bind, Except.bind, pure, Except.pure] at this
      exact this.symm
    simp only [RoundedAcquisition.ucb, pyAssert, List.length_map, if_true, bind, Except.bind, pure, Except.pure,
      zipWith_maps, Except.ok.injEq]
    exact List.map_congr_left fun x hx => (k x hx).symm
  split at hf
  · cases noise with
    | none => cases hf
    | some n =>
      obtain rfl := Except.ok.inj hf
      have hY := h a ha
      cases hb : npMin Y with
      | error e => simp [RoundedAcquisition.aei, pyAssert, bind, Except.bind, hb] at hY
      | ok b =>
        have k : ∀ x ∈ l, fl (s x + fl JITTER_ACQ) ≠ 0 ∧ fl √(fl (fl (s x ^ 2) + fl (n ^ 2))) ≠ 0 ∧
            v x = fl (fl (fl (fl (b - m x) * cdf (RoundedAcquisition.valZ fl b (fl JITTER_ACQ) (m x) (s x))) +
              fl (s x * pdf (RoundedAcquisition.valZ fl b (fl JITTER_ACQ) (m x) (s x)))) *
              fl (1 - fl (n / fl √(fl (fl (s x ^ 2) + fl (n ^ 2)))))) := by
          intro x hx
          have := h x hx
          by_cases h0 : fl (s x + fl JITTER_ACQ) = 0
          · simp [RoundedAcquisition.aei, pyAssert, bind, Except.bind, hb, guardDiv, h0] at this
          have h1 : ¬ (0 = fl (s x + fl JITTER_ACQ)) := fun e => h0 e.symm
          by_cases h2 : fl √(fl (fl (s x ^ 2) + fl (n ^ 2))) = 0
          · simp [RoundedAcquisition.aei, pyAssert, bind, Except.bind, hb, guardDiv, h1, h2] at this
          have h3 : ¬ (0 = fl √(fl (fl (s x ^ 2) + fl (n ^ 2)))) := fun e => h2 e.symm
          simp [RoundedAcquisition.aei, pyAssert, bind, Except.bind, hb, guardDiv, h1, h3, pure, Except.pure] at this
          exact ⟨h0, h2, this.symm⟩
        have h0 : (0 : ℝ) ∉ l.map fun x => fl (s x + fl JITTER_ACQ) := by
          simp only [List.mem_map, not_exists, not_and]
          exact fun x hx => (k x hx).1
        have h4 : (0 : ℝ) ∉ l.map fun x => fl √(fl (fl (s x ^ 2) + fl (n ^ 2))) := by
          simp only [List.mem_map, not_exists, not_and]
          exact fun x hx => (k x hx).2.1
        simp only [RoundedAcquisition.aei, pyAssert, List.length_map, if_true, bind, Except.bind, hb, guardDiv,
          List.map_map, Function.comp_def, h0, h4, if_false, pure, Except.pure, zipWith_maps, Except.ok.injEq]
        exact List.map_congr_left fun x hx => (k x hx).2.2.symm
  split at hf
  · obtain rfl := Except.ok.inj hf
    have k : ∀ x ∈ l, v x = -m x := by
      intro x hx
      have := h x hx
      simp [pureExploit, pure, Except.pure] at this
      exact this.symm
    simp only [pureExploit, List.map_map, Function.comp_def, pure, Except.pure, Except.ok.injEq]
    exact List.map_congr_left fun x hx => (k x hx).symm
  split at hf
  · obtain rfl := Except.ok.inj hf
    have k : ∀ x ∈ l, v x = s x := by
      intro x hx
      have := h x hx
      simp [pureExplore, pure, Except.pure] at this
      exact this.symm
    simp only [pureExplore, pure, Except.pure, Except.ok.injEq]
    exact List.map_congr_left fun x hx => (k x hx).symm
  · cases hf

/-- What a step that returns has done. -/
theorem treesStep_ok {σ : Type} {bo : BaseBO d} {orc : TreesOracles d} {clock : ℕ → ℝ} {X : List (Point d)}
    {Y : List ℝ} {sm : String} {ns : ℤ} {st : σ} {t : ℕ} {r : σ × ℕ} {p : Point d} {info : DictInfoTrees d}
    (h : RoundedTreesStep.optimize fl cdf pdf lg o bo orc clock X Y sm ns (st, t) = (r, .ok (p, info))) :
    X.length = Y.length ∧ 0 < ns ∧ sm ∈ ALLOWED_SAMPLING_METHOD ∧ info.Y_original = Y ∧
    (if bo.normalize_Y = true then Rounded.normalizeMinMax fl Y else .ok Y) = .ok info.Y_normalized ∧
    RoundedTreesStep.getTrees fl o bo orc.forest X info.Y_normalized = .ok info.trees ∧
    r = (st, t + 6) ∧
    Rounded.getSamples fl bo.range_X orc.draws sm ns = .ok info.next_points ∧
    (∀ q ∈ info.next_points, InBox bo.range_X q) ∧
    (∃ a, RoundedTreesStep.computeAcquisitions fl cdf pdf lg o bo info.next_points X info.Y_normalized
        info.trees = .ok a ∧ info.acquisitions = a.map (-1 * ·)) ∧
    (∃ i, npArgmin (info.acquisitions.map Flt.fin) = .ok i ∧ pyIndex info.next_points i = .ok p) ∧
    info.time_surrogate = fl (clock (t + 2) - clock (t + 1)) ∧
    info.time_acq = fl (clock (t + 4) - clock (t + 3)) ∧
    info.time_overall = fl (clock (t + 5) - clock t) := by
  unfold RoundedTreesStep.optimize at h
  obtain ⟨_, s1, a, h⟩ := OptM.bind_ok h
  obtain ⟨a2, rfl⟩ := lift_ok a
  obtain ⟨_, s1, a, h⟩ := OptM.bind_ok h
  obtain ⟨a3, rfl⟩ := lift_ok a
  obtain ⟨_, s1, a, h⟩ := OptM.bind_ok h
  obtain ⟨a4, rfl⟩ := lift_ok a
  obtain ⟨_, s1, a, h⟩ := OptM.bind_ok h
  obtain ⟨rfl, rfl⟩ := now_ok a
  obtain ⟨Y', s1, a, h⟩ := OptM.bind_ok h
  obtain ⟨a6, rfl⟩ := lift_ok a
  obtain ⟨_, s1, a, h⟩ := OptM.bind_ok h
  obtain ⟨rfl, rfl⟩ := now_ok a
  obtain ⟨fit, s1, a, h⟩ := OptM.bind_ok h
  obtain ⟨a8, rfl⟩ := lift_ok a
  obtain ⟨_, s1, a, h⟩ := OptM.bind_ok h
  obtain ⟨rfl, rfl⟩ := now_ok a
  obtain ⟨_, s1, a, h⟩ := OptM.bind_ok h
  obtain ⟨rfl, rfl⟩ := now_ok a
  obtain ⟨pts', s1, a, h⟩ := OptM.bind_ok h
  obtain ⟨a9, rfl⟩ := lift_ok a
  obtain ⟨pts, s1, a, h⟩ := OptM.bind_ok h
  obtain ⟨a11, rfl⟩ := lift_ok a
  obtain ⟨acqs, s1, a, h⟩ := OptM.bind_ok h
  obtain ⟨a12, rfl⟩ := lift_ok a
  obtain ⟨i, s1, a, h⟩ := OptM.bind_ok h
  obtain ⟨a13, rfl⟩ := lift_ok a
  obtain ⟨q, s1, a, h⟩ := OptM.bind_ok h
  obtain ⟨a14, rfl⟩ := lift_ok a
  obtain ⟨_, s1, a, h⟩ := OptM.bind_ok h
  obtain ⟨rfl, rfl⟩ := now_ok a
  obtain ⟨_, s1, a, h⟩ := OptM.bind_ok h
  obtain ⟨rfl, rfl⟩ := now_ok a
  obtain ⟨hr, hi⟩ := Prod.mk.inj h
  obtain ⟨rfl, rfl⟩ := Prod.mk.inj (Except.ok.inj hi)
  obtain ⟨rfl, b2⟩ := inBounds_ok a11
  exact ⟨pyAssert_ok a2, pyAssert_ok a3, pyAssert_ok a4, rfl, a6, a8, hr.symm, a9, b2,
    ⟨acqs, a12, rfl⟩, ⟨i, a13, a14⟩, rfl, rfl, rfl⟩

/-- The least entry of ten times computed values, rounded, with the sign changed. -/
theorem argmin_near (hf : Nearest fl) {ps : List (Point d)} {v A : Point d → ℝ} {Δ D : ℝ} {i : ℕ} {x : Point d}
    (hi : npArgmin ((ps.map fun x => -1 * fl (v x * 10)).map Flt.fin) = .ok i) (hx : pyIndex ps i = .ok x)
    (hA : ∀ x ∈ ps, |v x - A x| ≤ Δ) (hD : ∀ x ∈ ps, |v x| ≤ D) :
    NearBest A ps (2 * Δ + 2 / 2 ^ 53 * D + (2 : ℝ) ^ (-1075 : ℤ)) x := by
  have hxi : ps[i]? = some x := by
    unfold pyIndex at hx
    split at hx
    · rename_i z hz
      rw [hz, Except.ok.inj hx]
    · cases hx
  have hxm : x ∈ ps := List.mem_of_getElem? hxi
  refine ⟨hxm, fun y hy => ?_⟩
  rcases npArgmin_spec hi with ⟨h1, -⟩ | ⟨⟨a, h1, h2, -⟩, -⟩
  · simp [hxi] at h1
  obtain ⟨k, hk⟩ := List.mem_iff_getElem?.1 hy
  have h3 := h2 k (.fin (-1 * fl (v y * 10))) (by simp [hk])
  have h4 : a = .fin (-1 * fl (v x * 10)) := by
    simp only [List.getElem?_map, hxi, Option.map_some, Option.some.injEq] at h1
    exact h1.symm
  have h5 : fl (v y * 10) ≤ fl (v x * 10) := by
    rw [h4] at h3
    have : -1 * fl (v x * 10) ≤ -1 * fl (v y * 10) := h3
    linarith
  have e1 := abs_le.1 (fl_error hf (v y * 10))
  have e2 := abs_le.1 (fl_error hf (v x * 10))
  rw [abs_mul, abs_of_pos (by norm_num : (0 : ℝ) < 10)] at e1 e2
  have a1 := abs_le.1 (hA x hxm)
  have a2 := abs_le.1 (hA y hy)
  have d1 := hD x hxm
  have d2 := hD y hy
  have ht : (0 : ℝ) < (2 : ℝ) ^ (-1075 : ℤ) := by positivity
  generalize (2 : ℝ) ^ (-1075 : ℤ) = t at *
  linarith only [h5, e1.1, e1.2, e2.1, e2.2, a1.1, a1.2, a2.1, a2.2, d1, d2, ht]

/-- Computed predictions of a forest are doubles. -/
theorem roundedForest_doubles (hf : Nearest fl) {x : Point d} {trees : List (Tree d)} {m s : ℝ}
    (h : RoundedTrees.predictByTreesOne fl o x trees = .ok (m, s)) : m ∈ Double ∧ s ∈ Double := by
  unfold RoundedTrees.predictByTreesOne at h
  obtain ⟨preds, -, h⟩ := py_bind_ok h
  obtain ⟨mu, h1, h⟩ := py_bind_ok h
  obtain ⟨sg, h2, h⟩ := py_bind_ok h
  obtain ⟨rfl, rfl⟩ := Prod.mk.inj (Except.ok.inj h)
  constructor
  · unfold RoundedTrees.npMean at h1
    split at h1
    · cases h1
    · rw [← Except.ok.inj h1]
      exact hf.mem _
  · unfold RoundedTrees.computeSigma at h2
    obtain ⟨_, -, h2⟩ := py_bind_ok h2
    obtain ⟨_, -, h2⟩ := py_bind_ok h2
    obtain ⟨_, -, h2⟩ := py_bind_ok h2
    rw [← Except.ok.inj h2]
    exact hf.mem _

/-- The number of features is between one and the number of dimensions. -/
theorem features_bounds (hf : Nearest fl) (hd : 0 < d) (hd53 : d < 2 ^ 53) :
    (1 : ℤ) ≤ ⌊fl (Real.sqrt d)⌋ ∧ ⌊fl (Real.sqrt d)⌋ ≤ (d : ℤ) := by
  have hd1 : (1 : ℝ) ≤ d := by exact_mod_cast hd
  have hone : (1 : ℝ) ∈ Double := by simpa using double_nat (show 1 < 2 ^ 53 by norm_num)
  constructor
  · rw [Int.le_floor]
    have := le_fl_of_le hf hone (y := Real.sqrt d) (by simpa using hd1)
    simpa using this
  · have h1 : fl (Real.sqrt d) ≤ d := fl_le_of_le hf (double_nat hd53)
      (Real.sqrt_le_iff.2 ⟨le_trans zero_le_one hd1, by nlinarith⟩)
    have : ⌊fl (Real.sqrt d)⌋ ≤ ⌊(d : ℝ)⌋ := Int.floor_le_floor h1
    simpa using this

/-- The forest of a step. -/
theorem treesStep_forest (hf : Nearest fl) (ho : SumsAll o) (hd : 0 < d) (hd53 : d < 2 ^ 53) {bo : BaseBO d}
    (hsur : bo.str_surrogate = "rf") {rnd : ForestRnd d} (hr : ForestRndOk rnd true) {X : List (Point d)}
    {Y : List ℝ} (hX : X ≠ []) (hl : X.length = Y.length) (hn : X.length ≤ 2 ^ 45) :
    ∃ trees, RoundedTreesStep.getTrees fl o bo rnd X Y = .ok trees ∧ trees.length = 100 ∧
      Props.SoundForest X Y 5 trees ∧ ∀ t ∈ trees, ∀ L ∈ leaves t, L.length ≤ X.length + 1 := by
  obtain ⟨h1, h2⟩ := features_bounds hf hd hd53
  have hpos : (1 : ℝ) ≤ X.length := by exact_mod_cast List.length_pos_iff.2 hX
  have hn' : (X.length : ℝ) ≤ 2 ^ 45 := by exact_mod_cast hn
  obtain ⟨trees, h3, h4, h5, h6⟩ := Props.C137_generic_trees hf ho hr hl hX one_pos (by simp)
    (lt_of_le_of_lt hn (by norm_num)) (by rw [mul_one]; norm_num at hn' ⊢; linarith) (by simpa using hpos) h1 h2 100 5 1 false
  refine ⟨trees, ?_, h4, h5, fun t ht L hL => ?_⟩
  · simp only [RoundedTreesStep.getTrees, pyAssert, hl, hsur, if_true, bind, Except.bind]
    rw [Props.C137_random_forest]
    exact h3
  · have := h6 t ht L hL
    simpa using this

/-- Exact and computed predictions of the forest of a step. -/
theorem treesStep_predictions (hf : Nearest fl) (ho : SumsAll o) {X : List (Point d)} {Y : List ℝ}
    {trees : List (Tree d)} (hs : Props.SoundForest X Y 5 trees) (hlen : trees.length = 100)
    (hleaf : ∀ t ∈ trees, ∀ L ∈ leaves t, L.length ≤ X.length + 1) (hn : X.length ≤ 2 ^ 45)
    (hYd : ∀ y ∈ Y, y ∈ Double) {M : ℝ} (hM0 : (2 : ℝ) ^ (-500 : ℤ) ≤ M) (hM : ∀ y ∈ Y, |y| ≤ M) :
    ∃ mean dev mean' dev' : Point d → ℝ, ∀ x, Trees.predictByTreesOne x trees = .ok (mean x, dev x) ∧
      RoundedTrees.predictByTreesOne fl o x trees = .ok (mean' x, dev' x) ∧
      (mean' x ∈ Double ∧ dev' x ∈ Double ∧ 0 ≤ dev' x) ∧ (0 ≤ dev x ∧ |mean x| ≤ M ∧ dev x ≤ M) ∧
      |mean' x - mean x| ≤ ((X.length : ℝ) + 109) / 2 ^ 51 * M ∧
      |dev' x - dev x| ≤ √(10 * ((X.length : ℝ) + 109) / 2 ^ 52) * M := by
  have hne : trees ≠ [] := by
    rintro rfl
    simp at hlen
  have hn' : (X.length : ℝ) ≤ 35184372088832 := by
    norm_num at hn
    exact_mod_cast hn
  have e : ((X.length + 1 : ℕ) : ℝ) + trees.length + 8 = X.length + 109 := by
    rw [hlen]
    push_cast
    ring
  have key : ∀ x, ∃ m s m' s', Trees.predictByTreesOne x trees = .ok (m, s) ∧
      RoundedTrees.predictByTreesOne fl o x trees = .ok (m', s') ∧
      (m' ∈ Double ∧ s' ∈ Double ∧ 0 ≤ s') ∧ (0 ≤ s ∧ |m| ≤ M ∧ s ≤ M) ∧
      |m' - m| ≤ ((X.length : ℝ) + 109) / 2 ^ 51 * M ∧
      |s' - s| ≤ √(10 * ((X.length : ℝ) + 109) / 2 ^ 52) * M := by
    intro x
    obtain ⟨m, s, m', s', h1, h2, h3, h4, -, h5⟩ := Props.C139_forest hf ho hs hne hYd hM0 hM hleaf (by
      rw [e, div_le_iff₀ (by norm_num)]
      norm_num
      linarith) x
    rw [e] at h3 h5
    obtain ⟨m₁, s₁, k1, k2, k3, k4, k5⟩ := Props.C51_range hs hne (lo := -M) (hi := M)
      (fun y hy => abs_le.1 (hM y hy)) x
    obtain ⟨rfl, rfl⟩ := Prod.mk.inj (Except.ok.inj (k1.symm.trans h1))
    obtain ⟨d1, d2⟩ := roundedForest_doubles hf h2
    exact ⟨_, _, m', s', h1, h2, ⟨d1, d2, h4⟩, ⟨k4, abs_le.2 ⟨k2, k3⟩, by linarith⟩, h3, h5⟩
  choose mean dev mean' dev' h using key
  exact ⟨mean, dev, mean', dev', h⟩

/-- The acquisition values of all candidates from the value at each. -/
theorem treesStep_values {bo : BaseBO d} {X pts : List (Point d)} {Y : List ℝ} {trees : List (Tree d)}
    {mean dev v : Point d → ℝ} {f : AcqFun} (hl : X.length = Y.length) (hps : pts ≠ [])
    (hpred : ∀ x, RoundedTrees.predictByTreesOne fl o x trees = .ok (mean x, dev x))
    (hch : RoundedChoice.chooseFunAcquisition fl cdf pdf lg bo.str_acq (some (fl GP_NOISE)) = .ok f)
    (hv : ∀ x ∈ pts, f [mean x] [dev x] Y = .ok [v x]) :
    RoundedTreesStep.computeAcquisitions fl cdf pdf lg o bo pts X Y trees =
      .ok (pts.map fun x => fl (v x * 10)) := by
  have h1 : pts.mapM (fun x => RoundedTrees.predictByTreesOne fl o x trees) =
      .ok (pts.map fun x => (mean x, dev x)) := Trees.mapM_ok _ _ _ fun x _ => hpred x
  have h2 : RoundedTrees.predictByTrees fl o pts trees = .ok (pts.map mean, pts.map dev) := by
    rw [Props.C139_rowwise, h1]
    simp [bind, Except.bind, pure, Except.pure, Function.comp_def]
  have h3 := acq_rows hch hps hv
  simp [RoundedTreesStep.computeAcquisitions, RoundedTreesStep.computePosteriors, pyAssert, hl, hch, h2, h3, bind,
    Except.bind, pure, Except.pure, Function.comp_def, MULTIPLIER_ACQ]

/-- The noise for augmented expected improvement. -/
theorem noise_literal (hf : Nearest fl) : (2 : ℝ) ^ (-400 : ℤ) ≤ fl GP_NOISE := by
  refine le_fl_of_le hf ⟨1, -400, by norm_num, by norm_num, by simp⟩ ?_
  have h1 : (2 : ℝ) ^ (-400 : ℤ) ≤ (2 : ℝ) ^ (-7 : ℤ) := zpow_le_zpow_right₀ (by norm_num) (by norm_num)
  refine h1.trans ?_
  norm_num [GP_NOISE]

/-- The probability of improvement at one point can be computed. -/
theorem pi_single (hf : Nearest fl) {Y : List ℝ} {b m s : ℝ} (hb : Props.IsBest Y b) (hs : 0 ≤ s) :
    ∃ v, RoundedAcquisition.pi fl cdf [m] [s] Y (fl JITTER_ACQ) = .ok [v] := by
  obtain ⟨hjd, hj0, -, -⟩ := jitter_double hf
  have h1 : fl JITTER_ACQ ≤ fl (s + fl JITTER_ACQ) := le_fl_of_le hf hjd (by linarith)
  have h2 : ¬ (0 = fl (s + fl JITTER_ACQ)) := fun e => by linarith
  simp [RoundedAcquisition.pi, pyAssert, bind, Except.bind, npMin_ok.2 hb, guardDiv, h2, pure, Except.pure]

end Verif.Lemmas
