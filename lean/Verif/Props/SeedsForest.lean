import Verif.Props.Seeds
import Verif.Props.ForestShape

/-! C92 for random forests: a witness that the seed does not fix the proposal. -/

namespace Verif.Props

open Verif.Spec Verif.Trees Verif.Lemmas Verif.BaseBo Verif.Seeds Verif.Constants
  Verif.BoCommon

/-- Every tree draws all rows, in their order. -/
private def allRnd (d : ℕ) : ForestRnd d :=
  ⟨fun _ n k => (List.range k).map (· % n), fun _ _ => firstRnd d⟩

private theorem allRnd_ok (d : ℕ) : ForestRndOk (allRnd d) true :=
  ⟨fun _ => ⟨by simp [allRnd], fun n k hn _ i hi => by
      obtain ⟨j, _, rfl⟩ := List.mem_map.1 hi
      exact Nat.mod_lt _ hn, by simp⟩, fun _ _ => firstRnd_ok d⟩

/-- Every tree draws the first row only. -/
private def firstRowRnd (d : ℕ) : ForestRnd d :=
  ⟨fun _ _ k => List.replicate k 0, fun _ _ => firstRnd d⟩

private theorem firstRowRnd_ok (d : ℕ) : ForestRndOk (firstRowRnd d) true :=
  ⟨fun _ => ⟨by simp [firstRowRnd], fun n k hn _ i hi => by
      rw [(List.mem_replicate.1 hi).2]; exact hn, by simp⟩, fun _ _ => firstRnd_ok d⟩

private def rowsX : List (Point 1) := [fun _ => 0, fun _ => 8]

private theorem all_predict : ∃ trees,
    getRandomForest (allRnd 1) rowsX [0, 10] 100 5 1 1 = .ok trees ∧
      predictByTrees [fun _ => 8, fun _ => 0] trees = .ok ([10, 0], [0, 0]) := by
  obtain ⟨trees, ht, h⟩ := C136_training (allRnd_ok 1) (X := rowsX) (Y := [0, 10]) (by simp [rowsX])
    (by simp [rowsX]) one_pos (by simp) (by simp [rowsX]) le_rfl (by norm_num) (num := 100)
    (by norm_num) (dm := 5) (by intro f; simp [rowsX]) (sm := 1) le_rfl (by simp [rowsX])
    (lo := 0) (hi := 10) (by
      intro y hy
      fin_cases hy <;> norm_num)
  rw [← C94_random_forest] at ht
  have hz : ∀ i < 2, missedBy (allRnd 1) 100 rowsX.length ⌊(rowsX.length : ℝ) * 1⌋₊ i = 0 := by
    intro i hi
    rw [mul_one, Nat.floor_natCast, missedBy, List.length_eq_zero_iff, List.filter_eq_nil_iff]
    intro k _ hk
    interval_cases i <;> simp [allRnd, rowsX, List.range_succ] at hk
  have hone : ∀ (i : ℕ) (x : Point 1) (y : ℝ), i < 2 → rowsX[i]? = some x →
      ([0, 10] : List ℝ)[i]? = some y → predictByTreesOne x trees = .ok (y, 0) := by
    intro i x y hi hx hy
    obtain ⟨mu, sd, hp, hsd, h2, h3⟩ := h i x y hx hy
    rw [hz i hi, Nat.cast_zero, zero_div, zero_mul] at h2 h3
    have h2 := abs_nonpos_iff.1 h2
    have h3 : sd = 0 := by nlinarith
    rw [hp, h3, sub_eq_zero.1 h2]
  refine ⟨trees, ht, ?_⟩
  rw [C52_rowwise, List.mapM_cons, hone 1 (fun _ => 8) 10 (by norm_num) rfl rfl, List.mapM_cons,
    hone 0 (fun _ => 0) 0 (by norm_num) rfl rfl]
  rfl

private theorem first_predict : ∃ trees,
    getRandomForest (firstRowRnd 1) rowsX [0, 10] 100 5 1 1 = .ok trees ∧
      predictByTrees [fun _ => 8, fun _ => 0] trees = .ok ([0, 0], [0, 0]) := by
  obtain ⟨T, ht, hg⟩ := generic_grown (firstRowRnd_ok 1) (X := rowsX) (Y := [0, 10]) (by simp [rowsX])
    (by simp [rowsX]) one_pos (by simp) (by simp [rowsX]) le_rfl (by norm_num) 100 5 1 false
  obtain ⟨trees, ht', hlen, hs⟩ := C53_generic_trees (firstRowRnd_ok 1) (X := rowsX) (Y := [0, 10])
    (by simp [rowsX]) (by simp [rowsX]) one_pos (by simp) (by simp [rowsX]) le_rfl (by norm_num) 100
    5 1 false
  have e := Except.ok.inj (ht'.symm.trans ht)
  have hne : trees ≠ [] := by rintro rfl; simp at hlen
  rw [← C94_random_forest] at ht'
  refine ⟨trees, ht', ?_⟩
  have hone : ∀ x : Point 1, predictByTreesOne x trees = .ok (0, 0) := by
    intro x
    choose L hL using fun t => exists_reaches x t
    have hrows : ∀ t ∈ trees, (L t).map (·.2) ≠ [] ∧ ∀ z ∈ (L t).map (·.2), z = 0 := by
      intro t htt
      refine ⟨by simpa using hs.leaves_ne t htt _ (hL t).2, fun z hz => ?_⟩
      rw [e] at htt
      obtain ⟨k, -, rfl⟩ := List.mem_map.1 htt
      obtain ⟨data, hgk, hrows⟩ := hg k
      obtain ⟨p, hp, rfl⟩ := List.mem_map.1 hz
      obtain ⟨j, hj, -, h3⟩ := (hrows p).1
        ((grown_mem_heldRows hgk p).1 (List.mem_flatten.2 ⟨_, (hL (T k)).2, hp⟩))
      rw [(List.mem_replicate.1 hj).2] at h3
      exact (Option.some.inj h3).symm
    obtain ⟨mu, sd, hp, hmu, hsd, hs2, -⟩ := C51_mixture hne hs.root
      (fun t ht => ⟨(hL t).1, hs.leaves_ne t ht _ (hL t).2⟩)
    have h0 : ∀ (l : List ℝ), l ≠ [] → (∀ z ∈ l, z = 0) → avg l = 0 := fun l hl hz => by
      have := avg_bounds (a := 0) (b := 0) hl fun z h => by simp [hz z h]
      exact le_antisymm this.2 this.1
    have hmu : mu = 0 := by
      rw [hmu]
      refine h0 _ (by simpa using hne) fun z hz => ?_
      obtain ⟨t, htt, rfl⟩ := List.mem_map.1 hz
      exact h0 _ (hrows t htt).1 (hrows t htt).2
    have hsd : sd = 0 := by
      have : sd ^ 2 = 0 := by
        rw [hs2, hmu]
        refine h0 _ (by simpa using hne) fun z hz => ?_
        obtain ⟨t, htt, rfl⟩ := List.mem_map.1 hz
        refine h0 _ (by simpa using (hrows t htt).1) fun w hw => ?_
        obtain ⟨v, hv, rfl⟩ := List.mem_map.1 hw
        rw [(hrows t htt).2 v hv]
        norm_num
      exact pow_eq_zero_iff (two_ne_zero) |>.1 this
    rw [hp, hmu, hsd]
  rw [C52_rowwise, List.mapM_cons, hone, List.mapM_cons, hone]
  rfl

/-- A library whose seeded Halton sequence starts with 4/5 and 0. -/
noncomputable def haltonLibrary : Library 1 where
  seeded _ := ⟨fun _ => 0, fun _ => 0, fun _ _ => 0, fun i _ => if i = 0 then 4 / 5 else 0⟩
  fitHyps := exRoutines.fitHyps
  lbfgsb _ x _ := .ok x
  direct _ _ := .ok fun _ => 0

private def forestEntropy (r : ForestRnd 1) : Entropy 1 where
  fresh _ := ⟨fun _ => 0, fun _ => 0, fun _ _ => 0, fun _ _ => 0⟩
  cma _ _ x _ _ := .ok x
  forest _ := r

private theorem forest_step {r : ForestRnd 1} {trees : List (Tree 1)} {mus : List ℝ} {j : ℕ}
    {x : Point 1} (ht : getRandomForest r rowsX [0, 10] 100 5 1 1 = .ok trees)
    (hp : predictByTrees [fun _ => 8, fun _ => 0] trees = .ok (mus, [0, 0]))
    (hj : npArgmin (((((mus.map (fun x => -x)).map (· * MULTIPLIER_ACQ)).map (-1 * ·))).map Flt.fin) =
      .ok j)
    (hx : ([fun _ => 8, fun _ => 0] : List (Point 1))[j]? = some x) (seed : ℤ) :
    ∃ s info, BoWTrees.optimize ⟨fun _ => (0, 10), "rf", "pure_exploit", "random_search", true⟩
      ⟨(forestEntropy r).forest 0, (stepRoutines haltonLibrary (forestEntropy r) 0 (some seed)).draws⟩
      (fun k => k) rowsX [0, 10] "halton" 2 ((), 0) = (s, .ok (x, info)) := by
  have hal : ("halton" ∈ ALLOWED_SAMPLING_METHOD) := by decide
  have hn : UtilsBo.normalizeMinMax [0, 10] = .ok [0, 10] := by
    norm_num [UtilsBo.normalizeMinMax, npMax, npMin, bind, Except.bind, pure, Except.pure,
      MULTIPLIER_RESPONSE]
  have ht' : BoWTrees.getTrees ⟨fun _ => (0, 10), "rf", "pure_exploit", "random_search", true⟩ r rowsX
      [0, 10] = .ok trees := by
    have h1 : (⌊Real.sqrt ((1 : ℕ) : ℝ)⌋ : ℤ) = 1 := by simp
    simp only [BoWTrees.getTrees, pyAssert, if_true, bind, Except.bind, h1]
    exact ht
  have hg : getSamples (d := 1) (fun _ => (0, 10))
      (stepRoutines haltonLibrary (forestEntropy r) 0 (some seed)).draws "halton" 2 =
        .ok [fun _ => 8, fun _ => 0] := by
    simp only [getSamples, pyAssert, if_pos hal, bind, Except.bind]
    rw [if_neg (by decide), if_neg (by decide), if_neg (by decide), if_neg (by decide),
      if_pos trivial]
    norm_num [getSamplesQmc, stepRoutines, getRandomState, haltonLibrary, List.range_succ]
    rfl
  have hb : UtilsBo.checkPointsInBounds ([fun _ => 8, fun _ => 0] : List (Point 1))
      (fun _ => (0, 10)) = .ok [fun _ => 8, fun _ => 0] := by
    norm_num [UtilsBo.checkPointsInBounds, pyAssert, bind, Except.bind, pure, Except.pure]
  have ha : BoWTrees.computeAcquisitions ⟨fun _ => (0, 10), "rf", "pure_exploit", "random_search",
      true⟩ [fun _ => 8, fun _ => 0] rowsX [0, 10] trees =
        .ok ((mus.map (fun x => -x)).map (· * MULTIPLIER_ACQ)) := by
    have hc : UtilsBo.chooseFunAcquisition "pure_exploit" (some GP_NOISE) =
        .ok fun m _ _ => Acquisition.pureExploit m := by
      simp [UtilsBo.chooseFunAcquisition, pyAssert, ALLOWED_BO_ACQ, bind, Except.bind, pure,
        Except.pure]
    simp only [BoWTrees.computeAcquisitions, BoWTrees.computePosteriors, hp, hc]
    simp [pyAssert, bind, Except.bind, pure, Except.pure, rowsX, Acquisition.pureExploit]
  have hi : pyIndex ([fun _ => 8, fun _ => 0] : List (Point 1)) j = .ok x := by
    unfold pyIndex
    rw [hx]
  have hl : rowsX.length = ([0, 10] : List ℝ).length := rfl
  simp only [forestEntropy] at *
  unfold BoWTrees.optimize
  simp only [OptM.lift, OptM.now, bind, pure, hn, ht', hg, hb, ha, hj, hi, if_true, pyAssert,
    hal, hl, show (2 : ℤ) > 0 by norm_num]
  exact ⟨_, _, rfl⟩

/-- C92 does not hold for random forests either: whatever the seed, two processes with the same
libraries, whose trees draw different rows from the global generator, propose different points for the
same data. -/
theorem C92_forest_violated : ∃ (bo : BaseBO 1) (L : Library 1) (E E' : Entropy 1),
    BoWTrees.init ⟨false, true⟩ (fun _ => (0, 10)) "rf" "pure_exploit" true "random_search" = .ok bo ∧
    ForestRndOk (E.forest 0) true ∧ ForestRndOk (E'.forest 0) true ∧
    ∀ seed : ℤ, ∃ s s' info info',
      BoWTrees.optimize bo ⟨E.forest 0, (stepRoutines L E 0 (some seed)).draws⟩ (fun k => k)
          [fun _ => 0, fun _ => 8] [0, 10] "halton" 2 ((), 0) = (s, .ok (fun _ => 0, info)) ∧
      BoWTrees.optimize bo ⟨E'.forest 0, (stepRoutines L E' 0 (some seed)).draws⟩ (fun k => k)
          [fun _ => 0, fun _ => 8] [0, 10] "halton" 2 ((), 0) = (s', .ok (fun _ => 8, info')) := by
  refine ⟨⟨fun _ => (0, 10), "rf", "pure_exploit", "random_search", true⟩, haltonLibrary,
    forestEntropy (allRnd 1), forestEntropy (firstRowRnd 1), ?_, allRnd_ok 1, firstRowRnd_ok 1,
    fun seed => ?_⟩
  · simp [BoWTrees.init, initBase, UtilsBo.checkOptimizerMethodBo, pyAssert, ALLOWED_SURROGATE_TREES,
      ALLOWED_BO_ACQ, ALLOWED_OPTIMIZER_METHOD_BO_TREES, bind, Except.bind, pure, Except.pure]
  · obtain ⟨trees, ht, hp⟩ := all_predict
    obtain ⟨trees', ht', hp'⟩ := first_predict
    obtain ⟨s, info, e⟩ := forest_step (j := 1) (x := fun _ => 0) ht hp (by
      norm_num [npArgmin, argminLoop, MULTIPLIER_ACQ]
      try exact Flt.noConfusion) rfl seed
    obtain ⟨s', info', e'⟩ := forest_step (j := 0) (x := fun _ => 8) ht' hp' (by
      norm_num [npArgmin, argminLoop, MULTIPLIER_ACQ]
      try exact Flt.noConfusion) rfl seed
    exact ⟨s, s', info, info', e, e'⟩

end Verif.Props
