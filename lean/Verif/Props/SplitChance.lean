import Verif.Lemmas.Bootstrap
import Verif.Lemmas.Chance
import Verif.Lemmas.Trees

/-! # C113: the chances of random splits -/

namespace Verif.Props

open Verif.Spec Verif.Lemmas Verif.Trees MeasureTheory ProbabilityTheory

variable {Ω : Type} [MeasurableSpace Ω] {d : ℕ}

private theorem splitRandom_val (u : ℝ) (X : List (Point d)) (Y : List ℝ)
    (hXY : X.length = Y.length) (f : Fin d) {a b : ℝ} (ha : IsLeast {t | ∃ x ∈ X, x f = t} a)
    (hb : IsGreatest {t | ∃ x ∈ X, x f = t} b) (hab : a < b) :
    splitRandom u X Y f = .ok ⟨.fin (splitCost (X.zip Y) f (a + (b - a) * u)),
      some (f, a + (b - a) * u, below (X.zip Y) f (a + (b - a) * u),
        notBelow (X.zip Y) f (a + (b - a) * u))⟩ := by
  have hmin : npMin (X.map fun x => x f) = .ok a := by
    rw [npMin_ok]
    obtain ⟨x, hx, hxa⟩ := ha.1
    refine ⟨List.mem_map.2 ⟨x, hx, hxa⟩, fun y hy => ?_⟩
    obtain ⟨z, hz, rfl⟩ := List.mem_map.1 hy
    exact ha.2 ⟨z, hz, rfl⟩
  have hmax : npMax (X.map fun x => x f) = .ok b := by
    rw [npMax_ok]
    obtain ⟨x, hx, hxa⟩ := hb.1
    refine ⟨List.mem_map.2 ⟨x, hx, hxa⟩, fun y hy => ?_⟩
    obtain ⟨z, hz, rfl⟩ := List.mem_map.1 hy
    exact hb.2 ⟨z, hz, rfl⟩
  have hlen : (candidatesLoc X f).length > 1 := by
    rw [candidatesLoc, Finset.length_sort]
    refine Finset.one_lt_card.2 ⟨a, ?_, b, ?_, hab.ne⟩
    · simpa using ha.1
    · simpa using hb.1
  simp only [splitRandom, randomValToSplit, if_pos hlen, hmin, hmax, bind, Except.bind, pure,
    Except.pure, splitLeftRight_eq hXY, mse_eq, splitCost]

/-- C113. With a uniform draw the random threshold of a feature is uniform between the least and the
greatest value of that feature. -/
theorem C113_threshold {μ : Measure Ω} (u : Ω → ℝ) (hu : Measurable u) (hl : μ.map u = unitLaw)
    (X : List (Point d)) (Y : List ℝ) (hXY : X.length = Y.length) (f : Fin d) {a b : ℝ}
    (ha : IsLeast {t | ∃ x ∈ X, x f = t} a) (hb : IsGreatest {t | ∃ x ∈ X, x f = t} b)
    (hab : a < b) :
    ∃ T : Ω → ℝ, Measurable T ∧ μ.map T = uniformLaw a b ∧
      ∀ ω, ∃ s l r, splitRandom (u ω) X Y f = .ok ⟨s, some (f, T ω, l, r)⟩ := by
  refine ⟨fun ω => a + (b - a) * u ω, by fun_prop, ?_, fun ω =>
    ⟨_, _, _, splitRandom_val (u ω) X Y hXY f ha hb hab⟩⟩
  rw [← unitLaw_map a b hab.le, ← hl, Measure.map_map (by fun_prop) hu]
  rfl

private theorem mem_fst_below {X : List (Point d)} {Y : List ℝ} (hXY : X.length = Y.length)
    {f : Fin d} {v : ℝ} {p : Point d} (hp : p ∈ X) :
    p ∈ (below (X.zip Y) f v).map Prod.fst ↔ p f < v := by
  rw [List.mem_map]
  constructor
  · rintro ⟨q, hq, rfl⟩
    exact (mem_below.1 hq).2
  · intro h
    have : p ∈ (X.zip Y).map Prod.fst := by
      rw [List.map_fst_zip (by omega)]
      exact hp
    obtain ⟨q, hq, rfl⟩ := List.mem_map.1 this
    exact ⟨q, mem_below.2 ⟨hq, h⟩, rfl⟩

private theorem mem_fst_notBelow {X : List (Point d)} {Y : List ℝ} (hXY : X.length = Y.length)
    {f : Fin d} {v : ℝ} {p : Point d} (hp : p ∈ X) :
    p ∈ (notBelow (X.zip Y) f v).map Prod.fst ↔ v ≤ p f := by
  rw [List.mem_map]
  constructor
  · rintro ⟨q, hq, rfl⟩
    exact (mem_notBelow.1 hq).2
  · intro h
    have : p ∈ (X.zip Y).map Prod.fst := by
      rw [List.map_fst_zip (by omega)]
      exact hp
    obtain ⟨q, hq, rfl⟩ := List.mem_map.1 this
    exact ⟨q, mem_notBelow.2 ⟨hq, h⟩, rfl⟩

/-- C113. Two rows are separated by a random split of a feature with a probability proportional to
their distance in it. -/
theorem C113_separate {μ : Measure Ω} (u : Ω → ℝ) (hu : Measurable u) (hl : μ.map u = unitLaw)
    (X : List (Point d)) (Y : List ℝ) (hXY : X.length = Y.length) (f : Fin d) {a b : ℝ}
    (ha : IsLeast {t | ∃ x ∈ X, x f = t} a) (hb : IsGreatest {t | ∃ x ∈ X, x f = t} b)
    (hab : a < b) (p q : Point d) (hp : p ∈ X) (hq : q ∈ X) :
    μ {ω | ∃ s v l r, splitRandom (u ω) X Y f = .ok ⟨s, some (f, v, l, r)⟩ ∧
      ((p ∈ l.map Prod.fst ∧ q ∈ r.map Prod.fst) ∨ (q ∈ l.map Prod.fst ∧ p ∈ r.map Prod.fst))} =
      ENNReal.ofReal (|p f - q f| / (b - a)) := by
  have hw : 0 < b - a := sub_pos.2 hab
  have hpa : a ≤ p f := ha.2 ⟨p, hp, rfl⟩
  have hqa : a ≤ q f := ha.2 ⟨q, hq, rfl⟩
  have hpb : p f ≤ b := hb.2 ⟨p, hp, rfl⟩
  have hqb : q f ≤ b := hb.2 ⟨q, hq, rfl⟩
  set lo := min (p f) (q f)
  set hi := max (p f) (q f)
  have e : {ω | ∃ s v l r, splitRandom (u ω) X Y f = .ok ⟨s, some (f, v, l, r)⟩ ∧
      ((p ∈ l.map Prod.fst ∧ q ∈ r.map Prod.fst) ∨ (q ∈ l.map Prod.fst ∧ p ∈ r.map Prod.fst))} =
      (fun ω => a + (b - a) * u ω) ⁻¹' Set.Ioc lo hi := by
    ext ω
    simp only [Set.mem_setOf_eq, splitRandom_val (u ω) X Y hXY f ha hb hab, Except.ok.injEq,
      Best.mk.injEq, Option.some.injEq, Prod.mk.injEq, true_and, Set.mem_preimage, Set.mem_Ioc]
    generalize a + (b - a) * u ω = v
    constructor
    · rintro ⟨s, v', l, r, ⟨-, rfl, rfl, rfl⟩, h⟩
      rw [mem_fst_below hXY hp, mem_fst_below hXY hq, mem_fst_notBelow hXY hp,
        mem_fst_notBelow hXY hq] at h
      rcases h with ⟨h1, h2⟩ | ⟨h1, h2⟩
      · exact ⟨min_lt_of_left_lt h1, le_max_of_le_right h2⟩
      · exact ⟨min_lt_of_right_lt h1, le_max_of_le_left h2⟩
    · rintro ⟨h1, h2⟩
      refine ⟨_, _, _, _, ⟨rfl, rfl, rfl, rfl⟩, ?_⟩
      rw [mem_fst_below hXY hp, mem_fst_below hXY hq, mem_fst_notBelow hXY hp,
        mem_fst_notBelow hXY hq]
      rcases le_total (p f) (q f) with h | h
      · left
        exact ⟨by simpa [lo, min_eq_left h] using h1, by simpa [hi, max_eq_right h] using h2⟩
      · right
        exact ⟨by simpa [lo, min_eq_right h] using h1, by simpa [hi, max_eq_left h] using h2⟩
  have hT : μ.map (fun ω => a + (b - a) * u ω) = uniformLaw a b := by
    rw [← unitLaw_map a b hab.le, ← hl, Measure.map_map (by fun_prop) hu]
    rfl
  rw [e, ← Measure.map_apply (by fun_prop) measurableSet_Ioc, hT, uniformLaw, if_pos hab,
    cond_apply measurableSet_Icc, Set.inter_eq_right.2 ?_, Real.volume_Icc, Real.volume_Ioc,
    ENNReal.ofReal_div_of_pos hw, div_eq_mul_inv, mul_comm, ← max_sub_min_eq_abs']
  intro x hx
  exact ⟨(le_min hpa hqa).trans hx.1.le, hx.2.trans (max_le hpb hqb)⟩

/-- C113. A random split of a feature with two different values leaves no side empty, except for draws
of probability zero. -/
theorem C113_no_empty_side {μ : Measure Ω} (u : Ω → ℝ) (hu : Measurable u)
    (hl : μ.map u = unitLaw) (X : List (Point d)) (Y : List ℝ) (hXY : X.length = Y.length)
    (f : Fin d) (hX : ∃ x ∈ X, ∃ y ∈ X, x f ≠ y f) :
    ∀ᵐ ω ∂μ, ∃ s v l r, splitRandom (u ω) X Y f = .ok ⟨s, some (f, v, l, r)⟩ ∧ l ≠ [] ∧ r ≠ [] := by
  classical
  have hne : ((X.map fun x => x f).toFinset).Nonempty := by
    obtain ⟨x, hx, -⟩ := hX
    exact ⟨x f, by simpa using ⟨x, hx, rfl⟩⟩
  have hset : (((X.map fun x => x f).toFinset : Finset ℝ) : Set ℝ) = {t | ∃ x ∈ X, x f = t} := by
    ext t
    simp
  have ha := Finset.isLeast_min' _ hne
  have hb := Finset.isGreatest_max' _ hne
  rw [hset] at ha hb
  generalize Finset.min' _ hne = a at ha
  generalize Finset.max' _ hne = b at hb
  have hab : a < b := by
    obtain ⟨x, hx, y, hy, hxy⟩ := hX
    by_contra h
    have h1 := ha.2 ⟨x, hx, rfl⟩
    have h2 := ha.2 ⟨y, hy, rfl⟩
    have h3 := hb.2 ⟨x, hx, rfl⟩
    have h4 := hb.2 ⟨y, hy, rfl⟩
    exact hxy (by linarith)
  have h01 : ∀ᵐ ω ∂μ, u ω ∈ Set.Ioo 0 1 := by
    have h : ∀ᵐ t ∂unitLaw, t ∈ Set.Ioo (0 : ℝ) 1 := by
      rw [unitLaw, ← Measure.restrict_congr_set Ioo_ae_eq_Ico]
      exact ae_restrict_mem measurableSet_Ioo
    rw [← hl] at h
    exact ae_of_ae_map hu.aemeasurable h
  filter_upwards [h01] with ω hω
  refine ⟨_, _, _, _, splitRandom_val (u ω) X Y hXY f ha hb hab, ?_, ?_⟩
  · obtain ⟨x, hx, hxa⟩ := ha.1
    have := (mem_fst_below hXY (f := f) (v := a + (b - a) * u ω) hx).2 (by
      rw [hxa]
      nlinarith [hω.1])
    exact fun h => by simp [h] at this
  · obtain ⟨x, hx, hxa⟩ := hb.1
    have := (mem_fst_notBelow hXY (f := f) (v := a + (b - a) * u ω) hx).2 (by
      rw [hxa]
      nlinarith [hω.2])
    exact fun h => by simp [h] at this

private theorem neighbours_index {X : List (Point d)} {f : Fin d} {x y : Point d} (hx : x ∈ X)
    (hy : y ∈ X) (hxy : x f < y f) (hn : ∀ z ∈ X, z f ≤ x f ∨ y f ≤ z f) :
    ∃ i, i < (levels X f).length - 1 ∧ (levels X f).getD i 0 = x f ∧
      (levels X f).getD (i + 1) 0 = y f := by
  obtain ⟨i, hi, hix⟩ := List.getElem_of_mem (mem_levels.2 ⟨x, hx, rfl⟩ : x f ∈ levels X f)
  obtain ⟨j, hj, hjy⟩ := List.getElem_of_mem (mem_levels.2 ⟨y, hy, rfl⟩ : y f ∈ levels X f)
  have hs := List.pairwise_iff_getElem.1 (levels_sorted X f)
  have hij : i < j := by
    rcases lt_trichotomy i j with h | h | h
    · exact h
    · subst h
      rw [hix] at hjy
      exact absurd hjy hxy.ne
    · have := hs j i hj hi h
      rw [hix, hjy] at this
      exact absurd this hxy.not_gt
  have h1 : i + 1 < (levels X f).length := by omega
  have hji : j = i + 1 := by
    by_contra h
    have h2 : i + 1 < j := by omega
    have a1 := hs i (i + 1) hi h1 (by omega)
    have a2 := hs (i + 1) j h1 hj h2
    rw [hix] at a1
    rw [hjy] at a2
    obtain ⟨z, hz, hze⟩ := mem_levels.1 (List.getElem_mem h1)
    rw [← hze] at a1 a2
    rcases hn z hz with h | h
    · exact absurd a1 h.not_gt
    · exact absurd a2 h.not_gt
  subst hji
  refine ⟨i, by omega, ?_, ?_⟩
  · rw [List.getD_eq_getElem _ _ hi, hix]
  · rw [List.getD_eq_getElem _ _ h1, hjy]

private theorem splitDeterministic_locs (choice : ℕ → ℕ → List ℕ) (X : List (Point d)) (Y : List ℝ)
    (hXY : X.length = Y.length) (f : Fin d) (hm : 1 < (levels X f).length)
    (hc : ∀ i ∈ choice ((levels X f).length - 1) (min 20 ((levels X f).length - 1)),
      i < (levels X f).length - 1) :
    splitDeterministic choice X Y f = .ok
      (((choice ((levels X f).length - 1) (min 20 ((levels X f).length - 1))).map fun i =>
        (f, ((levels X f).getD i 0 + (levels X f).getD (i + 1) 0) / 2)).foldl
          (stepBest (X.zip Y)) Best.init) := by
  have h0 : candidatesLoc X f = levels X f := rfl
  simp only [splitDeterministic, h0, if_pos hm]
  exact tryLoc_fold hXY f _ _ _ fun i hi => valToSplit_many hm (hc i hi)

/-- C113. At a feature with `m` gaps between its values, a split at least as good as the one at any
given midpoint, so also as the best one, is found with probability at least `min 20 m / m`. -/
theorem C113_as_good {μ : Measure Ω} [IsProbabilityMeasure μ] (choice : Ω → ℕ → ℕ → List ℕ)
    (X : List (Point d)) (Y : List ℝ) (hXY : X.length = Y.length) (f : Fin d) (m : ℕ)
    (hm : (levels X f).length = m + 1)
    (hc : WithoutReplacement μ m (min 20 m) fun ω => choice ω m (min 20 m))
    (x y : Point d) (hx : x ∈ X) (hy : y ∈ X) (hxy : x f < y f)
    (hn : ∀ z ∈ X, z f ≤ x f ∨ y f ≤ z f) :
    ENNReal.ofReal ((min 20 m : ℕ) / m) ≤
      μ {ω | ∃ s found, splitDeterministic (choice ω) X Y f = .ok ⟨.fin s, found⟩ ∧
        s ≤ splitCost (X.zip Y) f ((x f + y f) / 2)} := by
  obtain ⟨j, hj, hjx, hjy⟩ := neighbours_index hx hy hxy hn
  have hm1 : (levels X f).length - 1 = m := by omega
  rw [hm1] at hj
  rw [← measure_tried hc hj]
  refine measure_mono fun ω hω => ?_
  obtain ⟨J, -, hJ, -, -⟩ := hc
  have hs := splitDeterministic_locs (choice ω) X Y hXY f (by omega) (by
    rw [hm1]
    have := hJ ω
    simp only at this
    rw [this]
    intro i hi
    obtain ⟨t, rfl⟩ := List.mem_ofFn.1 hi
    exact (J ω t).2)
  rw [hm1] at hs
  have hmem := List.mem_map_of_mem (f := fun i =>
    (f, ((levels X f).getD i 0 + (levels X f).getD (i + 1) 0) / 2)) (show j ∈ choice ω m (min 20 m) from hω)
  rcases stepBest_spec (X.zip Y) ((choice ω m (min 20 m)).map fun i =>
    (f, ((levels X f).getD i 0 + (levels X f).getD (i + 1) 0) / 2)) with ⟨h, -⟩ | ⟨i, p, hi, hle, -, h⟩
  · rw [h] at hmem
    exact absurd hmem List.not_mem_nil
  · rw [h] at hs
    refine ⟨_, _, hs, ?_⟩
    obtain ⟨k, hk, hke⟩ := List.getElem_of_mem hmem
    have := hle k _ (by rw [List.getElem?_eq_getElem hk, hke])
    rwa [hjx, hjy] at this

/-- C113. If one midpoint is better than all others, the best split is found with exactly this
probability: with more than 20 gaps it is missed with probability `1 - 20 / m`. -/
theorem C113_best {μ : Measure Ω} [IsProbabilityMeasure μ] (choice : Ω → ℕ → ℕ → List ℕ)
    (X : List (Point d)) (Y : List ℝ) (hXY : X.length = Y.length) (f : Fin d) (m : ℕ)
    (hm : (levels X f).length = m + 1)
    (hc : WithoutReplacement μ m (min 20 m) fun ω => choice ω m (min 20 m))
    (x y : Point d) (hx : x ∈ X) (hy : y ∈ X) (hxy : x f < y f)
    (hn : ∀ z ∈ X, z f ≤ x f ∨ y f ≤ z f)
    (hbest : ∀ v, IsMidpoint X f v → v ≠ (x f + y f) / 2 →
      splitCost (X.zip Y) f ((x f + y f) / 2) < splitCost (X.zip Y) f v) :
    μ {ω | ∃ s l r, splitDeterministic (choice ω) X Y f =
        .ok ⟨s, some (f, (x f + y f) / 2, l, r)⟩} = ENNReal.ofReal ((min 20 m : ℕ) / m) := by
  obtain ⟨j, hj, hjx, hjy⟩ := neighbours_index hx hy hxy hn
  have hm1 : (levels X f).length - 1 = m := by omega
  rw [hm1] at hj
  rw [← measure_tried hc hj]
  congr 1
  ext ω
  obtain ⟨J, -, hJ, -, -⟩ := hc
  have hlt : ∀ i ∈ choice ω m (min 20 m), i < m := by
    have := hJ ω
    simp only at this
    rw [this]
    intro i hi
    obtain ⟨t, rfl⟩ := List.mem_ofFn.1 hi
    exact (J ω t).2
  have hs := splitDeterministic_locs (choice ω) X Y hXY f (by omega) (by
    rw [hm1]
    exact hlt)
  rw [hm1] at hs
  have hsort := List.pairwise_iff_getElem.1 (levels_sorted X f)
  -- different locations are different midpoints
  have hinj : ∀ i < m, ((levels X f).getD i 0 + (levels X f).getD (i + 1) 0) / 2 =
      (x f + y f) / 2 → i = j := by
    intro i hi h
    have hi0 : i < (levels X f).length := by omega
    have hi1 : i + 1 < (levels X f).length := by omega
    have hj0 : j < (levels X f).length := by omega
    have hj1 : j + 1 < (levels X f).length := by omega
    rw [← hjx, ← hjy, List.getD_eq_getElem _ _ hi0, List.getD_eq_getElem _ _ hi1,
      List.getD_eq_getElem _ _ hj0, List.getD_eq_getElem _ _ hj1] at h
    rcases lt_trichotomy i j with hij | hij | hij
    · have h1 := hsort i j hi0 hj0 hij
      have h2 := hsort (i + 1) (j + 1) hi1 hj1 (by omega)
      exact absurd h (by intro h; linarith)
    · exact hij
    · have h1 := hsort j i hj0 hi0 hij
      have h2 := hsort (j + 1) (i + 1) hj1 hi1 (by omega)
      exact absurd h (by intro h; linarith)
  have hmid : ∀ i < m, IsMidpoint X f
      (((levels X f).getD i 0 + (levels X f).getD (i + 1) 0) / 2) := by
    intro i hi
    have hi0 : i < (levels X f).length := by omega
    have hi1 : i + 1 < (levels X f).length := by omega
    obtain ⟨p, hp, hpe⟩ := mem_levels.1 (List.getElem_mem hi0)
    obtain ⟨q, hq, hqe⟩ := mem_levels.1 (List.getElem_mem hi1)
    left
    refine ⟨p, hp, q, hq, ?_, fun z hz => ?_, ?_⟩
    · rw [hpe, hqe]
      exact hsort i (i + 1) hi0 hi1 (by omega)
    · obtain ⟨k, hk, hke⟩ := List.getElem_of_mem (mem_levels.2 ⟨z, hz, rfl⟩ : z f ∈ levels X f)
      rw [hpe, hqe, ← hke]
      rcases Nat.lt_or_ge i k with h | h
      · right
        rcases Nat.eq_or_lt_of_le (Nat.succ_le_of_lt h) with h' | h'
        · subst h'
          exact _root_.le_refl _
        · exact (hsort (i + 1) k hi1 hk h').le
      · left
        rcases Nat.eq_or_lt_of_le h with h' | h'
        · subst h'
          exact _root_.le_refl _
        · exact (hsort k i hk hi0 h').le
    · rw [hpe, hqe, List.getD_eq_getElem _ _ hi0, List.getD_eq_getElem _ _ hi1]
  rcases stepBest_spec (X.zip Y) ((choice ω m (min 20 m)).map fun i =>
    (f, ((levels X f).getD i 0 + (levels X f).getD (i + 1) 0) / 2)) with
    ⟨h, hb⟩ | ⟨i, p, hi, hle, -, h⟩
  · rw [hb] at hs
    rw [List.map_eq_nil_iff] at h
    simp [hs, Best.init, h]
  · rw [h] at hs
    have hpm := List.mem_of_getElem? hi
    obtain ⟨i', hi', rfl⟩ := List.mem_map.1 hpm
    simp only [Set.mem_setOf_eq, hs, Except.ok.injEq, Best.mk.injEq, Option.some.injEq,
      Prod.mk.injEq, true_and]
    constructor
    · rintro ⟨s, l, r, -, hv, -, -⟩
      rw [← hinj i' (hlt i' hi') hv]
      exact hi'
    · intro hjm
      refine ⟨_, _, _, rfl, ?_, rfl, rfl⟩
      by_contra hv
      have h1 := hbest _ (hmid i' (hlt i' hi')) hv
      have hmem := List.mem_map_of_mem (f := fun i =>
        (f, ((levels X f).getD i 0 + (levels X f).getD (i + 1) 0) / 2))
        (show j ∈ choice ω m (min 20 m) from hjm)
      obtain ⟨k, hk, hke⟩ := List.getElem_of_mem hmem
      have h2 := hle k _ (by rw [List.getElem?_eq_getElem hk, hke])
      simp only [hjx, hjy] at h2
      exact absurd h1 h2.not_gt

/-! ### Cases -/

/-- Uniform draws exist, on the unit interval itself. -/
example : ∃ (μ : Measure ℝ) (u : ℝ → ℝ), Measurable u ∧ μ.map u = unitLaw :=
  ⟨unitLaw, id, measurable_id, Measure.map_id⟩

/-- Draws without replacement exist, for all sizes. -/
example (n k : ℕ) (h : k ≤ n) : ∃ (μ : Measure {v : Fin k → Fin n // Function.Injective v})
    (c : {v : Fin k → Fin n // Function.Injective v} → List ℕ),
    IsProbabilityMeasure μ ∧ WithoutReplacement μ n k c := by
  classical
  have hcard : Fintype.card {v : Fin k → Fin n // Function.Injective v} = n.descFactorial k := by
    rw [Fintype.card_congr (Equiv.subtypeInjectiveEquivEmbedding (Fin k) (Fin n)),
      Fintype.card_embedding_eq]
    simp
  have hd : n.descFactorial k ≠ 0 := (Nat.descFactorial_pos.2 h).ne'
  refine ⟨(n.descFactorial k : ENNReal)⁻¹ • Measure.count, fun v => List.ofFn fun t => (v.1 t : ℕ),
    ⟨?_⟩, Subtype.val, measurable_subtype_coe, fun _ => rfl, fun v => v.2, fun v hv => ?_⟩
  · rw [Measure.smul_apply, Measure.count_univ, ENat.card_eq_coe_fintype_card, hcard, smul_eq_mul]
    exact ENNReal.inv_mul_cancel (by exact_mod_cast hd) (by simp)
  · rw [show Subtype.val ⁻¹' {v} = {(⟨v, hv⟩ : {v : Fin k → Fin n // Function.Injective v})} by
      ext w
      simp [Subtype.ext_iff]]
    simp

/-- Of the rows at 0, 1 and 4, those at 1 and 4 are separated with probability 3/4. -/
example {μ : Measure Ω} (u : Ω → ℝ) (hu : Measurable u) (hl : μ.map u = unitLaw) :
    μ {ω | ∃ s v l r, splitRandom (u ω) [fun _ : Fin 1 => (0 : ℝ), fun _ => 1, fun _ => 4]
        [5, 6, 7] 0 = .ok ⟨s, some (0, v, l, r)⟩ ∧
      (((fun _ => 1) ∈ l.map Prod.fst ∧ (fun _ => 4) ∈ r.map Prod.fst) ∨
        ((fun _ => 4) ∈ l.map Prod.fst ∧ (fun _ => 1) ∈ r.map Prod.fst))} =
      ENNReal.ofReal (3 / 4) := by
  have h := C113_separate u hu hl [fun _ : Fin 1 => (0 : ℝ), fun _ => 1, fun _ => 4] [5, 6, 7] rfl 0
    (a := 0) (b := 4)
    ⟨⟨fun _ => 0, by simp, rfl⟩, by
      rintro t ⟨x, hx, rfl⟩
      simp only [List.mem_cons, List.not_mem_nil, or_false] at hx
      rcases hx with rfl | rfl | rfl <;> norm_num⟩
    ⟨⟨fun _ => 4, by simp, rfl⟩, by
      rintro t ⟨x, hx, rfl⟩
      simp only [List.mem_cons, List.not_mem_nil, or_false] at hx
      rcases hx with rfl | rfl | rfl <;> norm_num⟩
    (by norm_num) (fun _ => 1) (fun _ => 4) (by simp) (by simp)
  rw [h]
  norm_num

/-- The midpoint 3/2 is the only best split of the rows at 0, 1 and 2 with responses 0, 0 and 5. -/
example (v : ℝ) (hv : IsMidpoint [fun _ : Fin 1 => (0 : ℝ), fun _ => 1, fun _ => 2] 0 v)
    (hne : v ≠ (1 + 2) / 2) :
    splitCost ([fun _ : Fin 1 => (0 : ℝ), fun _ => 1, fun _ => 2].zip [0, 0, 5]) 0 ((1 + 2) / 2) <
      splitCost ([fun _ : Fin 1 => (0 : ℝ), fun _ => 1, fun _ => 2].zip [0, 0, 5]) 0 v := by
  have h1 : v = 1 / 2 := by
    rcases hv with ⟨x, hx, y, hy, hxy, hn, rfl⟩ | ⟨h, -⟩
    · have := hn (fun _ => 1) (by simp)
      simp only [List.mem_cons, List.not_mem_nil, or_false] at hx hy
      rcases hx with rfl | rfl | rfl <;> rcases hy with rfl | rfl | rfl <;> norm_num at *
    · have := h (fun _ => 0) (by simp) (fun _ => 1) (by simp)
      norm_num at this
  subst h1
  norm_num [splitCost, sideCost, below, notBelow, msd, avg]
  rw [if_neg (by simp), if_neg (by simp)]
  norm_num

end Verif.Props
