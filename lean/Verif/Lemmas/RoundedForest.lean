import Verif.Lemmas.RoundedMeans

/-! Helper lemmas: costs of splits and predictions of forests in double precision. -/

namespace Verif.RoundedTrees

open Verif.Spec Verif.Lemmas Verif.Trees Verif.Rounded Verif.RoundedKernels

variable {fl : ℝ → ℝ} {o : Orders} {d : ℕ}

/-! ### Splits -/

theorem varOf_nonneg (h : Nearest fl) (order : ℕ → SumOrder) (l : List ℝ) :
    0 ≤ varOf fl o order l := by
  unfold varOf meanOf
  apply fl_nonneg h
  apply div_nonneg _ (Nat.cast_nonneg _)
  apply sumList_nonneg h
  intro x hx
  obtain ⟨y, _, rfl⟩ := List.mem_map.1 hx
  exact fl_nonneg h (sq_nonneg _)

theorem varOf_mem (h : Nearest fl) (order : ℕ → SumOrder) (l : List ℝ) :
    varOf fl o order l ∈ Double := h.mem _

/-- What the cost of a separating split is off by. -/
theorem splitCostF_error (h : Nearest fl) (ho : SumsAll o) {data : List (Row d)} {f : Fin d} {v : ℝ}
    (hl : below data f v ≠ []) (hr : notBelow data f v ≠ []) (hd : ∀ p ∈ data, p.2 ∈ Double) {M : ℝ}
    (hM0 : (2 : ℝ) ^ (-500 : ℤ) ≤ M) (hM : ∀ p ∈ data, |p.2| ≤ M)
    (hn : 2 * ((data.length : ℝ) + 8) * (1 / 2 ^ 53) ≤ 1 / 64) :
    |splitCostF fl o data f v - splitCost data f v| ≤
      5 * (2 * ((data.length : ℝ) + 8) * (1 / 2 ^ 53)) * M ^ 2 ∧
    splitCost data f v ≤ 2 * M ^ 2 := by
  have side : ∀ rows : List (Row d), rows ≠ [] → (∀ p ∈ rows, p ∈ data) → rows.length ≤ data.length →
      |sideCostF fl o (rows.map (·.2)) - sideCost (rows.map (·.2))| ≤
        2 * (2 * ((data.length : ℝ) + 8) * (1 / 2 ^ 53)) * M ^ 2 ∧
      sideCost (rows.map (·.2)) ≤ M ^ 2 ∧ 0 ≤ sideCost (rows.map (·.2)) ∧
      sideCostF fl o (rows.map (·.2)) ∈ Double := by
    intro rows hne hsub hlen
    have hne' : rows.map (·.2) ≠ [] := by simpa using hne
    have hlen' : ((rows.map (·.2)).length : ℝ) ≤ data.length := by
      rw [List.length_map]; exact_mod_cast hlen
    have hpos : 1 ≤ (rows.map (·.2)).length := List.length_pos_iff.2 hne'
    have hMr : ∀ y ∈ rows.map (·.2), |y| ≤ M := by
      intro y hy
      obtain ⟨p, hp, rfl⟩ := List.mem_map.1 hy
      exact hM p (hsub p hp)
    have hu : (0 : ℝ) < 1 / 2 ^ 53 := by norm_num
    have hmono : 2 * (((rows.map (·.2)).length : ℝ) + 8) * (1 / 2 ^ 53) ≤
        2 * ((data.length : ℝ) + 8) * (1 / 2 ^ 53) := by gcongr
    have hmv := mean_var_error h (o := o) (order := o.column) hne' (ho _ hpos).2 (ho _ hpos).1
      (by
        intro y hy
        obtain ⟨p, hp, rfl⟩ := List.mem_map.1 hy
        exact hd p (hsub p hp)) hM0 hMr (hmono.trans hn)
    rw [sideCostF, if_neg hne', sideCost, if_neg hne']
    refine ⟨hmv.2.trans ?_, ?_, msd_nonneg _ _, varOf_mem h _ _⟩
    · have := mul_le_mul_of_nonneg_right hmono (sq_nonneg M)
      linarith
    · have := msd_le_sq hne' hMr
      linarith [sq_nonneg (avg (rows.map (·.2)))]
  obtain ⟨a1, a2, a3, a4⟩ := side _ hl (fun p hp => (mem_below.1 hp).1) (List.length_filter_le _ _)
  obtain ⟨b1, b2, b3, b4⟩ := side _ hr (fun p hp => (mem_notBelow.1 hp).1) (List.length_filter_le _ _)
  have hadd := fl_add_rel h a4 b4
  rw [splitCostF, splitCost]
  generalize sideCostF fl o ((below data f v).map (·.2)) = A at *
  generalize sideCostF fl o ((notBelow data f v).map (·.2)) = B at *
  generalize sideCost ((below data f v).map (·.2)) = A' at *
  generalize sideCost ((notBelow data f v).map (·.2)) = B' at *
  refine ⟨?_, by linarith⟩
  have hN : (0 : ℝ) ≤ data.length := Nat.cast_nonneg _
  have hu : (0 : ℝ) < 1 / 2 ^ 53 := by norm_num
  have hθu : 16 * ((1 : ℝ) / 2 ^ 53) ≤ 2 * ((data.length : ℝ) + 8) * (1 / 2 ^ 53) := by nlinarith
  generalize (1 : ℝ) / 2 ^ 53 = u at *
  generalize 2 * ((data.length : ℝ) + 8) * u = θ at *
  have hM2 : 0 ≤ M ^ 2 := sq_nonneg M
  have hA := abs_le.1 a1
  have hB := abs_le.1 b1
  have hθ0 : 0 ≤ θ := by linarith
  have hθM := mul_nonneg hθ0 hM2
  have hθM' := mul_le_mul_of_nonneg_right hn hM2
  have hab : |A + B| ≤ 3 * M ^ 2 := by
    rw [abs_le]
    constructor <;> nlinarith
  have h1 : u * |A + B| ≤ u * (3 * M ^ 2) := mul_le_mul_of_nonneg_left hab hu.le
  have h2 : u * (3 * M ^ 2) ≤ θ * M ^ 2 := by nlinarith
  have hF := abs_le.1 hadd
  rw [abs_le]
  constructor <;> nlinarith

/-- A split that separates nothing costs at least 1e8. -/
theorem splitCostF_degenerate (h : Nearest fl) {data : List (Row d)} {f : Fin d} {v : ℝ}
    (hdeg : below data f v = [] ∨ notBelow data f v = []) :
    100000000 ≤ splitCostF fl o data f v := by
  have hD : (100000000 : ℝ) ∈ Double := by
    have := double_nat (m := 100000000) (by norm_num)
    simpa using this
  have h0 : ∀ l : List ℝ, 0 ≤ sideCostF fl o l := by
    intro l
    unfold sideCostF
    split_ifs
    · norm_num
    · exact varOf_nonneg h _ _
  apply le_fl_of_le h hD
  rcases hdeg with hd | hd
  · have := h0 ((notBelow data f v).map (·.2))
    have e : sideCostF fl o ((below data f v).map (·.2)) = 100000000 := by simp [sideCostF, hd]
    linarith
  · have := h0 ((below data f v).map (·.2))
    have e : sideCostF fl o ((notBelow data f v).map (·.2)) = 100000000 := by simp [sideCostF, hd]
    linarith

/-! ### Predictions -/

theorem leafPrediction_eq {L : List (Row d)} (h : L ≠ []) :
    leafPrediction fl o L =
      .ok (meanOf fl o.flat (L.map (·.2)), fl (Real.sqrt (varOf fl o o.flat (L.map (·.2))))) := by
  have h1 : L.map (·.2) ≠ [] := by simpa using h
  simp only [leafPrediction, getOutputsFromLeaf, npStd, npMean_ok h1, bind, Except.bind, pure,
    Except.pure]
  rw [npMean_ok (by simpa using h)]
  rfl

theorem predictByTree_eq {x : Point d} {t : Tree d} {L : List (Row d)} (h : Reaches x t L)
    (hL : L ≠ []) (hn : ∃ f v l r, t = .node f v l r) :
    predictByTree fl o x t =
      .ok (meanOf fl o.flat (L.map (·.2)), fl (Real.sqrt (varOf fl o o.flat (L.map (·.2))))) := by
  induction h with
  | leaf rows => obtain ⟨_, _, _, _, h⟩ := hn; cases h
  | @left i v l r rows hlt hreach ih =>
    cases l with
    | leaf rows' =>
      cases hreach
      rw [predictByTree.eq_def]
      simp only [hlt, if_true]
      exact leafPrediction_eq hL
    | node _ _ _ _ =>
      rw [predictByTree.eq_def]
      simp only [hlt, if_true]
      exact ih hL ⟨_, _, _, _, rfl⟩
  | @right i v l r rows hle hreach ih =>
    cases r with
    | leaf rows' =>
      cases hreach
      rw [predictByTree.eq_def]
      simp only [not_lt.2 hle, if_false]
      exact leafPrediction_eq hL
    | node _ _ _ _ =>
      rw [predictByTree.eq_def]
      simp only [not_lt.2 hle, if_false]
      exact ih hL ⟨_, _, _, _, rfl⟩

/-- The root of a double is rounded with a relative error. -/
theorem sqrt_rounded (h : Nearest fl) {Q : ℝ} (hQ : Q ∈ Double) (h0 : 0 ≤ Q) :
    |fl (Real.sqrt Q) ^ 2 - Q| ≤ 3 * (1 / 2 ^ 53) * Q := by
  rcases h0.eq_or_lt with rfl | hpos
  · simp [fl_zero h]
  · have hmin : (2 : ℝ) ^ (-1074 : ℤ) ≤ Q := by
      obtain ⟨k, hk⟩ := double_multiple hQ
      have hT : (0 : ℝ) < (2 : ℝ) ^ (-1074 : ℤ) := by positivity
      have : 0 < (k : ℝ) := by
        by_contra hc
        push Not at hc
        nlinarith
      have : 1 ≤ k := by exact_mod_cast this
      have : (1 : ℝ) ≤ k := by exact_mod_cast this
      rw [hk]
      nlinarith
    have hs : (2 : ℝ) ^ (-1022 : ℤ) ≤ Real.sqrt Q := by
      apply Real.le_sqrt_of_sq_le
      refine le_trans ?_ hmin
      rw [pow_two, ← zpow_add₀ (by norm_num)]
      exact zpow_le_zpow_right₀ (by norm_num) (by norm_num)
    have hs0 := Real.sqrt_nonneg Q
    have h1 := fl_rel h (x := Real.sqrt Q) (by rwa [abs_of_nonneg hs0])
    rw [abs_of_nonneg hs0] at h1
    have hsq := Real.sq_sqrt h0
    have hu : (0 : ℝ) < 1 / 2 ^ 53 := by norm_num
    have hu1 : (1 : ℝ) / 2 ^ 53 ≤ 1 := by norm_num
    generalize (1 : ℝ) / 2 ^ 53 = u at *
    generalize fl (Real.sqrt Q) = s at *
    generalize Real.sqrt Q = r at *
    have h2 := abs_le.1 h1
    rw [← hsq]
    have hr2 : 0 ≤ u * r ^ 2 := by positivity
    have hur : 0 ≤ u * r := by positivity
    have e : s ^ 2 - r ^ 2 = (s - r) * (s - r) + 2 * r * (s - r) := by ring
    rw [e, abs_le]
    have h3 : (s - r) * (s - r) ≤ (u * r) * (u * r) := by nlinarith
    have h4 : (u * r) * (u * r) ≤ u * r ^ 2 := by nlinarith
    constructor
    · nlinarith [mul_le_mul_of_nonneg_left h2.1 hs0, mul_self_nonneg (s - r)]
    · nlinarith [mul_le_mul_of_nonneg_left h2.2 hs0]

/-- What a tree contributes to the variance of a forest. -/
noncomputable def moment (fl : ℝ → ℝ) (m s : ℝ) : ℝ := fl (square fl m + square fl s)

theorem moment_error (h : Nearest fl) {μ V m Q M θ : ℝ} (hM0 : (2 : ℝ) ^ (-500 : ℤ) ≤ M)
    (hm : |m - μ| ≤ θ * M) (hQ : |Q - V| ≤ 2 * θ * M ^ 2) (hQ0 : 0 ≤ Q) (hQD : Q ∈ Double)
    (hV0 : 0 ≤ V) (hV : V + μ ^ 2 ≤ M ^ 2) (hθ : θ ≤ 1 / 64) (hθu : 16 * (1 / 2 ^ 53) ≤ θ) :
    |moment fl m (fl (Real.sqrt Q)) - (V + μ ^ 2)| ≤ 5 * θ * M ^ 2 := by
  have hMp : 0 < M := lt_of_lt_of_le (by positivity) hM0
  have ha := fl_error h (m ^ 2)
  have hb := fl_error h (fl (Real.sqrt Q) ^ 2)
  have hs := sqrt_rounded h hQD hQ0
  have hp := fl_add_rel h (h.mem (m ^ 2)) (h.mem (fl (Real.sqrt Q) ^ 2))
  rw [abs_of_nonneg (sq_nonneg m)] at ha
  rw [abs_of_nonneg (sq_nonneg (fl (Real.sqrt Q)))] at hb
  have hτ := (tiny_M hM0).2
  unfold moment square
  generalize fl (fl (m ^ 2) + fl (fl (Real.sqrt Q) ^ 2)) = p at *
  generalize fl (fl (Real.sqrt Q) ^ 2) = b at *
  generalize fl (m ^ 2) = a at *
  generalize fl (Real.sqrt Q) ^ 2 = s2 at *
  have hu : (0 : ℝ) < 1 / 2 ^ 53 := by norm_num
  have hu1 : (1 : ℝ) / 2 ^ 53 ≤ 1 / 1000 := by norm_num
  have hτ0 : (0 : ℝ) < (2 : ℝ) ^ (-1075 : ℤ) := by positivity
  have hM2 : 0 < M ^ 2 := by positivity
  have hτ' : (2 : ℝ) ^ (-1075 : ℤ) ≤ 1 / 1000 * (1 / 2 ^ 53 * M ^ 2) := by
    refine hτ.trans ?_
    have : (1 : ℝ) / 2 ^ 53 / 2 ^ 20 * M ^ 2 = 1 / 2 ^ 20 * (1 / 2 ^ 53 * M ^ 2) := by ring
    rw [this]
    apply mul_le_mul_of_nonneg_right _ (by positivity)
    norm_num
  generalize (2 : ℝ) ^ (-1075 : ℤ) = τ at *
  generalize (1 : ℝ) / 2 ^ 53 = u at *
  clear hτ
  have hθ0 : 0 < θ := by linarith
  have hθM : θ * M ^ 2 ≤ 1 / 64 * M ^ 2 := mul_le_mul_of_nonneg_right hθ hM2.le
  have huM : u * M ^ 2 ≤ 1 / 16 * (θ * M ^ 2) := by
    have := mul_le_mul_of_nonneg_right hθu hM2.le
    linarith only [this]
  have huM0 : 0 < u * M ^ 2 := by positivity
  have hμ : |μ| ≤ M := abs_le_of_sq_le_sq (by linarith) hMp.le
  have hm2 : |m ^ 2 - μ ^ 2| ≤ 21 / 10 * (θ * M ^ 2) := by
    have e : m ^ 2 - μ ^ 2 = (m - μ) * (m - μ) + 2 * (μ * (m - μ)) := by ring
    rw [e]
    refine (abs_add_le _ _).trans ?_
    rw [abs_mul, abs_mul 2, abs_mul μ, abs_of_pos (by norm_num : (0 : ℝ) < 2)]
    have h1 : |m - μ| * |m - μ| ≤ (θ * M) * (θ * M) := mul_le_mul hm hm (abs_nonneg _) (by positivity)
    have h2 : |μ| * |m - μ| ≤ M * (θ * M) := mul_le_mul hμ hm (abs_nonneg _) hMp.le
    have h3 : (θ * M) * (θ * M) = θ * (θ * M ^ 2) := by ring
    have h4 : θ * (θ * M ^ 2) ≤ 1 / 64 * (θ * M ^ 2) := mul_le_mul_of_nonneg_right hθ (by positivity)
    have h5 : M * (θ * M) = θ * M ^ 2 := by ring
    linarith
  have hm2' := abs_le.1 hm2
  have hQ' := abs_le.1 hQ
  have hmQ : m ^ 2 + Q ≤ 11 / 10 * M ^ 2 := by
    linarith only [hm2'.2, hQ'.2, hθM, hV, hM2]
  have hmnn := sq_nonneg m
  have hsu : 3 * u * Q ≤ 33 / 10 * (u * M ^ 2) := by
    have := mul_le_mul_of_nonneg_left (show Q ≤ 11 / 10 * M ^ 2 by linarith only [hmQ, hmnn]) hu.le
    linarith only [this]
  have hs' := abs_le.1 hs
  have hs2 : s2 ≤ 12 / 10 * M ^ 2 := by
    linarith only [hs'.2, hsu, hmQ, hmnn, huM, hθM, hM2]
  have h6 : u * m ^ 2 ≤ 11 / 10 * (u * M ^ 2) := by
    have := mul_le_mul_of_nonneg_left (show m ^ 2 ≤ 11 / 10 * M ^ 2 by linarith only [hmQ, hQ0]) hu.le
    linarith only [this]
  have h7 : u * s2 ≤ 12 / 10 * (u * M ^ 2) := by
    have := mul_le_mul_of_nonneg_left hs2 hu.le
    linarith only [this]
  have ha' := abs_le.1 ha
  have hb' := abs_le.1 hb
  have hab : |a + b| ≤ 12 / 10 * M ^ 2 := by
    rw [abs_le]
    have hfact : 0 < θ * M ^ 2 := by positivity
    constructor
    · linarith only [ha'.1, hb'.1, h6, h7, huM, hθM, hs'.1, hsu, hτ', hmnn, hQ0, hM2, hfact, huM0]
    · linarith only [ha'.2, hb'.2, h6, h7, huM, hθM, hs'.2, hsu, hτ', hmQ, hM2, hfact, huM0]
  have h8 : u * |a + b| ≤ 12 / 10 * (u * M ^ 2) := by
    have := mul_le_mul_of_nonneg_left hab hu.le
    linarith only [this]
  have hp' := abs_le.1 hp
  have hfact : 0 < θ * M ^ 2 := by positivity
  rw [abs_le]
  constructor
  · linarith only [ha'.1, hb'.1, hp'.1, h6, h7, h8, huM, hs'.1, hsu, hτ', hm2'.1, hQ'.1, hfact, huM0]
  · linarith only [ha'.2, hb'.2, hp'.2, h6, h7, h8, huM, hs'.2, hsu, hτ', hm2'.2, hQ'.2, hfact, huM0]

/-- The prediction of a forest with rounding. -/
theorem predictByTreesOne_eq (h : Nearest fl) {x : Point d} {trees : List (Tree d)} (hne : trees ≠ [])
    {L : Tree d → List (Row d)} (hn : ∀ t ∈ trees, ∃ f v l r, t = .node f v l r)
    (hL : ∀ t ∈ trees, Reaches x t (L t) ∧ L t ≠ []) :
    predictByTreesOne fl o x trees =
      .ok (meanOf fl o.flat (trees.map fun t => meanOf fl o.flat ((L t).map (·.2))),
        fl (Real.sqrt (max (fl (meanOf fl o.flat (trees.map fun t =>
          moment fl (meanOf fl o.flat ((L t).map (·.2)))
            (fl (Real.sqrt (varOf fl o o.flat ((L t).map (·.2)))))) -
          square fl (meanOf fl o.flat (trees.map fun t => meanOf fl o.flat ((L t).map (·.2)))))) 0))) := by
  have hmap : trees.mapM (predictByTree fl o x) = .ok (trees.map fun t =>
      (meanOf fl o.flat ((L t).map (·.2)), fl (Real.sqrt (varOf fl o o.flat ((L t).map (·.2)))))) :=
    mapM_ok _ _ _ (fun t ht => predictByTree_eq (hL t ht).1 (hL t ht).2 (hn t ht))
  have hz : List.zipWith (fun m s => fl (square fl m + square fl s))
      (trees.map fun t => meanOf fl o.flat ((L t).map (·.2)))
      ((trees.map fun t => fl (Real.sqrt (varOf fl o o.flat ((L t).map (·.2))))).map
        (fun s => max s (fl (0 + 0)))) =
      trees.map fun t => moment fl (meanOf fl o.flat ((L t).map (·.2)))
            (fl (Real.sqrt (varOf fl o o.flat ((L t).map (·.2))))) := by
    rw [List.map_map, List.zipWith_map, List.zipWith_self]
    apply List.map_congr_left
    intro t _
    simp only [Function.comp_apply, add_zero, fl_zero h]
    rw [max_eq_left (fl_nonneg h (Real.sqrt_nonneg _))]
    rfl
  simp only [predictByTreesOne, hmap, bind, Except.bind, pure, Except.pure, List.map_map,
    Function.comp_def, computeSigma, pyAssert, List.length_map, if_true]
  rw [npMean_ok (by simpa using hne)]
  simp only []
  simp only [List.map_map, Function.comp_def] at hz
  rw [hz, npMean_ok (by simpa using hne)]

theorem abs_max_zero_sub_le {a b : ℝ} (hb : 0 ≤ b) : |max a 0 - b| ≤ |a - b| := by
  have := abs_max_sub_max_le_abs a b 0
  rwa [max_eq_left hb] at this

theorem clamp_error {M u θ τ mu mu' s1 S w D' D z : ℝ} (hM2 : 0 < M ^ 2) (hu : 0 < u) (hθ : θ ≤ 1 / 64)
    (hθu : 16 * u ≤ θ) (hτ2 : τ ≤ 1 / 1000 * (u * M ^ 2)) (hmu_err : |mu' - mu| ≤ 65 / 64 * (θ * M))
    (hmuM : |mu| ≤ M) (hMp : 0 < M) (hSM : S ≤ M ^ 2) (hvar0 : 0 ≤ S - mu ^ 2)
    (hs1_err : |s1 - S| ≤ 62 / 10 * (θ * M ^ 2)) (hsq : |w - mu' ^ 2| ≤ u * mu' ^ 2 + τ)
    (hdiff : |D' - (s1 - w)| ≤ u * |s1 - w|) (hD0 : 0 ≤ D)
    (hmax : |D - (S - mu ^ 2)| ≤ |D' - (S - mu ^ 2)|) (hroot : |z - D| ≤ 3 * u * D) :
    |z - (S - mu ^ 2)| ≤ 10 * θ * M ^ 2 := by
  have hθ0 : 0 < θ := by linarith only [hu, hθu]
  have hθM : θ * M ^ 2 ≤ 1 / 64 * M ^ 2 := mul_le_mul_of_nonneg_right hθ hM2.le
  have hθMp : 0 < θ * M ^ 2 := by positivity
  have huM : u * M ^ 2 ≤ 1 / 16 * (θ * M ^ 2) := by
    have := mul_le_mul_of_nonneg_right hθu hM2.le
    linarith only [this]
  have huM0 : 0 < u * M ^ 2 := by positivity
  have hmm : |mu' ^ 2 - mu ^ 2| ≤ 21 / 10 * (θ * M ^ 2) := by
    have e : mu' ^ 2 - mu ^ 2 = (mu' - mu) * (mu' - mu) + 2 * (mu * (mu' - mu)) := by ring
    rw [e]
    refine (abs_add_le _ _).trans ?_
    rw [abs_mul, abs_mul 2, abs_mul mu, abs_of_pos (by norm_num : (0 : ℝ) < 2)]
    have h1 : |mu' - mu| * |mu' - mu| ≤ (65 / 64 * (θ * M)) * (65 / 64 * (θ * M)) :=
      mul_le_mul hmu_err hmu_err (abs_nonneg _) (by positivity)
    have h2 : |mu| * |mu' - mu| ≤ M * (65 / 64 * (θ * M)) :=
      mul_le_mul hmuM hmu_err (abs_nonneg _) hMp.le
    have h3 : (65 / 64 * (θ * M)) * (65 / 64 * (θ * M)) = (65 / 64) ^ 2 * (θ * (θ * M ^ 2)) := by ring
    have h4 : θ * (θ * M ^ 2) ≤ 1 / 64 * (θ * M ^ 2) := mul_le_mul_of_nonneg_right hθ hθMp.le
    have h5 : M * (65 / 64 * (θ * M)) = 65 / 64 * (θ * M ^ 2) := by ring
    linarith only [h1, h2, h3, h4, h5, hθMp]
  have hmm' := abs_le.1 hmm
  have hmu2 : mu ^ 2 ≤ M ^ 2 := by
    rw [← sq_abs]
    exact pow_le_pow_left₀ (abs_nonneg _) hmuM 2
  have h6 : mu' ^ 2 ≤ 11 / 10 * M ^ 2 := by linarith only [hmm'.2, hmu2, hθM, hM2]
  have h7 : u * mu' ^ 2 ≤ 11 / 10 * (u * M ^ 2) := by
    have := mul_le_mul_of_nonneg_left h6 hu.le
    linarith only [this]
  have hsq' := abs_le.1 hsq
  have hs1' := abs_le.1 hs1_err
  have hd1 : |(s1 - w) - (S - mu ^ 2)| ≤ 85 / 10 * (θ * M ^ 2) := by
    rw [abs_le]
    constructor
    · linarith only [hs1'.1, hsq'.2, hmm'.2, h7, huM, hτ2, hθMp, huM0]
    · linarith only [hs1'.2, hsq'.1, hmm'.1, h7, huM, hτ2, hθMp, huM0]
  have hd1' := abs_le.1 hd1
  have hmn := sq_nonneg mu
  have hd2 : |s1 - w| ≤ 12 / 10 * M ^ 2 := by
    rw [abs_le]
    constructor
    · linarith only [hd1'.1, hvar0, hθM, hM2]
    · linarith only [hd1'.2, hSM, hmn, hθM, hM2]
  have h8 : u * |s1 - w| ≤ 12 / 10 * (u * M ^ 2) := by
    have := mul_le_mul_of_nonneg_left hd2 hu.le
    linarith only [this]
  have hdiff' := abs_le.1 hdiff
  have hD' : |D' - (S - mu ^ 2)| ≤ 87 / 10 * (θ * M ^ 2) := by
    rw [abs_le]
    constructor
    · linarith only [hdiff'.1, hd1'.1, h8, huM, hθMp]
    · linarith only [hdiff'.2, hd1'.2, h8, huM, hθMp]
  have hD := abs_le.1 (hmax.trans hD')
  have h9 : D ≤ 12 / 10 * M ^ 2 := by linarith only [hD.2, hSM, hmn, hθM, hM2]
  have h10 : 3 * u * D ≤ 36 / 10 * (u * M ^ 2) := by
    have := mul_le_mul_of_nonneg_left h9 hu.le
    linarith only [this]
  have hroot' := abs_le.1 hroot
  rw [abs_le]
  constructor
  · linarith only [hroot'.1, hD.1, h10, huM, hθMp]
  · linarith only [hroot'.2, hD.2, h10, huM, hθMp]

/-- What the prediction of a forest is off by. -/
theorem forest_error (h : Nearest fl) (ho : SumsAll o) {x : Point d} {trees : List (Tree d)}
    (hne : trees ≠ []) {L : Tree d → List (Row d)} (hn : ∀ t ∈ trees, ∃ f v l r, t = .node f v l r)
    (hL : ∀ t ∈ trees, Reaches x t (L t) ∧ L t ≠ []) {M : ℝ} (hM0 : (2 : ℝ) ^ (-500 : ℤ) ≤ M)
    (hM : ∀ t ∈ trees, ∀ p ∈ L t, p.2 ∈ Double ∧ |p.2| ≤ M) {n : ℕ} (hsize : ∀ t ∈ trees, (L t).length ≤ n)
    {θ : ℝ} (hθd : θ = 2 * ((n : ℝ) + trees.length + 8) * (1 / 2 ^ 53)) (hθ : θ ≤ 1 / 64) :
    ∃ mu sigma mu' sigma', Trees.predictByTreesOne x trees = .ok (mu, sigma) ∧
      predictByTreesOne fl o x trees = .ok (mu', sigma') ∧ mu' ∈ Double ∧ sigma' ∈ Double ∧
      0 ≤ sigma' ∧ 0 ≤ sigma ∧ |mu| ≤ M ∧ |mu' - mu| ≤ 2 * θ * M ∧ |sigma' ^ 2 - sigma ^ 2| ≤ 10 * θ * M ^ 2 := by
  have hMp : 0 < M := lt_of_lt_of_le (by positivity) hM0
  have hM2 : 0 < M ^ 2 := by positivity
  have hu : (0 : ℝ) < 1 / 2 ^ 53 := by norm_num
  have hnn : (0 : ℝ) ≤ n := Nat.cast_nonneg _
  have hT : (0 : ℝ) ≤ trees.length := Nat.cast_nonneg _
  have hT1 : 1 ≤ trees.length := List.length_pos_iff.2 hne
  have hθu : 16 * (1 / 2 ^ 53) ≤ θ := by rw [hθd]; nlinarith
  have hθ0 : 0 < θ := by linarith
  set μ : Tree d → ℝ := fun t => avg ((L t).map (·.2)) with hμ
  set V : Tree d → ℝ := fun t => msd (μ t) ((L t).map (·.2)) with hV
  set m : Tree d → ℝ := fun t => meanOf fl o.flat ((L t).map (·.2)) with hm
  set Q : Tree d → ℝ := fun t => varOf fl o o.flat ((L t).map (·.2)) with hQ
  set p : Tree d → ℝ := fun t => moment fl (m t) (fl (Real.sqrt (Q t))) with hp
  set mu := avg (trees.map μ) with hmu
  -- one tree
  have htree : ∀ t ∈ trees, |m t - μ t| ≤ 2 * n * (1 / 2 ^ 53) * M + (2 : ℝ) ^ (-1075 : ℤ) ∧
      |Q t - V t| ≤ 2 * θ * M ^ 2 ∧ V t + μ t ^ 2 ≤ M ^ 2 := by
    intro t ht
    have hne' : (L t).map (·.2) ≠ [] := by simpa using (hL t ht).2
    have hpos : 1 ≤ ((L t).map (·.2)).length := List.length_pos_iff.2 hne'
    have hlen : (((L t).map (·.2)).length : ℝ) ≤ n := by
      rw [List.length_map]; exact_mod_cast hsize t ht
    have hMr : ∀ y ∈ (L t).map (·.2), |y| ≤ M := by
      intro y hy
      obtain ⟨q, hq, rfl⟩ := List.mem_map.1 hy
      exact (hM t ht q hq).2
    have hmono : 2 * ((((L t).map (·.2)).length : ℝ) + 8) * (1 / 2 ^ 53) ≤ θ := by
      rw [hθd]
      gcongr
      linarith
    obtain ⟨h1, h2⟩ := mean_var_error h (o := o) (order := o.flat) hne' (ho _ hpos).2 (ho _ hpos).2
      (by
        intro y hy
        obtain ⟨q, hq, rfl⟩ := List.mem_map.1 hy
        exact (hM t ht q hq).1) hM0 hMr (hmono.trans hθ)
    refine ⟨h1.trans ?_, h2.trans ?_, msd_le_sq hne' hMr⟩
    · gcongr
    · have := mul_le_mul_of_nonneg_right hmono hM2.le
      linarith
  obtain ⟨t1, t2⟩ := tiny_M hM0
  have hτ1 : (2 : ℝ) ^ (-1075 : ℤ) ≤ 1 / 1000 * (1 / 2 ^ 53 * M) := by
    refine t1.trans ?_
    rw [show (1 : ℝ) / 2 ^ 53 / 2 ^ 20 * M = 1 / 2 ^ 20 * (1 / 2 ^ 53 * M) by ring]
    apply mul_le_mul_of_nonneg_right _ (by positivity)
    norm_num
  have hτ2 : (2 : ℝ) ^ (-1075 : ℤ) ≤ 1 / 1000 * (1 / 2 ^ 53 * M ^ 2) := by
    refine t2.trans ?_
    rw [show (1 : ℝ) / 2 ^ 53 / 2 ^ 20 * M ^ 2 = 1 / 2 ^ 20 * (1 / 2 ^ 53 * M ^ 2) by ring]
    apply mul_le_mul_of_nonneg_right _ (by positivity)
    norm_num
  have hτ0 : (0 : ℝ) < (2 : ℝ) ^ (-1075 : ℤ) := by positivity
  have hlocal : 2 * n * (1 / 2 ^ 53) * M + (2 : ℝ) ^ (-1075 : ℤ) ≤ θ * M := by
    have : 2 * (n : ℝ) * (1 / 2 ^ 53) + 1 / 2 ^ 53 ≤ θ := by rw [hθd]; nlinarith
    have h1 := mul_le_mul_of_nonneg_right this hMp.le
    have : 0 < 1 / 2 ^ 53 * M := by positivity
    linarith
  have hmom : ∀ t ∈ trees, |p t - (V t + μ t ^ 2)| ≤ 5 * θ * M ^ 2 := by
    intro t ht
    obtain ⟨h1, h2, h3⟩ := htree t ht
    exact moment_error h hM0 (h1.trans hlocal) h2 (varOf_nonneg h _ _) (varOf_mem h _ _)
      (msd_nonneg _ _) h3 hθ hθu
  have hμM : ∀ t ∈ trees, |μ t| ≤ M := by
    intro t ht
    apply abs_le_of_sq_le_sq _ hMp.le
    have h1 := (htree t ht).2.2
    have h2 : 0 ≤ V t := msd_nonneg _ _
    linarith
  -- the mean
  have hmuM : |mu| ≤ M := (abs_avg_le trees μ).trans (avg_le hne hμM)
  have hcov := (ho _ hT1).2
  have hTθ : 2 * (trees.length : ℝ) * (1 / 2 ^ 53) + 16 * (1 / 2 ^ 53) ≤ θ := by
    rw [hθd]; nlinarith
  have hmean := meanOf_error h (order := o.flat) (l := trees.map m) (by simpa using hcov)
    (by
      intro y hy
      obtain ⟨t, _, rfl⟩ := List.mem_map.1 hy
      exact h.mem _) (by rw [List.length_map]; linarith)
  rw [List.length_map, List.map_map] at hmean
  have hmabs : avg (trees.map (abs ∘ m)) ≤ 65 / 64 * M := by
    apply avg_le hne
    intro t ht
    have h1 := ((htree t ht).1).trans hlocal
    have h2 := hμM t ht
    have h3 : |m t| ≤ |m t - μ t| + |μ t| := by
      have := abs_add_le (m t - μ t) (μ t)
      rwa [sub_add_cancel] at this
    have h4 := mul_le_mul_of_nonneg_right hθ hMp.le
    simp only [Function.comp_apply]
    linarith
  have hmavg : |avg (trees.map m) - mu| ≤ 0 * avg (trees.map m) +
      (2 * n * (1 / 2 ^ 53) * M + (2 : ℝ) ^ (-1075 : ℤ)) :=
    avg_close hne (fun t ht => by rw [zero_mul, zero_add]; exact (htree t ht).1)
  set mu' := meanOf fl o.flat (trees.map m) with hmu'
  have hmu_err : |mu' - mu| ≤ 65 / 64 * (θ * M) := by
    have h1 := abs_sub_le mu' (avg (trees.map m)) mu
    have h2 : 2 * (trees.length : ℝ) * (1 / 2 ^ 53) * avg (trees.map (abs ∘ m)) ≤
        2 * trees.length * (1 / 2 ^ 53) * (65 / 64 * M) :=
      mul_le_mul_of_nonneg_left hmabs (by positivity)
    have h3 : 2 * (trees.length : ℝ) * (1 / 2 ^ 53) * (65 / 64 * M) + 2 * n * (1 / 2 ^ 53) * M +
        16 * (1 / 2 ^ 53 * M) ≤ 65 / 64 * (θ * M) := by
      rw [hθd]
      have : 0 ≤ (n : ℝ) * (1 / 2 ^ 53 * M) := by positivity
      have : 0 ≤ (1 / 2 ^ 53 * M : ℝ) := by positivity
      linarith
    linarith
  -- the second moment
  set S := avg (trees.map fun t => V t + μ t ^ 2) with hS
  have hSM : S ≤ M ^ 2 := avg_le hne (fun t ht => (htree t ht).2.2)
  have hpavg : |avg (trees.map p) - S| ≤ 0 * avg (trees.map p) + 5 * θ * M ^ 2 :=
    avg_close hne (fun t ht => by rw [zero_mul, zero_add]; exact hmom t ht)
  have hp0 : ∀ t, 0 ≤ p t := fun t =>
    fl_nonneg h (add_nonneg (fl_nonneg h (sq_nonneg _)) (fl_nonneg h (sq_nonneg _)))
  have hpmean := meanOf_error h (order := o.flat) (l := trees.map p) (by simpa using hcov)
    (by
      intro y hy
      obtain ⟨t, _, rfl⟩ := List.mem_map.1 hy
      exact h.mem _) (by rw [List.length_map]; linarith)
  have hpabs : (trees.map p).map abs = trees.map p := by
    rw [List.map_map]
    apply List.map_congr_left
    intro t _
    exact abs_of_nonneg (hp0 t)
  rw [List.length_map, hpabs] at hpmean
  set s1 := meanOf fl o.flat (trees.map p) with hs1
  have hs1_err : |s1 - S| ≤ 62 / 10 * (θ * M ^ 2) := by
    have h1 := abs_sub_le s1 (avg (trees.map p)) S
    have h2 := (abs_le.1 hpavg).2
    have hθM := mul_le_mul_of_nonneg_right hθ hM2.le
    have h3 : avg (trees.map p) ≤ 11 / 10 * M ^ 2 := by linarith
    have h4 : 2 * (trees.length : ℝ) * (1 / 2 ^ 53) * avg (trees.map p) ≤
        2 * trees.length * (1 / 2 ^ 53) * (11 / 10 * M ^ 2) :=
      mul_le_mul_of_nonneg_left h3 (by positivity)
    have h5 := mul_le_mul_of_nonneg_right hTθ hM2.le
    have h6 : 0 < (1 / 2 ^ 53 * M ^ 2 : ℝ) := by positivity
    have h7 : 0 < θ * M ^ 2 := by positivity
    linarith only [h1, hpavg, hpmean, h4, h5, h6, h7, hτ2]
  -- the exact prediction
  have hexact := Trees.predictByTreesOne_eq hne hn hL (m := mu) rfl
  have hSvar : avg (trees.map fun t => msd mu ((L t).map (·.2))) = S - mu ^ 2 := by
    have e1 : trees.map (fun t => msd mu ((L t).map (·.2))) =
        trees.map (fun t => (V t + μ t ^ 2) - (2 * mu * μ t - mu ^ 2)) := by
      apply List.map_congr_left
      intro t ht
      rw [msd_eq (by simpa using (hL t ht).2) mu]
      simp only [hV, hμ]
      ring
    rw [e1, avg_sub, avg_sub, avg_const hne]
    have := avg_mul trees (2 * mu) μ
    rw [this, ← hmu]
    ring
  rw [hSvar] at hexact
  have hvar0 : 0 ≤ S - mu ^ 2 := by
    rw [← hSvar]
    exact avg_nonneg (fun t _ => msd_nonneg _ _)
  refine ⟨mu, Real.sqrt (S - mu ^ 2), mu', _, hexact, predictByTreesOne_eq h hne hn hL, h.mem _,
    h.mem _, fl_nonneg h (Real.sqrt_nonneg _), Real.sqrt_nonneg _, hmuM, ?_, ?_⟩
  · have : 0 < θ * M := by positivity
    linarith
  · rw [Real.sq_sqrt hvar0]
    have hsq := fl_error h (mu' ^ 2)
    rw [abs_of_nonneg (sq_nonneg mu')] at hsq
    have hdiff := fl_sub_rel h (show s1 ∈ Double from h.mem _) (h.mem (mu' ^ 2))
    have hD0 : 0 ≤ max (fl (s1 - fl (mu' ^ 2))) 0 := le_max_right _ _
    have hDm : max (fl (s1 - fl (mu' ^ 2))) 0 ∈ Double := by
      rcases max_choice (fl (s1 - fl (mu' ^ 2))) 0 with he | he <;> rw [he]
      · exact h.mem _
      · exact double_zero
    have hroot := sqrt_rounded h hDm hD0
    have hmax := abs_max_zero_sub_le (a := fl (s1 - fl (mu' ^ 2))) hvar0
    change |fl (Real.sqrt (max (fl (s1 - fl (mu' ^ 2))) 0)) ^ 2 - (S - mu ^ 2)| ≤ _
    exact clamp_error hM2 hu hθ hθu hτ2 hmu_err hmuM hMp hSM hvar0 hs1_err hsq hdiff hD0 hmax hroot

/-! ### The thresholds tried -/

theorem levels_neighbours {X : List (Point d)} {f : Fin d} {i : ℕ} (hi : i < (levels X f).length - 1) :
    ∃ x ∈ X, ∃ y ∈ X, x f < y f ∧ (∀ z ∈ X, z f ≤ x f ∨ y f ≤ z f) ∧
      (levels X f).getD i 0 = x f ∧ (levels X f).getD (i + 1) 0 = y f := by
  have h1 : i < (levels X f).length := by omega
  have h2 : i + 1 < (levels X f).length := by omega
  have hs := List.pairwise_iff_getElem.1 (levels_sorted X f)
  have e1 : (levels X f).getD i 0 = (levels X f)[i] := by simp [List.getElem?_eq_getElem, h1]
  have e2 : (levels X f).getD (i + 1) 0 = (levels X f)[i + 1] := by
    simp [List.getElem?_eq_getElem, h2]
  obtain ⟨x, hx, hxe⟩ := mem_levels.1 (List.getElem_mem h1)
  obtain ⟨y, hy, hye⟩ := mem_levels.1 (List.getElem_mem h2)
  refine ⟨x, hx, y, hy, ?_, ?_, by rw [e1, hxe], by rw [e2, hye]⟩
  · rw [hxe, hye]
    exact hs i (i + 1) h1 h2 (by omega)
  · intro z hz
    obtain ⟨j, hj, hje⟩ := List.getElem_of_mem (mem_levels.2 ⟨z, hz, rfl⟩)
    rw [hxe, hye, ← hje]
    rcases lt_trichotomy j i with h | h | h
    · exact Or.inl (hs j i hj h1 h).le
    · subst h; exact Or.inl le_rfl
    · rcases Nat.eq_or_lt_of_le (Nat.succ_le_of_lt h) with h' | h'
      · have h' : j = i + 1 := by omega
        subst h'; exact Or.inr le_rfl
      · exact Or.inr (hs (i + 1) j h2 hj h').le

theorem levels_single {X : List (Point d)} (hX : X ≠ []) {f : Fin d}
    (h : ¬ (levels X f).length > 1) : ∃ a, levels X f = [a] ∧ ∀ x ∈ X, x f = a := by
  have hl : (levels X f).length = 1 := by
    have := List.length_pos_iff.2 (levels_ne_nil hX f)
    omega
  obtain ⟨a, ha⟩ := List.length_eq_one_iff.1 hl
  refine ⟨a, ha, fun x hx => ?_⟩
  have : x f ∈ levels X f := mem_levels.2 ⟨x, hx, rfl⟩
  rw [ha] at this
  simpa using this

theorem triedF_midpoint {r : NodeRnd d} (hr : NodeRndOk r) {X : List (Point d)} (hX : X ≠ [])
    {nf : ℤ} {f : Fin d} {v : ℝ} (h : (f, v) ∈ triedF fl r X nf false) :
    (f ∈ r.features nf ∧ ∃ x ∈ X, ∃ y ∈ X, x f < y f ∧ (∀ z ∈ X, z f ≤ x f ∨ y f ≤ z f) ∧
      v = fl (fl (x f + y f) / 2)) ∨
    (f ∈ r.features nf ∧ (∀ x ∈ X, ∀ y ∈ X, x f = y f) ∧ ∃ x ∈ X, v = x f) := by
  obtain ⟨⟨f', k⟩, hq, hm⟩ := List.mem_flatMap.1 h
  simp only [Bool.false_eq_true, if_false, List.mem_map] at hm
  obtain ⟨v', hv', he⟩ := hm
  simp only [Prod.mk.injEq] at he
  obtain ⟨rfl, rfl⟩ := he
  have hf : f' ∈ r.features nf := by
    have := List.mem_map_of_mem (f := Prod.fst) hq
    simpa using this
  unfold triedMidpointsF at hv'
  by_cases hl : (levels X f').length > 1
  · simp only [hl, if_true, List.mem_map] at hv'
    obtain ⟨i, hi, rfl⟩ := hv'
    obtain ⟨x, hx, y, hy, hxy, hgap, e1, e2⟩ :=
      levels_neighbours (X := X) (f := f') (hr.locs_lt _ _ _ (by omega) i hi)
    exact Or.inl ⟨hf, x, hx, y, hy, hxy, hgap, by rw [e1, e2]⟩
  · obtain ⟨a, ha, hc⟩ := levels_single hX hl
    simp only [hl, if_false] at hv'
    rw [ha] at hv'
    obtain ⟨_, _, rfl⟩ := List.mem_map.1 hv'
    obtain ⟨x, hx⟩ := List.exists_mem_of_ne_nil X hX
    exact Or.inr ⟨hf, fun y hy z hz => by rw [hc y hy, hc z hz], x, hx, by simp [hc x hx]⟩

theorem mem_of_all {l : List ℕ} {n : ℕ} (h1 : l.length = n) (h2 : l.Nodup)
    (h3 : ∀ i ∈ l, i < n) {i : ℕ} (hi : i < n) : i ∈ l := by
  have hsub : l.toFinset ⊆ Finset.range n := by
    intro j hj
    simpa using h3 j (by simpa using hj)
  have hcard : (Finset.range n).card ≤ l.toFinset.card := by
    rw [List.toFinset_card_of_nodup h2, h1, Finset.card_range]
  have := Finset.eq_of_subset_of_card_le hsub hcard
  have hmem : i ∈ l.toFinset := by rw [this]; simpa using hi
  simpa using hmem

theorem triedF_all {r : NodeRnd d} (hr : NodeRndOk r) {X : List (Point d)}
    {nf : ℤ} {f : Fin d} (hf : f ∈ r.features nf)
    (hfew : ((X.map (fun x => x f)).toFinset).card ≤ 21) {x y : Point d} (hx : x ∈ X) (hy : y ∈ X)
    (hxy : x f < y f) (hgap : ∀ z ∈ X, z f ≤ x f ∨ y f ≤ z f) :
    (f, fl (fl (x f + y f) / 2)) ∈ triedF fl r X nf false := by
  have hlen : (levels X f).length ≤ 21 := by
    simpa [levels] using hfew
  obtain ⟨k, hk, hke⟩ := List.getElem_of_mem hf
  apply List.mem_flatMap.2
  refine ⟨(f, k), ?_, ?_⟩
  · rw [List.mem_iff_getElem]
    exact ⟨k, by simpa using hk, by simp [hke]⟩
  · simp only [Bool.false_eq_true, if_false, List.mem_map]
    refine ⟨_, ?_, rfl⟩
    unfold triedMidpointsF
    obtain ⟨i, hi, hie⟩ := List.getElem_of_mem (mem_levels.2 ⟨x, hx, rfl⟩ : x f ∈ levels X f)
    obtain ⟨j, hj, hje⟩ := List.getElem_of_mem (mem_levels.2 ⟨y, hy, rfl⟩ : y f ∈ levels X f)
    have hs := List.pairwise_iff_getElem.1 (levels_sorted X f)
    have hij : i < j := by
      by_contra hc
      rcases Nat.eq_or_lt_of_le (not_lt.1 hc) with h | h
      · subst h
        rw [hie] at hje
        linarith
      · have := hs j i hj hi h
        linarith
    have hj1 : j = i + 1 := by
      by_contra hc
      have hi1 : i + 1 < (levels X f).length := by omega
      obtain ⟨z, hz, hze⟩ := mem_levels.1 (List.getElem_mem hi1)
      have a1 := hs i (i + 1) hi hi1 (by omega)
      have a2 := hs (i + 1) j hi1 hj (by omega)
      rcases hgap z hz with h | h <;> linarith
    subst hj1
    have hmany : (levels X f).length > 1 := by omega
    simp only [hmany, if_true, List.mem_map]
    refine ⟨i, ?_, ?_⟩
    · have hmin : min 20 ((levels X f).length - 1) = (levels X f).length - 1 := by omega
      rw [hmin]
      exact mem_of_all (hr.locs_length _ _ _ le_rfl) (hr.locs_nodup _ _ _ le_rfl)
        (hr.locs_lt _ _ _ le_rfl) (by omega)
    · simp only [List.getD_eq_getElem?_getD, List.getElem?_eq_getElem hi,
        List.getElem?_eq_getElem hj, Option.getD_some, hie, hje]

end Verif.RoundedTrees
