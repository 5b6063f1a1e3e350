import Verif.Props.RoundedTrees

/-!
# Forest predictions in double precision (C139)
-/

namespace Verif.Props

open Verif.Spec Verif.RoundedTrees Verif.Lemmas
open Verif.Trees (Row Tree exists_reaches)
open Verif.Rounded (SumOrder)
open Verif.RoundedKernels (sumList)

variable {d : ℕ} {fl : ℝ → ℝ} {o : Orders}

private theorem leaf_close {θ u M Q V s2 : ℝ} (hθ : θ ≤ 1 / 64) (hu : 16 * u ≤ θ) (hu0 : 0 < u)
    (hM2 : 0 < M ^ 2) (e2 : |Q - V| ≤ 2 * θ * M ^ 2) (hV : V ≤ M ^ 2)
    (hroot : |s2 - Q| ≤ 3 * u * Q) : |s2 - V| ≤ 3 * (θ * M ^ 2) := by
  have h5 := abs_le.1 e2
  have hQ : Q ≤ 2 * M ^ 2 := by
    have h2 := mul_le_mul_of_nonneg_right hθ hM2.le
    linarith only [h5.2, h2, hV, hM2]
  have h3 : u * Q ≤ u * (2 * M ^ 2) := mul_le_mul_of_nonneg_left hQ hu0.le
  have h4 := mul_le_mul_of_nonneg_right hu hM2.le
  have h6 := abs_le.1 hroot
  have h7 : 0 < u * M ^ 2 := by positivity
  rw [abs_le]
  constructor
  · linarith only [h5.1, h6.1, h3, h4, h7]
  · linarith only [h5.2, h6.2, h3, h4, h7]

private theorem mean_close {M D k : ℝ} (hM0 : (2 : ℝ) ^ (-500 : ℤ) ≤ M)
    (e1 : D ≤ 2 * k * (1 / 2 ^ 53) * M + (2 : ℝ) ^ (-1075 : ℤ)) : D ≤ (k + 1) / 2 ^ 52 * M := by
  have hMp : 0 < M := lt_of_lt_of_le (by positivity) hM0
  have ht := (tiny_M hM0).1
  have h20 : (1 : ℝ) / 2 ^ 53 / 2 ^ 20 * M ≤ 1 / 2 ^ 52 * M := by
    apply mul_le_mul_of_nonneg_right _ hMp.le
    norm_num
  have e : (k + 1) / 2 ^ 52 * M = 2 * k * (1 / 2 ^ 53) * M + 1 / 2 ^ 52 * M := by
    ring
  rw [e]
  exact e1.trans (add_le_add le_rfl (ht.trans h20))

/-- C139: the leaf a query reaches does not depend on rounding; the mean of its `n` responses, at
most `M` each, is off by `(n + 1) M / 2^52` at most, and the square of the deviation by
`3 (n + 8) M^2 / 2^52`. The deviation is not negative. -/
theorem C139_leaf (h : Nearest fl) (ho : SumsAll o) {x : Point d} {t : Tree d} {L : List (Row d)}
    (hn : ∃ f v l r, t = .node f v l r) (hL : Reaches x t L) (hne : L ≠ []) {M : ℝ}
    (hM0 : (2 : ℝ) ^ (-500 : ℤ) ≤ M) (hM : ∀ p ∈ L, p.2 ∈ Double ∧ |p.2| ≤ M)
    (hsize : ((L.length : ℝ) + 8) / 2 ^ 52 ≤ 1 / 64) :
    ∃ m' s', predictByTree fl o x t = .ok (m', s') ∧
      |m' - avg (L.map (·.2))| ≤ ((L.length : ℝ) + 1) / 2 ^ 52 * M ∧ 0 ≤ s' ∧
      |s' ^ 2 - msd (avg (L.map (·.2))) (L.map (·.2))| ≤ 3 * ((L.length : ℝ) + 8) / 2 ^ 52 * M ^ 2 := by
  have hMp : 0 < M := lt_of_lt_of_le (by positivity) hM0
  have hne' : L.map (·.2) ≠ [] := by simpa using hne
  have hpos : 1 ≤ (L.map (·.2)).length := List.length_pos_iff.2 hne'
  have hMr : ∀ y ∈ L.map (·.2), |y| ≤ M := by
    intro y hy
    obtain ⟨q, hq, rfl⟩ := List.mem_map.1 hy
    exact (hM q hq).2
  have hθ : 2 * (((L.map (·.2)).length : ℝ) + 8) * (1 / 2 ^ 53) ≤ 1 / 64 := by
    rw [List.length_map]
    calc _ = ((L.length : ℝ) + 8) / 2 ^ 52 := by ring
      _ ≤ _ := hsize
  obtain ⟨e1, e2⟩ := mean_var_error h (o := o) (order := o.flat) hne' (ho _ hpos).2 (ho _ hpos).2
    (by
      intro y hy
      obtain ⟨q, hq, rfl⟩ := List.mem_map.1 hy
      exact (hM q hq).1) hM0 hMr hθ
  have hvar := msd_le_sq hne' hMr
  have hQ0 : 0 ≤ varOf fl o o.flat (L.map (·.2)) := varOf_nonneg h _ _
  have hroot : |fl (Real.sqrt (varOf fl o o.flat (L.map (·.2)))) ^ 2 - varOf fl o o.flat (L.map (·.2))| ≤
      3 * (1 / 2 ^ 53) * varOf fl o o.flat (L.map (·.2)) := by
    have hQD : varOf fl o o.flat (L.map (·.2)) ∈ Double := varOf_mem h _ _
    generalize varOf fl o o.flat (L.map (·.2)) = Q at hQ0 hQD
    exact sqrt_rounded h hQD hQ0
  refine ⟨_, _, predictByTree_eq hL hne hn, ?_, fl_nonneg h (Real.sqrt_nonneg _), ?_⟩
  · rw [List.length_map] at e1
    exact mean_close hM0 e1
  · rw [List.length_map] at e2 hθ
    have hV0 : 0 ≤ avg (L.map (·.2)) ^ 2 := sq_nonneg _
    have e : 3 * ((L.length : ℝ) + 8) / 2 ^ 52 * M ^ 2 =
        3 * (2 * ((L.length : ℝ) + 8) * (1 / 2 ^ 53) * M ^ 2) := by ring
    rw [e]
    have hu : 16 * (1 / 2 ^ 53) ≤ 2 * ((L.length : ℝ) + 8) * (1 / 2 ^ 53) := by
      have h8 : (0 : ℝ) ≤ L.length := Nat.cast_nonneg _
      apply mul_le_mul_of_nonneg_right _ (by norm_num)
      linarith only [h8]
    have hV : msd (avg (L.map (·.2))) (L.map (·.2)) ≤ M ^ 2 := le_trans (le_add_of_nonneg_right hV0) hvar
    exact leaf_close hθ hu (by norm_num) (pow_pos hMp 2) e2 hV hroot

/-- A leaf with the responses 3 and 4. -/
example : ∃ m' s', predictByTree (d := 1) roundUp ⟨inTurn, inTurn⟩ (fun _ => 0)
    (.node 0 1 (.leaf [(fun _ => 0, 3), (fun _ => 0, 4)]) (.leaf [(fun _ => 1, 5)])) = .ok (m', s') ∧
    |m' - avg [3, 4]| ≤ (((2 : ℕ) : ℝ) + 1) / 2 ^ 52 * 4 := by
  obtain ⟨m', s', h1, h2, _⟩ := C139_leaf (d := 1) (fl := roundUp) (o := ⟨inTurn, inTurn⟩) roundUp_nearest
    inTurn_sumsAll (x := fun _ => 0)
    (t := .node 0 1 (.leaf [(fun _ => 0, 3), (fun _ => 0, 4)]) (.leaf [(fun _ => 1, 5)]))
    ⟨_, _, _, _, rfl⟩ (.left (by norm_num) (.leaf _)) (by simp) (M := 4)
    (le_trans (zpow_le_one_of_nonpos₀ (by norm_num) (by norm_num)) (by norm_num))
    (by
      intro p hp
      rcases List.mem_pair.1 hp with rfl | rfl
      · exact ⟨by simpa using double_nat (m := 3) (by norm_num), by norm_num⟩
      · exact ⟨by simpa using double_nat (m := 4) (by norm_num), by norm_num⟩)
    (by norm_num)
  exact ⟨m', s', h1, h2⟩

/-- C139: predictions of a forest in double precision. With `T` trees, leaves of at most `n` responses and
responses of at most `M`, the mean is off by `(n + T + 8) M / 2^51` at most, and the square of the
deviation by `10 (n + T + 8) M^2 / 2^52`. The deviation is not negative. -/
theorem C139_forest (h : Nearest fl) (ho : SumsAll o) {X : List (Point d)} {Y : List ℝ} {dm : ℤ}
    {trees : List (Tree d)} (hf : SoundForest X Y dm trees) (hne : trees ≠ [])
    (hYd : ∀ y ∈ Y, y ∈ Double) {M : ℝ} (hM0 : (2 : ℝ) ^ (-500 : ℤ) ≤ M) (hM : ∀ y ∈ Y, |y| ≤ M)
    {n : ℕ} (hn : ∀ t ∈ trees, ∀ L ∈ leaves t, L.length ≤ n)
    (hsize : ((n : ℝ) + trees.length + 8) / 2 ^ 52 ≤ 1 / 64) (x : Point d) :
    ∃ mu sigma mu' sigma', Trees.predictByTreesOne x trees = .ok (mu, sigma) ∧
      predictByTreesOne fl o x trees = .ok (mu', sigma') ∧
      |mu' - mu| ≤ ((n : ℝ) + trees.length + 8) / 2 ^ 51 * M ∧ 0 ≤ sigma' ∧
      |sigma' ^ 2 - sigma ^ 2| ≤ 10 * ((n : ℝ) + trees.length + 8) / 2 ^ 52 * M ^ 2 ∧
      |sigma' - sigma| ≤ Real.sqrt (10 * ((n : ℝ) + trees.length + 8) / 2 ^ 52) * M := by
  choose L hL using fun t => exists_reaches x t
  have hMp : 0 < M := lt_of_lt_of_le (by positivity) hM0
  obtain ⟨mu, sigma, mu', sigma', h1, h2, -, -, h3, h4, -, h5, h6⟩ := forest_error h ho (x := x) hne
    hf.root (fun t ht => ⟨(hL t).1, hf.leaves_ne t ht _ (hL t).2⟩) hM0
    (fun t ht p hp => by
      have := (List.of_mem_zip (hf.from_data t ht _ (hL t).2 p hp)).2
      exact ⟨hYd _ this, hM _ this⟩) (fun t ht => hn t ht _ (hL t).2) rfl (by
        calc _ = ((n : ℝ) + trees.length + 8) / 2 ^ 52 := by ring
          _ ≤ _ := hsize)
  have h6' : |sigma' ^ 2 - sigma ^ 2| ≤ 10 * ((n : ℝ) + trees.length + 8) / 2 ^ 52 * M ^ 2 := by
    refine h6.trans (le_of_eq ?_)
    ring
  refine ⟨mu, sigma, mu', sigma', h1, h2, ?_, h3, h6', ?_⟩
  · refine h5.trans (le_of_eq ?_)
    ring
  · have hsq : |sigma' - sigma| ^ 2 ≤ |sigma' ^ 2 - sigma ^ 2| := by
      have e : sigma' ^ 2 - sigma ^ 2 = (sigma' - sigma) * (sigma' + sigma) := by ring
      rw [e, abs_mul, sq]
      apply mul_le_mul_of_nonneg_left _ (abs_nonneg _)
      rw [abs_of_nonneg (by linarith : 0 ≤ sigma' + sigma), abs_le]
      constructor <;> linarith
    have hR : (Real.sqrt (10 * ((n : ℝ) + trees.length + 8) / 2 ^ 52) * M) ^ 2 =
        10 * ((n : ℝ) + trees.length + 8) / 2 ^ 52 * M ^ 2 := by
      rw [mul_pow, Real.sq_sqrt (by positivity)]
    exact (pow_le_pow_iff_left₀ (abs_nonneg _) (by positivity) two_ne_zero).1 (by
      rw [hR]
      exact hsq.trans h6')

/-- A forest of two trees over three rows. -/
example : ∃ mu sigma mu' sigma', Trees.predictByTreesOne (d := 1) (fun _ => 0)
      [.node 0 1 (.leaf [(fun _ => 0, 3)]) (.leaf [(fun _ => 1, 4), (fun _ => 5, 9)]),
        .node 0 3 (.leaf [(fun _ => 0, 3), (fun _ => 1, 4)]) (.leaf [(fun _ => 5, 9)])] = .ok (mu, sigma) ∧
    predictByTreesOne (d := 1) roundUp ⟨inTurn, inTurn⟩ (fun _ => 0)
      [.node 0 1 (.leaf [(fun _ => 0, 3)]) (.leaf [(fun _ => 1, 4), (fun _ => 5, 9)]),
        .node 0 3 (.leaf [(fun _ => 0, 3), (fun _ => 1, 4)]) (.leaf [(fun _ => 5, 9)])] =
      .ok (mu', sigma') ∧ |mu' - mu| ≤ (2 + (2 : ℕ) + 8) / 2 ^ 51 * 9 := by
  have hf : SoundForest (d := 1) [fun _ => 0, fun _ => 1, fun _ => 5] [3, 4, 9] 5
      [.node 0 1 (.leaf [(fun _ => 0, 3)]) (.leaf [(fun _ => 1, 4), (fun _ => 5, 9)]),
        .node 0 3 (.leaf [(fun _ => 0, 3), (fun _ => 1, 4)]) (.leaf [(fun _ => 5, 9)])] := by
    constructor
    · simp
    · simp [leaves]
    · simp [leaves]
      exact ⟨fun a b h => .inr h, fun a b h => h.imp_right .inl⟩
    · simp [depth]
  obtain ⟨mu, sigma, mu', sigma', h1, h2, h3, _⟩ := C139_forest roundUp_nearest inTurn_sumsAll hf (by simp)
    (by
      intro y hy
      simp only [List.mem_cons, List.not_mem_nil, or_false] at hy
      rcases hy with rfl | rfl | rfl
      · simpa using double_nat (m := 3) (by norm_num)
      · simpa using double_nat (m := 4) (by norm_num)
      · simpa using double_nat (m := 9) (by norm_num)) (M := 9)
    (le_trans (zpow_le_one_of_nonpos₀ (by norm_num) (by norm_num)) (by norm_num))
    (by simp; norm_num) (n := 2) (by simp [leaves]) (by norm_num) (fun _ => 0)
  exact ⟨mu, sigma, mu', sigma', h1, h2, by simpa using h3⟩

/-- C139: predicting in chunks is predicting row by row in double precision too. -/
theorem C139_rowwise (X : List (Point d)) (trees : List (Tree d)) :
    predictByTrees fl o X trees = (do
      let preds ← X.mapM (fun bx => predictByTreesOne fl o bx trees)
      return (preds.map (·.1), preds.map (·.2))) := by
  unfold predictByTrees
  by_cases h : X.length ≤ Constants.NUM_DATA_PER_SPLIT_TREES
  · simp only [h, if_true]
    rfl
  · simp only [h, if_false]
    set k := ⌈(X.length : ℚ) / Constants.NUM_DATA_PER_SPLIT_TREES⌉₊ with hk
    have hkpos : 0 < k := by
      rw [hk, Nat.ceil_pos]
      simp only [Constants.NUM_DATA_PER_SPLIT_TREES] at h ⊢
      have : (0 : ℚ) < X.length := by
        have : 0 < X.length := by omega
        exact_mod_cast this
      positivity
    have hflat : (Trees.arraySplit X k).flatten = X :=
      Trees.flatten_cutSizes _ _ (Trees.arraySplitSizes_sum hkpos)
    conv_rhs => rw [← hflat, Trees.mapM_flatten]
    have hu : (fun Xs => unitPredictByTrees fl o Xs trees) = (fun Xs => do
        let preds ← List.mapM (fun bx => predictByTreesOne fl o bx trees) Xs
        return (preds.map (·.1), preds.map (·.2))) := by
      funext Xs
      rfl
    rw [hu, Trees.mapM_map_ok]
    cases (Trees.arraySplit X k).mapM (fun l => l.mapM (fun bx => predictByTreesOne fl o bx trees)) with
    | error e => rfl
    | ok rs =>
      simp only [bind, Except.bind, pure, Except.pure, List.map_map, List.map_flatten,
        Function.comp_def]

/-! ### What rounding does to constant responses -/

/-- Doubles of at least `2^k` are multiples of `2^(k - 52)`. -/
theorem double_spacing {z : ℝ} (hz : z ∈ Double) {k : ℤ} (hk : (2 : ℝ) ^ k ≤ |z|) :
    ∃ j : ℤ, z = j * (2 : ℝ) ^ (k - 52) := by
  obtain ⟨m, e, hm, -, rfl⟩ := hz
  have hm' : |(m : ℝ)| < 2 ^ 53 := by exact_mod_cast hm
  have he : k - 52 ≤ e := by
    by_contra hc
    have h1 : (2 : ℝ) ^ e ≤ (2 : ℝ) ^ (k - 53) := zpow_le_zpow_right₀ (by norm_num) (by omega)
    have h2 : (0 : ℝ) < (2 : ℝ) ^ e := by positivity
    rw [abs_mul, abs_of_pos h2] at hk
    have h3 : |(m : ℝ)| * (2 : ℝ) ^ e < 2 ^ 53 * (2 : ℝ) ^ e := mul_lt_mul_of_pos_right hm' h2
    have h4 : (2 : ℝ) ^ 53 * (2 : ℝ) ^ e ≤ 2 ^ 53 * (2 : ℝ) ^ (k - 53) :=
      mul_le_mul_of_nonneg_left h1 (by norm_num)
    have h5 : (2 : ℝ) ^ 53 * (2 : ℝ) ^ (k - 53) = (2 : ℝ) ^ k := by
      rw [zpow_sub₀ (by norm_num)]
      norm_num
      field_simp
    linarith
  refine ⟨m * 2 ^ (e - (k - 52)).toNat, ?_⟩
  push_cast
  rw [mul_assoc, ← zpow_natCast, Int.toNat_of_nonneg (by omega), ← zpow_add₀ (by norm_num)]
  congr 2
  ring

/-- Three equal entries, added in any order. -/
theorem sumList_three {s : SumOrder} (hs : s.Covers 3) (a : ℝ) :
    sumList fl [a, a, a] s = fl (fl (a + a) + a) := by
  have one : ∀ t : SumOrder, (∀ i ∈ t.entries, i < 3) → t.entries.length = 1 →
      sumList fl [a, a, a] t = a := by
    intro t hlt hl
    cases t with
    | entry i =>
      have : i < 3 := hlt i (by simp [SumOrder.entries])
      interval_cases i <;> simp [sumList]
    | add x y =>
      have hx := entries_pos x
      have hy := entries_pos y
      simp [SumOrder.entries] at hl
      omega
  have two : ∀ t : SumOrder, (∀ i ∈ t.entries, i < 3) → t.entries.length = 2 →
      sumList fl [a, a, a] t = fl (a + a) := by
    intro t hlt hl
    cases t with
    | entry i => simp [SumOrder.entries] at hl
    | add x y =>
      have hx := entries_pos x
      have hy := entries_pos y
      simp only [SumOrder.entries, List.length_append] at hl
      rw [sumList, one x (fun i hi => hlt i (by simp [SumOrder.entries, hi])) (by omega),
        one y (fun i hi => hlt i (by simp [SumOrder.entries, hi])) (by omega)]
  have hlt : ∀ i ∈ s.entries, i < 3 := fun i hi => List.mem_range.1 (hs.mem_iff.1 hi)
  have hl : s.entries.length = 3 := by simpa using hs.length_eq
  cases s with
  | entry i => simp [SumOrder.entries] at hl
  | add x y =>
    have hx := entries_pos x
    have hy := entries_pos y
    have hlx : ∀ i ∈ x.entries, i < 3 := fun i hi => hlt i (by simp [SumOrder.entries, hi])
    have hly : ∀ i ∈ y.entries, i < 3 := fun i hi => hlt i (by simp [SumOrder.entries, hi])
    simp only [SumOrder.entries, List.length_append] at hl
    rcases (show x.entries.length = 1 ∨ x.entries.length = 2 by omega) with h | h
    · rw [sumList, one x hlx h, two y hly (by omega), add_comm]
    · rw [sumList, two x hlx h, one y hly (by omega)]

theorem meanOf_three {order : ℕ → SumOrder} (ho : (order 3).Covers 3) (a : ℝ) :
    meanOf fl order [a, a, a] = fl (fl (fl (a + a) + a) / 3) := by
  unfold meanOf
  simp only [List.length_cons, List.length_nil]
  rw [sumList_three ho]
  norm_num

/-- The only integer in a short interval. -/
theorem int_between {z : ℝ} {a : ℤ} (hz : ∃ j : ℤ, z = j) (h1 : (a : ℝ) - 1 < z) (h2 : z < a + 1) :
    z = a := by
  obtain ⟨j, rfl⟩ := hz
  have h1' : a - 1 < j := by exact_mod_cast h1
  have h2' : j < a + 1 := by exact_mod_cast h2
  have : j = a := by omega
  rw [this]

/-- C139: a mean is not within the range of its values. Three equal responses 2^53 - 2 have the computed
mean 2^53 - 3 or 2^53 - 1 (as the tie in their sum is broken), and so the deviation 1 instead of 0,
whatever the order of the sum. -/
theorem C139_leaf_violated (h : Nearest fl) (ho : SumsAll o) (x₁ x₂ x₃ x : Point d) (f : Fin d) {v : ℝ}
    (hv : x f < v) (r : Tree d) :
    ∃ m, (m = 9007199254740990 - 1 ∨ m = 9007199254740990 + 1) ∧
      predictByTree fl o x (.node f v
        (.leaf [(x₁, 9007199254740990), (x₂, 9007199254740990), (x₃, 9007199254740990)]) r) =
        .ok (m, 1) := by
  have hint : ∀ k : ℕ, k < 2 ^ 53 → fl (k : ℝ) = k := fun k hk => fl_of_mem h (double_nat hk)
  have h1 : fl 1 = 1 := by simpa using hint 1 (by norm_num)
  have h2 : fl 2 = 2 := by simpa using hint 2 (by norm_num)
  have h3 : fl 3 = 3 := by simpa using hint 3 (by norm_num)
  have hm1 : fl (-1) = -1 := fl_of_mem h (by
    have := double_neg (double_nat (m := 1) (by norm_num))
    simpa using this)
  have hcov := (ho 3 (by norm_num)).2
  -- the mean
  have hd2 : fl (9007199254740990 + 9007199254740990) = 18014398509481980 := by
    rw [show (9007199254740990 : ℝ) + 9007199254740990 = 18014398509481980 by norm_num]
    apply fl_of_mem h
    exact ⟨9007199254740990, 1, by norm_num, by norm_num, by norm_num⟩
  have hs : fl (18014398509481980 + 9007199254740990) = 27021597764222968 ∨
      fl (18014398509481980 + 9007199254740990) = 27021597764222972 := by
    rw [show (18014398509481980 : ℝ) + 9007199254740990 = 27021597764222970 by norm_num]
    have hc : (27021597764222972 : ℝ) ∈ Double := ⟨6755399441055743, 2, by norm_num, by norm_num, by norm_num⟩
    have hnear := abs_le.1 (h.near 27021597764222970 _ hc)
    have hmem := h.mem 27021597764222970
    generalize fl 27021597764222970 = z at *
    rw [show |(27021597764222972 : ℝ) - 27021597764222970| = 2 by norm_num] at hnear
    obtain ⟨j, hj⟩ := double_spacing (k := 54) hmem (by
      rw [abs_of_nonneg (by linarith)]
      norm_num
      linarith)
    norm_num at hj
    rcases le_or_gt j 6755399441055742 with hle | hgt
    · left
      have h1 : (j : ℝ) ≤ 6755399441055742 := by exact_mod_cast hle
      have h2 : (6755399441055742 : ℤ) ≤ j := by
        by_contra hc
        have : (j : ℝ) ≤ 6755399441055741 := by
          have : j ≤ 6755399441055741 := by omega
          exact_mod_cast this
        linarith
      have : j = 6755399441055742 := by omega
      rw [hj, this]
      norm_num
    · right
      have h2 : j ≤ (6755399441055743 : ℤ) := by
        by_contra hc
        have : (6755399441055744 : ℝ) ≤ j := by
          have : 6755399441055744 ≤ j := by omega
          exact_mod_cast this
        linarith
      have : j = 6755399441055743 := by omega
      rw [hj, this]
      norm_num
  have hq1 : fl (27021597764222968 / 3) = 9007199254740989 := by
    have hc : (9007199254740989 : ℝ) ∈ Double := by
      simpa using double_nat (m := 9007199254740989) (by norm_num)
    have hnear := abs_le.1 (h.near (27021597764222968 / 3) _ hc)
    have hmem := h.mem (27021597764222968 / 3)
    generalize fl (27021597764222968 / 3) = z at *
    rw [show |(9007199254740989 : ℝ) - 27021597764222968 / 3| = 1 / 3 by norm_num] at hnear
    have := int_between (a := 9007199254740989) (z := z) (by
      obtain ⟨j, hj⟩ := double_spacing (k := 52) hmem (by
        rw [abs_of_nonneg (by linarith)]
        norm_num
        linarith)
      exact ⟨j, by simpa using hj⟩) (by push_cast; linarith) (by push_cast; linarith)
    simpa using this
  have hq2 : fl (27021597764222972 / 3) = 9007199254740991 := by
    have hc : (9007199254740991 : ℝ) ∈ Double := by
      simpa using double_nat (m := 9007199254740991) (by norm_num)
    have hnear := abs_le.1 (h.near (27021597764222972 / 3) _ hc)
    have hmem := h.mem (27021597764222972 / 3)
    generalize fl (27021597764222972 / 3) = z at *
    rw [show |(9007199254740991 : ℝ) - 27021597764222972 / 3| = 1 / 3 by norm_num] at hnear
    have := int_between (a := 9007199254740991) (z := z) (by
      obtain ⟨j, hj⟩ := double_spacing (k := 52) hmem (by
        rw [abs_of_nonneg (by linarith)]
        norm_num
        linarith)
      exact ⟨j, by simpa using hj⟩) (by push_cast; linarith) (by push_cast; linarith)
    simpa using this
  have hmean : meanOf fl o.flat [9007199254740990, 9007199254740990, 9007199254740990] =
        9007199254740990 - 1 ∨
      meanOf fl o.flat [9007199254740990, 9007199254740990, 9007199254740990] =
        9007199254740990 + 1 := by
    rw [meanOf_three hcov, hd2]
    rcases hs with e | e <;> rw [e]
    · left; rw [hq1]; norm_num
    · right; rw [hq2]; norm_num
  have hvar : varOf fl o o.flat [9007199254740990, 9007199254740990, 9007199254740990] = 1 := by
    have hone : square fl (fl (9007199254740990 - meanOf fl o.flat
        [9007199254740990, 9007199254740990, 9007199254740990])) = 1 := by
      unfold square
      rcases hmean with e | e <;> rw [e]
      · rw [show (9007199254740990 : ℝ) - (9007199254740990 - 1) = 1 by norm_num, h1, one_pow, h1]
      · rw [show (9007199254740990 : ℝ) - (9007199254740990 + 1) = -1 by norm_num, hm1,
          show (-1 : ℝ) ^ 2 = 1 by norm_num, h1]
    unfold varOf
    simp only [List.map_cons, List.map_nil, hone]
    rw [meanOf_three hcov, show (1 : ℝ) + 1 = 2 by norm_num, h2, show (2 : ℝ) + 1 = 3 by norm_num, h3,
      div_self (by norm_num), h1]
  refine ⟨_, hmean, ?_⟩
  rw [predictByTree_eq (L := [(x₁, 9007199254740990), (x₂, 9007199254740990), (x₃, 9007199254740990)])
    (.left hv (.leaf _)) (by simp) ⟨_, _, _, _, rfl⟩]
  simp only [List.map_cons, List.map_nil]
  rw [hvar, Real.sqrt_one, h1]

/-- The point 0 in front of the threshold 1. -/
example : ∃ m, predictByTree (d := 1) roundUp ⟨inTurn, inTurn⟩ (fun _ => 0) (.node 0 1
    (.leaf [(fun _ => 0, 9007199254740990), (fun _ => 0, 9007199254740990), (fun _ => 0, 9007199254740990)])
    (.leaf [(fun _ => 2, 3)])) = .ok (m, 1) ∧ m ≠ 9007199254740990 := by
  obtain ⟨m, hm, he⟩ := C139_leaf_violated (d := 1) roundUp_nearest inTurn_sumsAll (fun _ => 0) (fun _ => 0)
    (fun _ => 0) (fun _ => 0) 0 (v := 1) (by norm_num) (.leaf [(fun _ => 2, 3)])
  refine ⟨m, he, ?_⟩
  rcases hm with rfl | rfl <;> norm_num

/-- C139: trees that agree exactly do not make the deviation zero. Three trees that predict 60000001 with
deviation 0 give the forest the deviation of about 0.707 when the tie in the sum of the squares goes to
even, and 0 when it goes down: there the variance comes out as -0.5 and is cut off at 0. -/
theorem C139_forest_violated (h : Nearest fl) (ho : SumsAll o) (x₁ x₂ : Point d) (x : Point d)
    (f : Fin d) {v : ℝ} (hv : x f < v) :
    (fl 10800000360000003 = 10800000360000004 →
      predictByTreesOne fl o x (List.replicate 3 (.node f v (.leaf [(x₁, 60000001)]) (.leaf [(x₂, 0)]))) =
        .ok (60000001, fl (Real.sqrt (1 / 2)))) ∧
    (fl 10800000360000003 = 10800000360000002 →
      fl (fl (fl 10800000360000003 / 3) - 60000001 ^ 2) = -(1 / 2) ∧
      predictByTreesOne fl o x (List.replicate 3 (.node f v (.leaf [(x₁, 60000001)]) (.leaf [(x₂, 0)]))) =
        .ok (60000001, 0)) := by
  have hint : ∀ k : ℕ, k < 2 ^ 53 → fl (k : ℝ) = k := fun k hk => fl_of_mem h (double_nat hk)
  have hcov := (ho 3 (by norm_num)).2
  have hcov1 := (ho 1 le_rfl).2
  have e0 : fl 60000001 = 60000001 := by simpa using hint 60000001 (by norm_num)
  have e1 : fl 120000002 = 120000002 := by simpa using hint 120000002 (by norm_num)
  have e2 : fl 180000003 = 180000003 := by simpa using hint 180000003 (by norm_num)
  have e3 : fl 3600000120000001 = 3600000120000001 := by simpa using hint 3600000120000001 (by norm_num)
  have e4 : fl 7200000240000002 = 7200000240000002 := by simpa using hint 7200000240000002 (by norm_num)
  have hone : ∀ a : ℝ, a ∈ Double → meanOf fl o.flat [a] = a := by
    intro a ha
    unfold meanOf
    simp only [List.length_cons, List.length_nil]
    have : sumList fl [a] (o.flat (0 + 1)) = a := by
      have hl := hcov1.length_eq
      cases hs : o.flat (0 + 1) with
      | entry i =>
        rw [show (1 : ℕ) = 0 + 1 from rfl, hs] at hcov1
        have : i < 0 + 1 := List.mem_range.1 (hcov1.mem_iff.1 (by simp [SumOrder.entries]))
        have : i = 0 := by omega
        subst this
        simp [sumList]
      | add p q =>
        rw [show (1 : ℕ) = 0 + 1 from rfl, hs] at hl
        have hp := entries_pos p
        have hq := entries_pos q
        simp [SumOrder.entries] at hl
        omega
    rw [this]
    norm_num
    exact fl_of_mem h ha
  have hD : (60000001 : ℝ) ∈ Double := by simpa using double_nat (m := 60000001) (by norm_num)
  have hsq0 : square fl 0 = 0 := by
    unfold square
    rw [zero_pow two_ne_zero, fl_zero h]
  have hvar : varOf fl o o.flat [60000001] = 0 := by
    unfold varOf
    simp only [List.map_cons, List.map_nil]
    rw [hone _ hD, sub_self, fl_zero h, hsq0, hone _ double_zero]
  have hsq : square fl 60000001 = 3600000120000001 := by
    unfold square
    rw [show (60000001 : ℝ) ^ 2 = 3600000120000001 by norm_num, e3]
  have hmom : moment fl 60000001 (fl (Real.sqrt 0)) = 3600000120000001 := by
    unfold moment
    rw [Real.sqrt_zero, fl_zero h, hsq, hsq0, add_zero, e3]
  have hmu : meanOf fl o.flat [60000001, 60000001, 60000001] = 60000001 := by
    rw [meanOf_three hcov, show (60000001 : ℝ) + 60000001 = 120000002 by norm_num, e1,
      show (120000002 : ℝ) + 60000001 = 180000003 by norm_num, e2,
      show (180000003 : ℝ) / 3 = 60000001 by norm_num, e0]
  have hsum : meanOf fl o.flat [3600000120000001, 3600000120000001, 3600000120000001] =
      fl (fl 10800000360000003 / 3) := by
    rw [meanOf_three hcov, show (3600000120000001 : ℝ) + 3600000120000001 = 7200000240000002 by norm_num, e4,
      show (7200000240000002 : ℝ) + 3600000120000001 = 10800000360000003 by norm_num]
  have hpred : predictByTreesOne fl o x
      (List.replicate 3 (.node f v (.leaf [(x₁, 60000001)]) (.leaf [(x₂, 0)]))) =
      .ok (60000001, fl (Real.sqrt (max (fl (fl (fl 10800000360000003 / 3) - 3600000120000001)) 0))) := by
    rw [predictByTreesOne_eq h (by simp) (L := fun _ => [(x₁, 60000001)])
      (by
        intro t ht
        rw [List.eq_of_mem_replicate ht]
        exact ⟨_, _, _, _, rfl⟩)
      (by
        intro t ht
        rw [List.eq_of_mem_replicate ht]
        exact ⟨.left hv (.leaf _), by simp⟩)]
    simp only [List.map_replicate, List.map_cons, List.map_nil, hvar, hone _ hD, hmom]
    simp only [List.replicate]
    rw [hmu, hsum, hsq]
  have hhalf : (1 / 2 : ℝ) ∈ Double := ⟨1, -1, by norm_num, by norm_num, by norm_num⟩
  have hq : ∀ s : ℝ, s ∈ Double → ∀ w : ℝ, |s - w| ≤ 1 / 6 → 2251799813685249 ≤ w → (∃ j : ℤ, 2 * s = j) →
      fl w = s := by
    intro s hs w hw hbig hj
    have hnear := abs_le.1 ((h.near w s hs).trans hw)
    have hmem := h.mem w
    generalize fl w = z at *
    obtain ⟨j, hj'⟩ := double_spacing (k := 51) hmem (by
      rw [abs_of_nonneg (by linarith)]
      norm_num
      linarith)
    obtain ⟨i, hi⟩ := hj
    have h2 : 2 * z = j := by
      rw [hj', show (51 - 52 : ℤ) = -1 by norm_num, zpow_neg_one]
      ring
    have hw' := abs_le.1 hw
    have := int_between (a := i) (z := 2 * z) ⟨j, h2⟩ (by rw [← hi]; linarith) (by rw [← hi]; linarith)
    linarith
  constructor
  · intro he
    rw [hpred, he]
    have hqq : fl (10800000360000004 / 3) = 3600000120000001.5 := by
      apply hq
      · exact ⟨7200000240000003, -1, by norm_num, by norm_num, by norm_num⟩
      · norm_num
      · norm_num
      · exact ⟨7200000240000003, by norm_num⟩
    rw [hqq, show (3600000120000001.5 : ℝ) - 3600000120000001 = 1 / 2 by norm_num, fl_of_mem h hhalf,
      max_eq_left (by norm_num)]
  · intro he
    have hqq : fl (10800000360000002 / 3) = 3600000120000000.5 := by
      apply hq
      · exact ⟨7200000240000001, -1, by norm_num, by norm_num, by norm_num⟩
      · norm_num
      · norm_num
      · exact ⟨7200000240000001, by norm_num⟩
    have hneg : fl (3600000120000000.5 - 3600000120000001) = -(1 / 2) := by
      rw [show (3600000120000000.5 : ℝ) - 3600000120000001 = -(1 / 2) by norm_num]
      exact fl_of_mem h (double_neg hhalf)
    constructor
    · rw [he, hqq, show (60000001 : ℝ) ^ 2 = 3600000120000001 by norm_num, hneg]
    · rw [hpred, he, hqq, hneg, max_eq_right (by norm_num), Real.sqrt_zero, fl_zero h]

private theorem roundUp_tie : roundUp 10800000360000003 = 10800000360000004 := by
  have hlog : Int.log 2 |(10800000360000003 : ℝ)| = 53 := by
    have hp : (0 : ℝ) < |(10800000360000003 : ℝ)| := by norm_num
    have h1 : (53 : ℤ) ≤ Int.log 2 |(10800000360000003 : ℝ)| := by
      rw [← Int.zpow_le_iff_le_log (by norm_num) hp]
      norm_num
    have h2 : Int.log 2 |(10800000360000003 : ℝ)| < 54 := by
      rw [← Int.lt_zpow_iff_log_lt (by norm_num) hp]
      norm_num
    omega
  have hexp : lastExp 10800000360000003 = 1 := by
    rw [lastExp, hlog]
    norm_num
  rw [roundUp, hexp, round_eq]
  have : ⌊(10800000360000003 : ℝ) / (2 : ℝ) ^ (1 : ℤ) + 1 / 2⌋ = 5400000180000002 := by
    rw [Int.floor_eq_iff]
    norm_num
  rw [this]
  norm_num

/-- With ties upwards the forest's deviation is that of 1/2. -/
example : predictByTreesOne (d := 1) roundUp ⟨inTurn, inTurn⟩ (fun _ => 0)
    (List.replicate 3 (.node 0 1 (.leaf [(fun _ => 0, 60000001)]) (.leaf [(fun _ => 2, 0)]))) =
      .ok (60000001, roundUp (Real.sqrt (1 / 2))) :=
  (C139_forest_violated roundUp_nearest inTurn_sumsAll (fun _ => 0) (fun _ => 2) (fun _ => 0) 0
    (by norm_num)).1 roundUp_tie

end Verif.Props
