import Verif.Lemmas.TreeUnits
import Verif.Props.Trees

/-! C94 and C95: forests and the units of their data. -/

namespace Verif.Props

open Verif.Spec Verif.Trees Verif.Lemmas

variable {d : ℕ}

/-- C94/C95: a random forest is a forest of generic trees on samples of full size drawn with
replacement, without random locations, so that what is proved of `get_generic_trees` below holds
for `get_random_forest`. -/
theorem C94_random_forest (rnd : ForestRnd d) (X : List (Point d)) (Y : List ℝ)
    (num dm sm nf : ℤ) :
    getRandomForest rnd X Y num dm sm nf = getGenericTrees rnd X Y num dm sm 1 true nf false := by
  simp only [getRandomForest, getGenericTrees, if_true]
  rw [show pyAssert ((1 : ℝ) > 0) = .ok () by simp [pyAssert]]
  rfl

private theorem generic_units (u : Units d) {rnd : ForestRnd d} {replace : Bool}
    (hr : ForestRndOk rnd replace) {X : List (Point d)} {Y : List ℝ}
    (hl : X.length = Y.length) (hX : X ≠ []) {ratio : ℝ} (h0 : 0 < ratio)
    (h1 : replace = false → ratio ≤ 1) (hk : 1 ≤ X.length * ratio) {nf : ℤ} (hn1 : 1 ≤ nf)
    (hnd : nf ≤ d) (num : ℕ) (dm sm : ℤ) (rl : Bool) (ht : Tame u.a (X.zip Y)) :
    getGenericTrees rnd (X.map u.pt) (Y.map u.res) num dm sm ratio replace nf rl =
      (getGenericTrees rnd X Y num dm sm ratio replace nf rl).map (List.map u.tree) := by
  have key : (List.range num).mapM (fun k => do
        let (X_, Y_) ← subsample (rnd.sample k) (X.map u.pt) (Y.map u.res) ratio replace
        growTree (rnd.tree k) X_ Y_ dm sm nf rl) =
      ((List.range num).mapM (fun k => do
        let (X_, Y_) ← subsample (rnd.sample k) X Y ratio replace
        growTree (rnd.tree k) X_ Y_ dm sm nf rl)).map (List.map u.tree) := by
    refine mapM_except_map fun k _ => ?_
    obtain ⟨X', Y', idx, hs, hlen, hYX, hidx, hpair, _⟩ := C53_paired (hr.sample k) hl hX h0 h1
    have hX' : X' ≠ [] := by
      rintro rfl
      have : 1 ≤ ⌊X.length * ratio⌋₊ := Nat.le_floor (by simpa using hk)
      rw [List.length_nil] at hlen
      omega
    rw [subsample_units, hs]
    simp only [bind, Except.bind, Except.map, Prod.map]
    refine growTree_units u (hr.tree k) hn1 hnd dm sm rl hX' hYX.symm (ht.mono fun p hp => ?_)
    obtain ⟨j, hj⟩ := List.mem_iff_getElem?.1 hp
    rw [List.getElem?_zip_eq_some] at hj
    have hjl : j < X'.length := (List.getElem?_eq_some_iff.1 hj.1).1
    obtain ⟨_, e1, e2⟩ := hpair j (idx[j]) (List.getElem?_eq_getElem (by omega))
    exact List.mem_iff_getElem?.2 ⟨idx[j], by
      rw [List.getElem?_zip_eq_some]; exact ⟨e1 ▸ hj.1, e2 ▸ hj.2⟩⟩
  simp only [getGenericTrees, pyAssert, List.length_map, hl, if_true, bind, Except.bind]
  cases replace
  · have := h1 rfl
    simp only [Bool.false_eq_true, if_false, h0, this, and_self, if_true]
    exact key
  · simp only [if_true, h0, gt_iff_lt]
    exact key

private theorem predict_units (u : Units d) {X : List (Point d)} {Y : List ℝ} {dm : ℤ}
    {trees : List (Tree d)} (hf : SoundForest X Y dm trees) (hne : trees ≠ []) (Xs : List (Point d)) :
    ∃ mus sds, predictByTrees Xs trees = .ok (mus, sds) ∧ mus.length = Xs.length ∧
      predictByTrees (Xs.map u.pt) (trees.map u.tree) =
        .ok (mus.map u.res, sds.map (u.a * ·)) := by
  have hone : ∀ x, ∃ p, predictByTreesOne x trees = .ok p := by
    intro x
    choose L hL using fun t => exists_reaches x t
    exact ⟨_, predictByTreesOne_eq hne hf.root
      (fun t ht => ⟨(hL t).1, hf.leaves_ne t ht _ (hL t).2⟩) rfl⟩
  choose p hp using hone
  have e1 : Xs.mapM (fun x => predictByTreesOne x trees) = .ok (Xs.map p) :=
    mapM_ok _ _ _ fun x _ => hp x
  have e2 : (Xs.map u.pt).mapM (fun x => predictByTreesOne x (trees.map u.tree)) =
      .ok ((Xs.map p).map (Prod.map u.res (u.a * ·))) := by
    rw [List.mapM_map]
    refine (mapM_except_map (f := fun x => predictByTreesOne x trees)
      (fun x _ => predictByTreesOne_units u x trees)).trans ?_
    rw [e1]
    rfl
  refine ⟨(Xs.map p).map (·.1), (Xs.map p).map (·.2), ?_, by simp, ?_⟩
  · rw [C52_rowwise, e1]; rfl
  · rw [C52_rowwise, e2]
    simp [bind, Except.bind, pure, Except.pure, Function.comp_def]

/-- Two forests predict alike: at the changed queries the second one predicts the changed means and
the changed standard deviations of the first one. -/
def PredictsAlike (trees trees' : List (Tree d)) (query : Point d → Point d) (mean sd : ℝ → ℝ) :
    Prop :=
  ∀ Xs : List (Point d), ∃ mus sds, predictByTrees Xs trees = .ok (mus, sds) ∧
    mus.length = Xs.length ∧
    predictByTrees (Xs.map query) trees' = .ok (mus.map mean, sds.map sd)

/-- C94, shifts: the same constant added to all responses is added to all predicted means; the
standard deviations stay as they are. -/
theorem C94_shift {rnd : ForestRnd d} {replace : Bool} (hr : ForestRndOk rnd replace)
    {X : List (Point d)} {Y : List ℝ} (hl : X.length = Y.length) (hX : X ≠ []) {ratio : ℝ}
    (h0 : 0 < ratio) (h1 : replace = false → ratio ≤ 1) (hk : 1 ≤ X.length * ratio) {nf : ℤ}
    (hn1 : 1 ≤ nf) (hnd : nf ≤ d) {num : ℕ} (hnum : 1 ≤ num) (dm sm : ℤ) (rl : Bool) (b : ℝ) :
    ∃ trees trees', getGenericTrees rnd X Y num dm sm ratio replace nf rl = .ok trees ∧
      getGenericTrees rnd X (Y.map (· + b)) num dm sm ratio replace nf rl = .ok trees' ∧
      PredictsAlike trees trees' (fun x => x) (· + b) (fun s => s) := by
  let u : Units d := ⟨fun _ => 1, fun _ => 0, 1, b, fun _ => one_pos, one_pos⟩
  have hpt : u.pt = fun x => x := by funext x i; simp [u, Units.pt]
  have hres : u.res = (· + b) := by funext y; simp [u, Units.res]
  obtain ⟨trees, ht, hlen, hs⟩ := C53_generic_trees hr hl hX h0 h1 hk hn1 hnd num dm sm rl
  have h := generic_units u hr hl hX h0 h1 hk hn1 hnd num dm sm rl (.inl rfl)
  rw [ht, hpt, hres, List.map_id'] at h
  refine ⟨trees, _, ht, h, fun Xs => ?_⟩
  obtain ⟨mus, sds, h2, h3, h4⟩ := predict_units u hs (by rintro rfl; simp at hlen; omega) Xs
  rw [hpt, hres] at h4
  exact ⟨mus, sds, h2, h3, by simpa [u] using h4⟩

/-- C94, units: if all responses are multiplied by the same positive number, so are all predicted
means and standard deviations.
Proved only for responses whose range is less than `1e4 * √2` in both units: beyond this the fixed
price `1e8` of an empty side of a split (`trees_common.py:_mse`) can be less than the price of
dividing the rows, see `C94_violated`. -/
theorem C94_unit_partial {rnd : ForestRnd d} {replace : Bool} (hr : ForestRndOk rnd replace)
    {X : List (Point d)} {Y : List ℝ} (hl : X.length = Y.length) (hX : X ≠ []) {ratio : ℝ}
    (h0 : 0 < ratio) (h1 : replace = false → ratio ≤ 1) (hk : 1 ≤ X.length * ratio) {nf : ℤ}
    (hn1 : 1 ≤ nf) (hnd : nf ≤ d) {num : ℕ} (hnum : 1 ≤ num) (dm sm : ℤ) (rl : Bool) {a : ℝ}
    (ha : 0 < a) {lo hi : ℝ} (hY : ∀ y ∈ Y, lo ≤ y ∧ y ≤ hi) (hr1 : (hi - lo) ^ 2 < 2 * 10 ^ 8)
    (hr2 : (a * hi - a * lo) ^ 2 < 2 * 10 ^ 8) :
    ∃ trees trees', getGenericTrees rnd X Y num dm sm ratio replace nf rl = .ok trees ∧
      getGenericTrees rnd X (Y.map (a * ·)) num dm sm ratio replace nf rl = .ok trees' ∧
      PredictsAlike trees trees' (fun x => x) (a * ·) (a * ·) := by
  let u : Units d := ⟨fun _ => 1, fun _ => 0, a, 0, fun _ => one_pos, ha⟩
  have hpt : u.pt = fun x => x := by funext x i; simp [u, Units.pt]
  have hres : u.res = (a * ·) := by funext y; simp [u, Units.res]
  obtain ⟨trees, ht, hlen, hs⟩ := C53_generic_trees hr hl hX h0 h1 hk hn1 hnd num dm sm rl
  have h := generic_units u hr hl hX h0 h1 hk hn1 hnd num dm sm rl (.inr ⟨lo, hi,
    fun p hp => hY _ (List.of_mem_zip hp).2, by linarith, by
      change (a * (hi - lo)) ^ 2 < _
      rw [mul_sub]; linarith⟩)
  rw [ht, hpt, hres, List.map_id'] at h
  refine ⟨trees, _, ht, h, fun Xs => ?_⟩
  obtain ⟨mus, sds, h2, h3, h4⟩ := predict_units u hs (by rintro rfl; simp at hlen; omega) Xs
  rw [hpt, hres] at h4
  exact ⟨mus, sds, h2, h3, h4⟩

/-- Bootstrap indices `0, 1, 2, …` and the first features and locations. -/
private def plainRnd (d : ℕ) : ForestRnd d :=
  ⟨fun _ n k => (List.range k).map (· % n), fun _ _ => firstRnd d⟩

private theorem plainRnd_ok (d : ℕ) : ForestRndOk (plainRnd d) true :=
  ⟨fun _ => ⟨by simp [plainRnd], fun n k hn _ i hi => by
      obtain ⟨j, _, rfl⟩ := List.mem_map.1 hi
      exact Nat.mod_lt _ hn, by simp⟩, fun _ _ => firstRnd_ok d⟩

/-- Two rows at each of two inputs, which differ in the first coordinate. -/
private def fourX : List (Point 2) := [![0, 0], ![0, 0], ![1, 0], ![1, 0]]

private theorem fourX_levels : levels fourX 0 = [0, 1] ∧ levels fourX 1 = [0] := by
  have key : ∀ (f : Fin 2) (l : List ℝ), l.Pairwise (· < ·) →
      (∀ v, v ∈ l ↔ ∃ x ∈ fourX, x f = v) → levels fourX f = l := by
    intro f l h2 hm
    have h1 := levels_sorted fourX f
    refine List.Perm.eq_of_pairwise (le := (· < ·)) ?_ h1 h2 ?_
    · intro a b _ _ h h'; exact absurd h' (not_lt.2 h.le)
    · refine (List.perm_ext_iff_of_nodup (h1.imp fun h => h.ne) (h2.imp fun h => h.ne)).2 fun v => ?_
      rw [mem_levels, hm]
  constructor
  · refine key 0 _ (by simp) fun v => ?_
    simp [fourX, eq_comm]
  · refine key 1 _ (by simp) fun v => ?_
    simp [fourX, eq_comm]

private theorem fourX_tried : tried (firstRnd 2) fourX 2 false = [(0, 1 / 2), (1, 0)] := by
  have h : (firstRnd 2).features 2 = [0, 1] := rfl
  have h0 : triedMidpoints (firstRnd 2) fourX 0 0 = [1 / 2] := by
    simp [triedMidpoints, fourX_levels.1, firstRnd]
  have h1 : triedMidpoints (firstRnd 2) fourX 1 1 = [0] := by
    simp [triedMidpoints, fourX_levels.2, firstRnd]
  rw [tried, h]
  simp [List.zipIdx, h0, h1]

private theorem fourX_forest {y1 y2 y3 y4 : ℝ} :
    getRandomForest (plainRnd 2) fourX [y1, y2, y3, y4] 1 1 1 2 = (do
      let t ← growTree (fun _ => firstRnd 2) fourX [y1, y2, y3, y4] 1 1 2 false
      return [t]) := by
  have hs : subsample ((plainRnd 2).sample 0) fourX [y1, y2, y3, y4] 1 true =
      .ok (fourX, [y1, y2, y3, y4]) := by
    have hf : ⌊((4 : ℕ) : ℝ) * 1⌋₊ = 4 := by rw [mul_one]; exact Nat.floor_natCast 4
    have hX : fourX.length = 4 := rfl
    simp only [subsample, hX, List.length_cons, List.length_nil, pyAssert, if_true, bind,
      Except.bind, hf, gt_iff_lt, one_pos]
    rfl
  have : (List.range (1 : ℤ).toNat) = [0] := rfl
  simp only [getRandomForest, this, pyAssert, List.length_cons, List.length_nil,
    show fourX.length = 0 + 1 + 1 + 1 + 1 from rfl, if_true, bind, Except.bind, List.mapM_cons,
    List.mapM_nil, hs, pure, Except.pure]
  rfl

private theorem one_tree {x : Point d} {t : Tree d} {L : List (Row d)} (hL : Reaches x t L)
    (hne : L ≠ []) (hn : ∃ f v l r, t = .node f v l r) :
    ∃ sd, predictByTrees [x] [t] = .ok ([avg (L.map (·.2))], [sd]) := by
  have := predictByTreesOne_eq (x := x) (trees := [t]) (L := fun _ => L) (by simp)
    (by simpa using hn) (by simpa using ⟨hL, hne⟩) rfl
  have e : avg ([t].map fun _ => avg (L.map (·.2))) = avg (L.map (·.2)) := by
    rw [avg]; simp
  rw [e] at this
  generalize √_ = sd at this
  refine ⟨sd, ?_⟩
  rw [C52_rowwise]
  simp only [List.mapM_cons, List.mapM_nil, this, bind, Except.bind, pure, Except.pure]
  rfl

/-- C94, violated: a tree grown from four rows divides them, but grown from the same rows with all
responses multiplied by 20000 it does not: an empty side costs `1e8`, which is now less than what
is gained. The predicted mean is half of what it should be. -/
theorem C94_violated : ∃ (rnd : ForestRnd 2) (X : List (Point 2)) (Y : List ℝ) (x : Point 2) (a : ℝ)
    (trees trees' : List (Tree 2)) (sd sd' : ℝ), ForestRndOk rnd true ∧ 0 < a ∧
      getRandomForest rnd X Y 1 1 1 2 = .ok trees ∧
      getRandomForest rnd X (Y.map (a * ·)) 1 1 1 2 = .ok trees' ∧
      predictByTrees [x] trees = .ok ([1], [sd]) ∧
      predictByTrees [x] trees' = .ok ([a / 2], [sd']) := by
  have b0 : ∀ y1 y2 y3 y4 : ℝ, below (fourX.zip [y1, y2, y3, y4]) 0 (1 / 2) =
      [(![0, 0], y1), (![0, 0], y2)] := by
    intros; norm_num [below, fourX, List.filter]
  have n0 : ∀ y1 y2 y3 y4 : ℝ, notBelow (fourX.zip [y1, y2, y3, y4]) 0 (1 / 2) =
      [(![1, 0], y3), (![1, 0], y4)] := by
    intros; norm_num [notBelow, fourX, List.filter]
  have b1 : ∀ y1 y2 y3 y4 : ℝ, below (fourX.zip [y1, y2, y3, y4]) 1 0 = [] := by
    intros; norm_num [below, fourX, List.filter]
  have n1 : ∀ y1 y2 y3 y4 : ℝ, notBelow (fourX.zip [y1, y2, y3, y4]) 1 0 =
      fourX.zip [y1, y2, y3, y4] := by
    intros; norm_num [notBelow, fourX, List.filter]
  have hz : ∀ y1 y2 y3 y4 : ℝ, (fourX.zip [y1, y2, y3, y4]).map (·.2) = [y1, y2, y3, y4] := by
    intros; rfl
  have e := fun y1 y2 y3 y4 : ℝ => splitNode_eq (firstRnd_ok 2) (X := fourX)
      (Y := [y1, y2, y3, y4]) (by simp [fourX]) rfl (nf := 2) (by norm_num) (by norm_num) false
  simp only [fourX_tried, List.foldl_cons, List.foldl_nil] at e
  have i0 : ∀ c : ℝ, Flt.fin c < (Best.init (d := 2)).score := fun _ => trivial
  have g1 : growTree (fun _ => firstRnd 2) fourX [2, 0, 1, -1] 1 1 2 false = .ok (.node 0 (1 / 2)
      (.leaf [(![0, 0], 2), (![0, 0], 0)]) (.leaf [(![1, 0], 1), (![1, 0], -1)])) := by
    have c : ¬ Flt.fin (splitCost (fourX.zip [2, 0, 1, -1]) 1 0) <
        Flt.fin (splitCost (fourX.zip [2, 0, 1, -1]) 0 (1 / 2)) := by
      change ¬ (splitCost _ _ _ < splitCost _ _ _)
      simp only [splitCost, b0, n0, b1, n1, hz, sideCost, List.map_cons, List.map_nil, if_true,
        reduceCtorEq, if_false, msd, avg]
      norm_num
    simp only [growTree, e, bind, Except.bind, stepBest, i0, if_true, c, if_false]
    rw [split]
    simp only [b0, n0, pyAssert, bind, Except.bind, pure, Except.pure]
    simp
  have g2 : growTree (fun _ => firstRnd 2) fourX [40000, 0, 20000, -20000] 1 1 2 false = .ok (.node 1 0
      (.leaf (fourX.zip [40000, 0, 20000, -20000])) (.leaf (fourX.zip [40000, 0, 20000, -20000]))) := by
    have c : Flt.fin (splitCost (fourX.zip [40000, 0, 20000, -20000]) 1 0) <
        Flt.fin (splitCost (fourX.zip [40000, 0, 20000, -20000]) 0 (1 / 2)) := by
      change splitCost _ _ _ < splitCost _ _ _
      simp only [splitCost, b0, n0, b1, n1, hz, sideCost, List.map_cons, List.map_nil, if_true,
        reduceCtorEq, if_false, msd, avg]
      norm_num
    simp only [growTree, e, bind, Except.bind, stepBest, i0, if_true, c]
    rw [split]
    simp only [b1, n1, pyAssert, bind, Except.bind, pure, Except.pure]
    simp
  obtain ⟨sd, h1⟩ := one_tree (x := ![0, 0]) (t := .node 0 (1 / 2)
    (.leaf [(![0, 0], 2), (![0, 0], 0)]) (.leaf [(![1, 0], 1), (![1, 0], -1)]))
    (.left (by norm_num) (.leaf _)) (by simp) ⟨_, _, _, _, rfl⟩
  obtain ⟨sd', h2⟩ := one_tree (x := ![0, 0]) (t := .node 1 0
      (.leaf (fourX.zip [40000, 0, 20000, -20000])) (.leaf (fourX.zip [40000, 0, 20000, -20000])))
    (.right (by norm_num) (.leaf _)) (by simp [fourX]) ⟨_, _, _, _, rfl⟩
  have m1 : avg ([((![0, 0] : Point 2), (2 : ℝ)), (![0, 0], 0)].map (·.2)) = 1 := by norm_num [avg]
  have m2 : avg ((fourX.zip [40000, 0, 20000, -20000]).map (·.2)) = 20000 / 2 := by
    rw [hz]; norm_num [avg]
  rw [m1] at h1
  rw [m2] at h2
  have hY : [2, 0, 1, -1].map ((20000 : ℝ) * ·) = [40000, 0, 20000, -20000] := by norm_num
  exact ⟨plainRnd 2, fourX, [2, 0, 1, -1], ![0, 0], 20000, _, _, sd, sd', plainRnd_ok 2,
    by norm_num, by rw [fourX_forest, g1]; rfl, by rw [hY, fourX_forest, g2]; rfl, h1, h2⟩

/-- C95: if every input is given in other units, `s i * x i + t i` with `s i > 0`, the predictions at
the queries given in the same units stay as they are. -/
theorem C95_inputs {rnd : ForestRnd d} {replace : Bool} (hr : ForestRndOk rnd replace)
    {X : List (Point d)} {Y : List ℝ} (hl : X.length = Y.length) (hX : X ≠ []) {ratio : ℝ}
    (h0 : 0 < ratio) (h1 : replace = false → ratio ≤ 1) (hk : 1 ≤ X.length * ratio) {nf : ℤ}
    (hn1 : 1 ≤ nf) (hnd : nf ≤ d) {num : ℕ} (hnum : 1 ≤ num) (dm sm : ℤ) (rl : Bool)
    {s : Fin d → ℝ} (hs : ∀ i, 0 < s i) (t : Fin d → ℝ) :
    ∃ trees trees', getGenericTrees rnd X Y num dm sm ratio replace nf rl = .ok trees ∧
      getGenericTrees rnd (X.map fun x i => s i * x i + t i) Y num dm sm ratio replace nf rl =
        .ok trees' ∧
      PredictsAlike trees trees' (fun x i => s i * x i + t i) (fun m => m) (fun s => s) := by
  let u : Units d := ⟨s, t, 1, 0, hs, one_pos⟩
  have hpt : u.pt = fun x i => s i * x i + t i := rfl
  have hres : u.res = fun y => y := by funext y; simp [u, Units.res]
  obtain ⟨trees, ht, hlen, hs⟩ := C53_generic_trees hr hl hX h0 h1 hk hn1 hnd num dm sm rl
  have h := generic_units u hr hl hX h0 h1 hk hn1 hnd num dm sm rl (.inl rfl)
  rw [ht, hpt, hres, List.map_id'] at h
  refine ⟨trees, _, ht, h, fun Xs => ?_⟩
  obtain ⟨mus, sds, h2, h3, h4⟩ := predict_units u hs (by rintro rfl; simp at hlen; omega) Xs
  rw [hpt, hres] at h4
  exact ⟨mus, sds, h2, h3, by simpa [u] using h4⟩

/-- Four rows, ten trees: responses in metres and in millimetres. -/
example : ∃ trees trees', getRandomForest (plainRnd 2) fourX [2, 0, 1, -1] 10 5 1 1 = .ok trees ∧
    getRandomForest (plainRnd 2) fourX ([2, 0, 1, -1].map ((1000 : ℝ) * ·)) 10 5 1 1 = .ok trees' ∧
    PredictsAlike trees trees' (fun x => x) (1000 * ·) (1000 * ·) := by
  simp only [C94_random_forest]
  refine C94_unit_partial (num := 10) (plainRnd_ok 2) (by simp [fourX]) (by simp [fourX]) one_pos
    (by simp) (by norm_num [fourX]) (by norm_num) (by norm_num) (by norm_num) _ _ _ (by norm_num)
    (lo := -1) (hi := 2) (by norm_num) (by norm_num) (by norm_num)

/-- Four rows, ten trees: the second coordinate in degrees Celsius and Fahrenheit. -/
example : ∃ trees trees', getRandomForest (plainRnd 2) fourX [2, 0, 1, -1] 10 5 1 1 = .ok trees ∧
    getRandomForest (plainRnd 2) (fourX.map fun x i => ![1, 9 / 5] i * x i + ![0, 32] i)
      [2, 0, 1, -1] 10 5 1 1 = .ok trees' ∧
    PredictsAlike trees trees' (fun x i => ![1, 9 / 5] i * x i + ![0, 32] i) (fun m => m)
      (fun s => s) := by
  simp only [C94_random_forest]
  refine C95_inputs (num := 10) (plainRnd_ok 2) (by simp [fourX]) (by simp [fourX]) one_pos
    (by simp) (by norm_num [fourX]) (by norm_num) (by norm_num) (by norm_num) _ _ _ ?_ _
  intro i; fin_cases i <;> norm_num

end Verif.Props
