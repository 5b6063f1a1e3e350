import Verif.Model.Trees
import Verif.Model.RoundedKernels

/-!
# Trees and forests with rounding

The functions of `Trees.lean` that compute with floats once more, with every arithmetic operation
followed by a rounding `fl`. Comparisons, `np.unique`, `np.sort`, `np.min`, `np.max` and the random
indices need no rounding. Overflow is left out. `x ** 2` is the rounded square. The functions of
`Trees.lean` that only move rows (`splitLeftRight`, `takeRows`, `arraySplit`) are used as they are.
With `fl = id` these are the functions without rounding (`Lemmas/RoundedTreesId.lean`).
-/

namespace Verif.RoundedTrees

open Verif.Constants Verif.Trees Verif.Rounded Verif.RoundedKernels

/-- The orders in which numpy adds the `n` entries of a column (`axis=0`) and of a flat array. They
depend on the shape and the processor; the theorems hold for all of them. -/
structure Orders where
  column : ℕ → SumOrder
  flat : ℕ → SumOrder

variable (fl : ℝ → ℝ) (o : Orders) {d : ℕ}

/-- `np.mean` of a flat array (as `Trees.npMean`), the entries added in the order `order`. -/
noncomputable def npMean (order : ℕ → SumOrder) (l : List ℝ) : Py ℝ :=
  if l = [] then .error .outOfModel else .ok (fl (sumList fl l (order l.length) / l.length))

/-- `x ** 2`. -/
noncomputable def square (x : ℝ) : ℝ := fl (x ^ 2)

/-- `_mse` (`trees_common.py:56-80`). -/
noncomputable def mse1 (Y : List ℝ) : Py ℝ :=
  if Y.length > 0 then do
    let mean ← npMean fl o.column Y
    npMean fl o.flat (Y.map (fun y => square fl (fl (y - mean))))
  else
    .ok 1e8

/-- `mse` (`trees_common.py:83-107`). -/
noncomputable def mse (left_right : List (Row d) × List (Row d)) : Py ℝ := do
  let mse_left ← mse1 fl o (getOutputsFromLeaf left_right.1)
  let mse_right ← mse1 fl o (getOutputsFromLeaf left_right.2)
  return fl (mse_left + mse_right)

/-- `subsample` (`trees_common.py:110-156`). -/
noncomputable def subsample (choice : ℕ → ℕ → List ℕ) (X : List (Point d)) (Y : List ℝ)
    (ratio_sampling : ℝ) (replace_samples : Bool) : Py (List (Point d) × List ℝ) := do
  pyAssert (X.length = Y.length)
  if replace_samples then
    pyAssert (ratio_sampling > 0)
  else
    pyAssert (0 < ratio_sampling ∧ ratio_sampling ≤ 1)
  let num_X := X.length
  let num_samples := ⌊fl ((num_X : ℝ) * ratio_sampling)⌋₊
  if (num_X = 0 ∧ num_samples > 0) ∨ (replace_samples = false ∧ num_samples > num_X) then
    .error .value
  else
    let indices := choice num_X num_samples
    let X_ ← takeRows X indices
    let Y_ ← takeRows Y indices
    return (X_, Y_)

/-- The threshold tried for location `ind_loc` (`trees_common.py:217-220`). -/
noncomputable def valToSplit (X : List (Point d)) (dim : Fin d) (ind_loc : ℕ) : Py ℝ :=
  let candidates_loc := candidatesLoc X dim
  if candidates_loc.length > 1 then
    npMean fl o.flat ((candidates_loc.drop ind_loc).take 2)
  else do
    let x ← pyIndex X 0
    return x dim

/-- Body of the loop over locations (`trees_common.py:216-229`). -/
noncomputable def tryLoc (X : List (Point d)) (Y : List ℝ) (dim : Fin d) (cur : Best d)
    (ind_loc : ℕ) : Py (Best d) := do
  let val_to_split ← valToSplit fl o X dim ind_loc
  let left_right ← splitLeftRight X Y dim val_to_split
  let score ← mse fl o left_right
  if Flt.fin score < cur.score then
    return { score := .fin score, found := some (dim, val_to_split, left_right) }
  else
    return cur

/-- `_split_deterministic` (`trees_common.py:201-231`). -/
noncomputable def splitDeterministic (choice : ℕ → ℕ → List ℕ) (X : List (Point d)) (Y : List ℝ)
    (dim_to_split : Fin d) : Py (Best d) :=
  let candidates_loc := candidatesLoc X dim_to_split
  let num_evaluations := if candidates_loc.length > 1 then candidates_loc.length - 1 else 1
  let indices_loc := choice num_evaluations (min 20 num_evaluations)
  indices_loc.foldlM (tryLoc fl o X Y dim_to_split) Best.init

/-- The threshold of `_split_random` (`trees_common.py:236-244`); numpy computes `uniform(a, b)` as
`a + (b - a) * u`. -/
noncomputable def randomValToSplit (u : ℝ) (X : List (Point d)) (dim_to_split : Fin d) : Py ℝ :=
  let candidates_loc := candidatesLoc X dim_to_split
  if candidates_loc.length > 1 then do
    let min_bx ← npMin (X.map (fun x => x dim_to_split))
    let max_bx ← npMax (X.map (fun x => x dim_to_split))
    return fl (min_bx + fl (fl (max_bx - min_bx) * u))
  else do
    let x ← pyIndex X 0
    return x dim_to_split

/-- `_split_random` (`trees_common.py:234-249`). -/
noncomputable def splitRandom (u : ℝ) (X : List (Point d)) (Y : List ℝ) (dim_to_split : Fin d) :
    Py (Best d) := do
  let val_to_split ← randomValToSplit fl u X dim_to_split
  let left_right ← splitLeftRight X Y dim_to_split val_to_split
  let score ← mse fl o left_right
  return { score := .fin score, found := some (dim_to_split, val_to_split, left_right) }

/-- The split of one feature (`trees_common.py:297-302`); `k` counts the features tried. -/
noncomputable def splitFeature (r : NodeRnd d) (X : List (Point d)) (Y : List ℝ)
    (split_random_location : Bool) (dim_to_split : Fin d) (k : ℕ) : Py (Best d) :=
  if split_random_location then splitRandom fl o (r.unif k) X Y dim_to_split
  else splitDeterministic fl o (r.locs k) X Y dim_to_split

/-- Body of the loop over features (`trees_common.py:294-308`); `k` counts the features. -/
noncomputable def tryFeature (r : NodeRnd d) (X : List (Point d)) (Y : List ℝ)
    (split_random_location : Bool) (cur : Best d) (f : Fin d × ℕ) : Py (Best d) := do
  let new ← splitFeature fl o r X Y split_random_location f.1 f.2
  if new.score < cur.score then return new else return cur

/-- `_split` (`trees_common.py:252-314`). -/
noncomputable def splitNode (r : NodeRnd d) (X : List (Point d)) (Y : List ℝ) (num_features : ℤ)
    (split_random_location : Bool) : Py (Best d) := do
  pyAssert (X.length = Y.length)
  pyAssert (X.length > 0)
  if num_features < 0 ∨ num_features > d then
    .error .value
  else
    (r.features num_features).zipIdx.foldlM (tryFeature fl o r X Y split_random_location) Best.init

/-- `split` (`trees_common.py:317-388`). -/
noncomputable def split (rnd : TreeRnd d) (path : List Bool) (node : Best d)
    (depth_max size_min_leaf num_features : ℤ) (split_random_location : Bool)
    (cur_depth : ℤ) : Py (Tree d) := do
  pyAssert (cur_depth > 0)
  match node.found with
  | none => .error .type
  | some (index, value, left, right) =>
    if left = [] ∨ right = [] then
      return .node index value (.leaf (left ++ right)) (.leaf (left ++ right))
    else if _h : cur_depth ≥ depth_max then
      return .node index value (.leaf left) (.leaf right)
    else
      let l ←
        if (left.length : ℤ) ≤ size_min_leaf then pure (Tree.leaf left)
        else do
          let n ← splitNode fl o (rnd (path ++ [true])) (getInputsFromLeaf left)
            (getOutputsFromLeaf left) num_features split_random_location
          split rnd (path ++ [true]) n depth_max size_min_leaf num_features
            split_random_location (cur_depth + 1)
      let r ←
        if (right.length : ℤ) ≤ size_min_leaf then pure (Tree.leaf right)
        else do
          let n ← splitNode fl o (rnd (path ++ [false])) (getInputsFromLeaf right)
            (getOutputsFromLeaf right) num_features split_random_location
          split rnd (path ++ [false]) n depth_max size_min_leaf num_features
            split_random_location (cur_depth + 1)
      return .node index value l r
termination_by (depth_max - cur_depth).toNat

/-- Grow one tree from a sample (`trees_random_forest.py:65-66`,
`trees_generic_trees.py:77-78`). -/
noncomputable def growTree (rnd : TreeRnd d) (X : List (Point d)) (Y : List ℝ)
    (depth_max size_min_leaf num_features : ℤ) (split_random_location : Bool) : Py (Tree d) := do
  let root ← splitNode fl o (rnd []) X Y num_features split_random_location
  split fl o rnd [] root depth_max size_min_leaf num_features split_random_location 1

/-- `np.std` of a flat array. -/
noncomputable def npStd (l : List ℝ) : Py ℝ := do
  let mean ← npMean fl o.flat l
  let var ← npMean fl o.flat (l.map (fun y => square fl (fl (y - mean))))
  return fl (Real.sqrt var)

/-- `np.mean(cur_Y), np.std(cur_Y)` at a leaf. -/
noncomputable def leafPrediction (rows : List (Row d)) : Py (ℝ × ℝ) := do
  let cur_Y := getOutputsFromLeaf rows
  let m ← npMean fl o.flat cur_Y
  let s ← npStd fl o cur_Y
  return (m, s)

/-- `_predict_by_tree` (`trees_common.py:391-423`). -/
noncomputable def predictByTree (bx : Point d) : Tree d → Py (ℝ × ℝ)
  | .leaf _ => .error .assertion
  | .node index value left right =>
    if bx index < value then
      match left with
      | .node i v l r => predictByTree bx (.node i v l r)
      | .leaf rows => leafPrediction fl o rows
    else
      match right with
      | .node i v l r => predictByTree bx (.node i v l r)
      | .leaf rows => leafPrediction fl o rows

/-- `compute_sigma` (`trees_common.py:539-577`). -/
noncomputable def computeSigma (preds_mu_leaf preds_sigma_leaf : List ℝ) (min_sigma : ℝ := 0) :
    Py ℝ := do
  pyAssert (preds_mu_leaf.length = preds_sigma_leaf.length)
  let preds_sigma_leaf_ := preds_sigma_leaf.map (fun s => max s (fl (0 + min_sigma)))
  let sigma ← npMean fl o.flat
    (List.zipWith (fun m s => fl (square fl m + square fl s)) preds_mu_leaf preds_sigma_leaf_)
  let mean ← npMean fl o.flat preds_mu_leaf
  let sigma := fl (sigma - square fl mean)
  let sigma := max sigma 0
  return fl (Real.sqrt sigma)

/-- `_predict_by_trees` (`trees_common.py:426-459`). -/
noncomputable def predictByTreesOne (bx : Point d) (list_trees : List (Tree d)) :
    Py (ℝ × ℝ) := do
  let preds ← list_trees.mapM (predictByTree fl o bx)
  let list_mu_leaf := preds.map (·.1)
  let list_sigma_leaf := preds.map (·.2)
  let mu ← npMean fl o.flat list_mu_leaf
  let sigma ← computeSigma fl o list_mu_leaf list_sigma_leaf
  return (mu, sigma)

/-- `unit_predict_by_trees` (`trees_common.py:462-494`). -/
noncomputable def unitPredictByTrees (X : List (Point d)) (list_trees : List (Tree d)) :
    Py (List ℝ × List ℝ) := do
  let preds ← X.mapM (fun bx => predictByTreesOne fl o bx list_trees)
  return (preds.map (·.1), preds.map (·.2))

/-- `predict_by_trees` (`trees_common.py:497-536`), as in `Trees.lean`. -/
noncomputable def predictByTrees (X : List (Point d)) (list_trees : List (Tree d)) :
    Py (List ℝ × List ℝ) := do
  let num_data := X.length
  if num_data ≤ NUM_DATA_PER_SPLIT_TREES then
    unitPredictByTrees fl o X list_trees
  else
    let list_Xs := arraySplit X ⌈(num_data : ℚ) / NUM_DATA_PER_SPLIT_TREES⌉₊
    let results ← list_Xs.mapM (fun Xs => unitPredictByTrees fl o Xs list_trees)
    return ((results.map (·.1)).flatten, (results.map (·.2)).flatten)

/-- `get_generic_trees` (`trees_generic_trees.py:13-82`). -/
noncomputable def getGenericTrees (rnd : ForestRnd d) (X : List (Point d)) (Y : List ℝ)
    (num_trees depth_max size_min_leaf : ℤ) (ratio_sampling : ℝ) (replace_samples : Bool)
    (num_features : ℤ) (split_random_location : Bool) : Py (List (Tree d)) := do
  pyAssert (X.length = Y.length)
  if replace_samples then
    pyAssert (ratio_sampling > 0)
  else
    pyAssert (0 < ratio_sampling ∧ ratio_sampling ≤ 1)
  (List.range num_trees.toNat).mapM (fun k => do
    let (X_, Y_) ← subsample fl (rnd.sample k) X Y ratio_sampling replace_samples
    growTree fl o (rnd.tree k) X_ Y_ depth_max size_min_leaf num_features split_random_location)

/-- `get_random_forest` (`trees_random_forest.py:14-70`). -/
noncomputable def getRandomForest (rnd : ForestRnd d) (X : List (Point d)) (Y : List ℝ)
    (num_trees depth_max size_min_leaf num_features : ℤ) : Py (List (Tree d)) := do
  pyAssert (X.length = Y.length)
  (List.range num_trees.toNat).mapM (fun k => do
    let (X_, Y_) ← subsample fl (rnd.sample k) X Y 1 true
    growTree fl o (rnd.tree k) X_ Y_ depth_max size_min_leaf num_features false)

end Verif.RoundedTrees
