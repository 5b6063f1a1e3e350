import Verif.Model.Constants
import Mathlib.Data.Finset.Sort
import Mathlib.Algebra.Order.Floor.Ring

/-!
# `bayeso/trees/trees_common.py`, `trees_random_forest.py`, `trees_generic_trees.py`

Inputs and responses are finite (reals), arrays of shape `(n, d)` and `(n, 1)` are lists of
points and of reals. The random generator is an oracle: what each random call at a tree node
returns is looked up by the node's position in the tree (a path of left/right turns) instead
of by a global call number. Every node makes its own calls, so every run of the program is
covered by some oracle.
-/

namespace Verif.Trees

open Verif.Constants

variable {d : ℕ}

/-- One training pair `(bx, by)` of a leaf. -/
abbrev Row (d : ℕ) := Point d × ℝ

/-- The results of the random calls made while splitting one node: the features
(`np.random.choice(d, num_features, replace=False)`), and, for the `k`-th feature tried, the
split locations (`np.random.choice(n, size, replace=False)`) or the unit draw behind
`np.random.uniform`. -/
structure NodeRnd (d : ℕ) where
  features : ℤ → List (Fin d)
  locs : ℕ → ℕ → ℕ → List ℕ
  unif : ℕ → ℝ

/-- The random calls of a whole tree, by node (path from the root, `true` is left). -/
abbrev TreeRnd (d : ℕ) := List Bool → NodeRnd d

/-- `get_inputs_from_leaf` (`trees_common.py:16-33`). -/
def getInputsFromLeaf (leaf : List (Row d)) : List (Point d) := leaf.map (·.1)

/-- `get_outputs_from_leaf` (`trees_common.py:36-53`). -/
def getOutputsFromLeaf (leaf : List (Row d)) : List ℝ := leaf.map (·.2)

/-- `np.mean` of a flat array. The mean of nothing is NaN, which the real model does not
follow. -/
noncomputable def npMean (l : List ℝ) : Py ℝ :=
  if l = [] then .error .outOfModel else .ok (l.sum / l.length)

/-- `_mse` (`trees_common.py:56-80`). -/
noncomputable def mse1 (Y : List ℝ) : Py ℝ :=
  if Y.length > 0 then do
    let mean ← npMean Y
    npMean (Y.map (fun y => (y - mean) ^ 2))
  else
    .ok 1e8

/-- `mse` (`trees_common.py:83-107`). -/
noncomputable def mse (left_right : List (Row d) × List (Row d)) : Py ℝ := do
  let mse_left ← mse1 (getOutputsFromLeaf left_right.1)
  let mse_right ← mse1 (getOutputsFromLeaf left_right.2)
  return mse_left + mse_right

/-- `np.random.choice(num_X, num_samples, replace)` yields `indices`; `X[indices]`. -/
def takeRows {α : Type _} (X : List α) (indices : List ℕ) : Py (List α) :=
  indices.mapM (fun i => pyIndex X i)

/-- `subsample` (`trees_common.py:110-156`). `choice n k` are the indices drawn; drawing from
nothing, or more than there is without replacement, is a `ValueError` of numpy. -/
noncomputable def subsample (choice : ℕ → ℕ → List ℕ) (X : List (Point d)) (Y : List ℝ)
    (ratio_sampling : ℝ) (replace_samples : Bool) : Py (List (Point d) × List ℝ) := do
  pyAssert (X.length = Y.length)
  if replace_samples then
    pyAssert (ratio_sampling > 0)
  else
    pyAssert (0 < ratio_sampling ∧ ratio_sampling ≤ 1)
  let num_X := X.length
  let num_samples := ⌊(num_X : ℝ) * ratio_sampling⌋₊
  if (num_X = 0 ∧ num_samples > 0) ∨ (replace_samples = false ∧ num_samples > num_X) then
    .error .value
  else
    let indices := choice num_X num_samples
    let X_ ← takeRows X indices
    let Y_ ← takeRows Y indices
    return (X_, Y_)

/-- `A[mask]` for a boolean mask of the same length. -/
def maskSelect {α : Type _} (mask : List Bool) (l : List α) : List α :=
  ((List.zip mask l).filter (·.1)).map (·.2)

/-- `_split_left_right` (`trees_common.py:159-198`). -/
noncomputable def splitLeftRight (X : List (Point d)) (Y : List ℝ) (dim_to_split : Fin d)
    (val_to_split : ℝ) : Py (List (Row d) × List (Row d)) := do
  pyAssert (X.length = Y.length)
  let indices_left := X.map (fun x => decide (x dim_to_split < val_to_split))
  let left := List.zip (maskSelect indices_left X) (maskSelect indices_left Y)
  let indices_right := X.map (fun x => decide (x dim_to_split ≥ val_to_split))
  let right := List.zip (maskSelect indices_right X) (maskSelect indices_right Y)
  return (left, right)

/-- The best split so far: `cur_ind, cur_val, cur_score, cur_left_right` of the loops in
`_split_deterministic` and `_split`; nothing found yet is the initial `inf, inf, inf, None`. -/
structure Best (d : ℕ) where
  score : Flt
  found : Option (Fin d × ℝ × (List (Row d) × List (Row d)))

/-- `np.inf, np.inf, np.inf, None`. -/
def Best.init : Best d := { score := Flt.pinf, found := none }

/-- `np.sort(np.unique(X[:, dim]))`. -/
noncomputable def candidatesLoc (X : List (Point d)) (dim : Fin d) : List ℝ :=
  ((X.map (fun x => x dim)).toFinset).sort (· ≤ ·)

/-- The threshold tried for location `ind_loc` (`trees_common.py:217-220`). -/
noncomputable def valToSplit (X : List (Point d)) (dim : Fin d) (ind_loc : ℕ) : Py ℝ :=
  let candidates_loc := candidatesLoc X dim
  if candidates_loc.length > 1 then
    npMean ((candidates_loc.drop ind_loc).take 2)
  else do
    let x ← pyIndex X 0
    return x dim

/-- Body of the loop over locations (`trees_common.py:216-229`). -/
noncomputable def tryLoc (X : List (Point d)) (Y : List ℝ) (dim : Fin d) (cur : Best d)
    (ind_loc : ℕ) : Py (Best d) := do
  let val_to_split ← valToSplit X dim ind_loc
  let left_right ← splitLeftRight X Y dim val_to_split
  let score ← mse left_right
  if Flt.fin score < cur.score then
    return { score := .fin score, found := some (dim, val_to_split, left_right) }
  else
    return cur

/-- `_split_deterministic` (`trees_common.py:201-231`). -/
noncomputable def splitDeterministic (choice : ℕ → ℕ → List ℕ) (X : List (Point d)) (Y : List ℝ)
    (dim_to_split : Fin d) : Py (Best d) :=
  let candidates_loc := candidatesLoc X dim_to_split
  let num_evaluations := if candidates_loc.length > 1 then candidates_loc.length - 1 else 1
  let indices_loc := choice num_evaluations (min 20 num_evaluations)
  indices_loc.foldlM (tryLoc X Y dim_to_split) Best.init

/-- The threshold of `_split_random` (`trees_common.py:236-244`); `u` is the unit draw of
`np.random.uniform(low, high) = low + (high - low) * u`. -/
noncomputable def randomValToSplit (u : ℝ) (X : List (Point d)) (dim_to_split : Fin d) : Py ℝ :=
  let candidates_loc := candidatesLoc X dim_to_split
  if candidates_loc.length > 1 then do
    let min_bx ← npMin (X.map (fun x => x dim_to_split))
    let max_bx ← npMax (X.map (fun x => x dim_to_split))
    return min_bx + (max_bx - min_bx) * u
  else do
    let x ← pyIndex X 0
    return x dim_to_split

/-- `_split_random` (`trees_common.py:234-249`). -/
noncomputable def splitRandom (u : ℝ) (X : List (Point d)) (Y : List ℝ) (dim_to_split : Fin d) :
    Py (Best d) := do
  let val_to_split ← randomValToSplit u X dim_to_split
  let left_right ← splitLeftRight X Y dim_to_split val_to_split
  let score ← mse left_right
  return { score := .fin score, found := some (dim_to_split, val_to_split, left_right) }

/-- The split of one feature (`trees_common.py:297-302`); `k` counts the features tried. -/
noncomputable def splitFeature (r : NodeRnd d) (X : List (Point d)) (Y : List ℝ)
    (split_random_location : Bool) (dim_to_split : Fin d) (k : ℕ) : Py (Best d) :=
  if split_random_location then splitRandom (r.unif k) X Y dim_to_split
  else splitDeterministic (r.locs k) X Y dim_to_split

/-- Body of the loop over features (`trees_common.py:294-308`); `k` counts the features. -/
noncomputable def tryFeature (r : NodeRnd d) (X : List (Point d)) (Y : List ℝ)
    (split_random_location : Bool) (cur : Best d) (f : Fin d × ℕ) : Py (Best d) := do
  let new ← splitFeature r X Y split_random_location f.1 f.2
  if new.score < cur.score then return new else return cur

/-- `_split` (`trees_common.py:252-314`). Asking `np.random.choice` for more features than
there are, or for a negative number, is a `ValueError`. -/
noncomputable def splitNode (r : NodeRnd d) (X : List (Point d)) (Y : List ℝ) (num_features : ℤ)
    (split_random_location : Bool) : Py (Best d) := do
  pyAssert (X.length = Y.length)
  pyAssert (X.length > 0)
  if num_features < 0 ∨ num_features > d then
    .error .value
  else
    (r.features num_features).zipIdx.foldlM (tryFeature r X Y split_random_location) Best.init

/-- A finished tree: `dict` nodes (`index`, `value`, `left`, `right`) and leaves (lists of
pairs). -/
inductive Tree (d : ℕ)
  | leaf (rows : List (Row d))
  | node (index : Fin d) (value : ℝ) (left right : Tree d)

/-- `split` (`trees_common.py:317-388`), from a node `node` made by `_split`. A node without a
split (`left_right` is `None`) cannot be unpacked: `TypeError`. -/
noncomputable def split (rnd : TreeRnd d) (path : List Bool) (node : Best d)
    (depth_max size_min_leaf num_features : ℤ) (split_random_location : Bool)
    (cur_depth : ℤ) : Py (Tree d) := do
  pyAssert (cur_depth > 0)
  match node.found with
  | none => .error .type
  | some (index, value, left, right) =>
    if left = [] ∨ right = [] then
      return .node index value (.leaf (left ++ right)) (.leaf (left ++ right))
    else if _h : cur_depth ≥ depth_max then
      return .node index value (.leaf left) (.leaf right)
    else
      let l ←
        if (left.length : ℤ) ≤ size_min_leaf then pure (Tree.leaf left)
        else do
          let n ← splitNode (rnd (path ++ [true])) (getInputsFromLeaf left)
            (getOutputsFromLeaf left) num_features split_random_location
          split rnd (path ++ [true]) n depth_max size_min_leaf num_features
            split_random_location (cur_depth + 1)
      let r ←
        if (right.length : ℤ) ≤ size_min_leaf then pure (Tree.leaf right)
        else do
          let n ← splitNode (rnd (path ++ [false])) (getInputsFromLeaf right)
            (getOutputsFromLeaf right) num_features split_random_location
          split rnd (path ++ [false]) n depth_max size_min_leaf num_features
            split_random_location (cur_depth + 1)
      return .node index value l r
termination_by (depth_max - cur_depth).toNat

/-- Grow one tree from a sample (`trees_random_forest.py:65-66`,
`trees_generic_trees.py:77-78`). -/
noncomputable def growTree (rnd : TreeRnd d) (X : List (Point d)) (Y : List ℝ)
    (depth_max size_min_leaf num_features : ℤ) (split_random_location : Bool) : Py (Tree d) := do
  let root ← splitNode (rnd []) X Y num_features split_random_location
  split rnd [] root depth_max size_min_leaf num_features split_random_location 1

/-- `np.std` of a flat array. -/
noncomputable def npStd (l : List ℝ) : Py ℝ := do
  let mean ← npMean l
  let var ← npMean (l.map (fun y => (y - mean) ^ 2))
  return Real.sqrt var

/-- `np.mean(cur_Y), np.std(cur_Y)` at a leaf. -/
noncomputable def leafPrediction (rows : List (Row d)) : Py (ℝ × ℝ) := do
  let cur_Y := getOutputsFromLeaf rows
  let m ← npMean cur_Y
  let s ← npStd cur_Y
  return (m, s)

/-- `_predict_by_tree` (`trees_common.py:391-423`). A leaf is not a `dict`, so it is refused as
a root; below a node it is read. -/
noncomputable def predictByTree (bx : Point d) : Tree d → Py (ℝ × ℝ)
  | .leaf _ => .error .assertion
  | .node index value left right =>
    if bx index < value then
      match left with
      | .node i v l r => predictByTree bx (.node i v l r)
      | .leaf rows => leafPrediction rows
    else
      match right with
      | .node i v l r => predictByTree bx (.node i v l r)
      | .leaf rows => leafPrediction rows

/-- `compute_sigma` (`trees_common.py:539-577`). -/
noncomputable def computeSigma (preds_mu_leaf preds_sigma_leaf : List ℝ) (min_sigma : ℝ := 0) :
    Py ℝ := do
  pyAssert (preds_mu_leaf.length = preds_sigma_leaf.length)
  let preds_sigma_leaf_ := preds_sigma_leaf.map (fun s => max s (0 + min_sigma))
  let sigma ← npMean (List.zipWith (fun m s => m ^ 2 + s ^ 2) preds_mu_leaf preds_sigma_leaf_)
  let mean ← npMean preds_mu_leaf
  let sigma := sigma - mean ^ 2
  let sigma := max sigma 0
  return Real.sqrt sigma

/-- `_predict_by_trees` (`trees_common.py:426-459`). -/
noncomputable def predictByTreesOne (bx : Point d) (list_trees : List (Tree d)) :
    Py (ℝ × ℝ) := do
  let preds ← list_trees.mapM (predictByTree bx)
  let list_mu_leaf := preds.map (·.1)
  let list_sigma_leaf := preds.map (·.2)
  let mu ← npMean list_mu_leaf
  let sigma ← computeSigma list_mu_leaf list_sigma_leaf
  return (mu, sigma)

/-- `unit_predict_by_trees` (`trees_common.py:462-494`); the two columns are lists. -/
noncomputable def unitPredictByTrees (X : List (Point d)) (list_trees : List (Tree d)) :
    Py (List ℝ × List ℝ) := do
  let preds ← X.mapM (fun bx => predictByTreesOne bx list_trees)
  return (preds.map (·.1), preds.map (·.2))

/-- The sizes `np.array_split(A, k)` gives the parts of `n` rows: `n % k` parts of `n // k + 1`
rows, then parts of `n // k` rows. -/
def arraySplitSizes (n k : ℕ) : List ℕ :=
  List.replicate (n % k) (n / k + 1) ++ List.replicate (k - n % k) (n / k)

/-- Cut a list into consecutive parts of the given sizes. -/
def cutSizes {α : Type _} : List ℕ → List α → List (List α)
  | [], _ => []
  | s :: t, l => l.take s :: cutSizes t (l.drop s)

/-- `np.array_split(A, k)`. -/
def arraySplit {α : Type _} (l : List α) (k : ℕ) : List (List α) :=
  cutSizes (arraySplitSizes l.length k) l

/-- `predict_by_trees` (`trees_common.py:497-536`). The process pool maps the chunks in order;
here they are taken one after the other. Its processes and their scheduling are in
`Model/Pool.lean` (C109). -/
noncomputable def predictByTrees (X : List (Point d)) (list_trees : List (Tree d)) :
    Py (List ℝ × List ℝ) := do
  let num_data := X.length
  if num_data ≤ NUM_DATA_PER_SPLIT_TREES then
    unitPredictByTrees X list_trees
  else
    let list_Xs := arraySplit X ⌈(num_data : ℚ) / NUM_DATA_PER_SPLIT_TREES⌉₊
    let results ← list_Xs.mapM (fun Xs => unitPredictByTrees Xs list_trees)
    return ((results.map (·.1)).flatten, (results.map (·.2)).flatten)

/-- The random calls of a forest: bootstrap indices and node choices per tree. -/
structure ForestRnd (d : ℕ) where
  sample : ℕ → ℕ → ℕ → List ℕ
  tree : ℕ → TreeRnd d

/-- `get_generic_trees` (`trees_generic_trees.py:13-82`). A negative `num_trees` gives no
tree. -/
noncomputable def getGenericTrees (rnd : ForestRnd d) (X : List (Point d)) (Y : List ℝ)
    (num_trees depth_max size_min_leaf : ℤ) (ratio_sampling : ℝ) (replace_samples : Bool)
    (num_features : ℤ) (split_random_location : Bool) : Py (List (Tree d)) := do
  pyAssert (X.length = Y.length)
  if replace_samples then
    pyAssert (ratio_sampling > 0)
  else
    pyAssert (0 < ratio_sampling ∧ ratio_sampling ≤ 1)
  (List.range num_trees.toNat).mapM (fun k => do
    let (X_, Y_) ← subsample (rnd.sample k) X Y ratio_sampling replace_samples
    growTree (rnd.tree k) X_ Y_ depth_max size_min_leaf num_features split_random_location)

/-- `get_random_forest` (`trees_random_forest.py:14-70`). -/
noncomputable def getRandomForest (rnd : ForestRnd d) (X : List (Point d)) (Y : List ℝ)
    (num_trees depth_max size_min_leaf num_features : ℤ) : Py (List (Tree d)) := do
  pyAssert (X.length = Y.length)
  (List.range num_trees.toNat).mapM (fun k => do
    let (X_, Y_) ← subsample (rnd.sample k) X Y 1 true
    growTree (rnd.tree k) X_ Y_ depth_max size_min_leaf num_features false)

end Verif.Trees
