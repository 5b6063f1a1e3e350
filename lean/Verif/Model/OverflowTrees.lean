import Verif.Model.RoundedTrees
import Verif.Model.OverflowKernels

/-!
# Trees and forests with rounding, overflow, infinities and NaN

The functions of `RoundedTrees.lean` once more, with the operations of `Overflow.lean`: a result that is
too large for a double becomes an infinity. Responses may be infinities and NaN themselves; inputs are
numbers. Thresholds may overflow, so they are floats as well. The warnings that numpy prints are not
modelled. The random generator is the oracle of `Trees.lean`.
-/

namespace Verif.OverflowTrees

open Verif.Constants Verif.Trees Verif.Overflow
open Verif.Rounded (SumOrder)
open Verif.RoundedTrees (Orders)

variable (fl : ℝ → ℝ) (o : Orders) {d : ℕ}

/-- One training pair `(bx, by)` of a leaf. -/
abbrev RowF (d : ℕ) := Point d × Flt

/-- `np.mean` of a flat array, the entries added in the order `order`; NaN for an empty array. -/
noncomputable def npMean (order : ℕ → SumOrder) (l : List Flt) : Flt :=
  if l = [] then .nan else meanF fl (order l.length) l

/-- `x ** 2`. -/
noncomputable def square (x : Flt) : Flt := mul fl x x

/-- `_mse` (`trees_common.py:56-80`). -/
noncomputable def mse1 (Y : List Flt) : Flt :=
  if Y.length > 0 then
    let mean := npMean fl o.column Y
    npMean fl o.flat (Y.map (fun y => square fl (sub fl y mean)))
  else
    .fin 1e8

/-- `mse` (`trees_common.py:83-107`). -/
noncomputable def mse (left_right : List (RowF d) × List (RowF d)) : Flt :=
  add fl (mse1 fl o (left_right.1.map (·.2))) (mse1 fl o (left_right.2.map (·.2)))

/-- `subsample` (`trees_common.py:110-156`). `int` of an infinity is an `OverflowError`. -/
noncomputable def subsample (choice : ℕ → ℕ → List ℕ) (X : List (Point d)) (Y : List Flt)
    (ratio_sampling : ℝ) (replace_samples : Bool) : Py (List (Point d) × List Flt) := do
  pyAssert (X.length = Y.length)
  if replace_samples then
    pyAssert (ratio_sampling > 0)
  else
    pyAssert (0 < ratio_sampling ∧ ratio_sampling ≤ 1)
  let num_X := X.length
  match round fl ((num_X : ℝ) * ratio_sampling) with
  | .fin x =>
    let num_samples := ⌊x⌋₊
    if (num_X = 0 ∧ num_samples > 0) ∨ (replace_samples = false ∧ num_samples > num_X) then
      .error .value
    else
      let indices := choice num_X num_samples
      let X_ ← takeRows X indices
      let Y_ ← takeRows Y indices
      return (X_, Y_)
  | _ => .error .overflow

/-- `_split_left_right` (`trees_common.py:159-198`). -/
noncomputable def splitLeftRight (X : List (Point d)) (Y : List Flt) (dim_to_split : Fin d)
    (val_to_split : Flt) : Py (List (RowF d) × List (RowF d)) := do
  pyAssert (X.length = Y.length)
  let indices_left := X.map (fun x => decide (Flt.fin (x dim_to_split) < val_to_split))
  let left := List.zip (maskSelect indices_left X) (maskSelect indices_left Y)
  let indices_right := X.map (fun x => decide (val_to_split ≤ Flt.fin (x dim_to_split)))
  let right := List.zip (maskSelect indices_right X) (maskSelect indices_right Y)
  return (left, right)

/-- The best split so far (see `Trees.Best`). -/
structure BestF (d : ℕ) where
  score : Flt
  found : Option (Fin d × Flt × (List (RowF d) × List (RowF d)))

/-- `np.inf, np.inf, np.inf, None`. -/
def BestF.init : BestF d := { score := Flt.pinf, found := none }

/-- The threshold tried for location `ind_loc` (`trees_common.py:217-220`). -/
noncomputable def valToSplit (X : List (Point d)) (dim : Fin d) (ind_loc : ℕ) : Py Flt :=
  let candidates_loc := candidatesLoc X dim
  if candidates_loc.length > 1 then
    return npMean fl o.flat (((candidates_loc.drop ind_loc).take 2).map Flt.fin)
  else do
    let x ← pyIndex X 0
    return .fin (x dim)

/-- Body of the loop over locations (`trees_common.py:216-229`). -/
noncomputable def tryLoc (X : List (Point d)) (Y : List Flt) (dim : Fin d) (cur : BestF d)
    (ind_loc : ℕ) : Py (BestF d) := do
  let val_to_split ← valToSplit fl o X dim ind_loc
  let left_right ← splitLeftRight X Y dim val_to_split
  let score := mse fl o left_right
  if score < cur.score then
    return { score := score, found := some (dim, val_to_split, left_right) }
  else
    return cur

/-- `_split_deterministic` (`trees_common.py:201-231`). -/
noncomputable def splitDeterministic (choice : ℕ → ℕ → List ℕ) (X : List (Point d)) (Y : List Flt)
    (dim_to_split : Fin d) : Py (BestF d) :=
  let candidates_loc := candidatesLoc X dim_to_split
  let num_evaluations := if candidates_loc.length > 1 then candidates_loc.length - 1 else 1
  let indices_loc := choice num_evaluations (min 20 num_evaluations)
  indices_loc.foldlM (tryLoc fl o X Y dim_to_split) BestF.init

/-- The threshold of `_split_random` (`trees_common.py:236-244`); numpy computes `uniform(a, b)` as
`a + (b - a) * u` and raises an `OverflowError` if `b - a` is not finite. -/
noncomputable def randomValToSplit (u : ℝ) (X : List (Point d)) (dim_to_split : Fin d) : Py Flt :=
  let candidates_loc := candidatesLoc X dim_to_split
  if candidates_loc.length > 1 then do
    let min_bx ← npMin (X.map (fun x => x dim_to_split))
    let max_bx ← npMax (X.map (fun x => x dim_to_split))
    match sub fl (.fin max_bx) (.fin min_bx) with
    | .fin w => return add fl (.fin min_bx) (mul fl (.fin w) (.fin u))
    | _ => .error .overflow
  else do
    let x ← pyIndex X 0
    return .fin (x dim_to_split)

/-- `_split_random` (`trees_common.py:234-249`). -/
noncomputable def splitRandom (u : ℝ) (X : List (Point d)) (Y : List Flt) (dim_to_split : Fin d) :
    Py (BestF d) := do
  let val_to_split ← randomValToSplit fl u X dim_to_split
  let left_right ← splitLeftRight X Y dim_to_split val_to_split
  let score := mse fl o left_right
  return { score := score, found := some (dim_to_split, val_to_split, left_right) }

/-- The split of one feature (`trees_common.py:297-302`); `k` counts the features tried. -/
noncomputable def splitFeature (r : NodeRnd d) (X : List (Point d)) (Y : List Flt)
    (split_random_location : Bool) (dim_to_split : Fin d) (k : ℕ) : Py (BestF d) :=
  if split_random_location then splitRandom fl o (r.unif k) X Y dim_to_split
  else splitDeterministic fl o (r.locs k) X Y dim_to_split

/-- Body of the loop over features (`trees_common.py:294-308`); `k` counts the features. -/
noncomputable def tryFeature (r : NodeRnd d) (X : List (Point d)) (Y : List Flt)
    (split_random_location : Bool) (cur : BestF d) (f : Fin d × ℕ) : Py (BestF d) := do
  let new ← splitFeature fl o r X Y split_random_location f.1 f.2
  if new.score < cur.score then return new else return cur

/-- `_split` (`trees_common.py:252-314`). -/
noncomputable def splitNode (r : NodeRnd d) (X : List (Point d)) (Y : List Flt) (num_features : ℤ)
    (split_random_location : Bool) : Py (BestF d) := do
  pyAssert (X.length = Y.length)
  pyAssert (X.length > 0)
  if num_features < 0 ∨ num_features > d then
    .error .value
  else
    (r.features num_features).zipIdx.foldlM (tryFeature fl o r X Y split_random_location) BestF.init

/-- A finished tree (see `Trees.Tree`). -/
inductive TreeF (d : ℕ)
  | leaf (rows : List (RowF d))
  | node (index : Fin d) (value : Flt) (left right : TreeF d)

/-- `split` (`trees_common.py:317-388`). -/
noncomputable def split (rnd : TreeRnd d) (path : List Bool) (node : BestF d)
    (depth_max size_min_leaf num_features : ℤ) (split_random_location : Bool)
    (cur_depth : ℤ) : Py (TreeF d) := do
  pyAssert (cur_depth > 0)
  match node.found with
  | none => .error .type
  | some (index, value, left, right) =>
    if left = [] ∨ right = [] then
      return .node index value (.leaf (left ++ right)) (.leaf (left ++ right))
    else if _h : cur_depth ≥ depth_max then
      return .node index value (.leaf left) (.leaf right)
    else
      let l ←
        if (left.length : ℤ) ≤ size_min_leaf then pure (TreeF.leaf left)
        else do
          let n ← splitNode fl o (rnd (path ++ [true])) (left.map (·.1)) (left.map (·.2))
            num_features split_random_location
          split rnd (path ++ [true]) n depth_max size_min_leaf num_features
            split_random_location (cur_depth + 1)
      let r ←
        if (right.length : ℤ) ≤ size_min_leaf then pure (TreeF.leaf right)
        else do
          let n ← splitNode fl o (rnd (path ++ [false])) (right.map (·.1)) (right.map (·.2))
            num_features split_random_location
          split rnd (path ++ [false]) n depth_max size_min_leaf num_features
            split_random_location (cur_depth + 1)
      return .node index value l r
termination_by (depth_max - cur_depth).toNat

/-- Grow one tree from a sample (`trees_random_forest.py:65-66`,
`trees_generic_trees.py:77-78`). -/
noncomputable def growTree (rnd : TreeRnd d) (X : List (Point d)) (Y : List Flt)
    (depth_max size_min_leaf num_features : ℤ) (split_random_location : Bool) : Py (TreeF d) := do
  let root ← splitNode fl o (rnd []) X Y num_features split_random_location
  split fl o rnd [] root depth_max size_min_leaf num_features split_random_location 1

/-- `np.std` of a flat array. -/
noncomputable def npStd (l : List Flt) : Flt :=
  let mean := npMean fl o.flat l
  let var := npMean fl o.flat (l.map (fun y => square fl (sub fl y mean)))
  OverflowKernels.sqrt fl var

/-- `np.mean(cur_Y), np.std(cur_Y)` at a leaf. -/
noncomputable def leafPrediction (rows : List (RowF d)) : Flt × Flt :=
  let cur_Y := rows.map (·.2)
  (npMean fl o.flat cur_Y, npStd fl o cur_Y)

/-- `_predict_by_tree` (`trees_common.py:391-423`). -/
noncomputable def predictByTree (bx : Point d) : TreeF d → Py (Flt × Flt)
  | .leaf _ => .error .assertion
  | .node index value left right =>
    if Flt.fin (bx index) < value then
      match left with
      | .node i v l r => predictByTree bx (.node i v l r)
      | .leaf rows => .ok (leafPrediction fl o rows)
    else
      match right with
      | .node i v l r => predictByTree bx (.node i v l r)
      | .leaf rows => .ok (leafPrediction fl o rows)

/-- `np.maximum(a, b)`: NaN if one side is. -/
noncomputable def npMaximum (a b : Flt) : Flt :=
  if a = .nan ∨ b = .nan then .nan else if a < b then b else a

/-- Python's `max(a, b)`: the first argument unless the second is greater. -/
noncomputable def pyMax (a b : Flt) : Flt := if a < b then b else a

/-- `compute_sigma` (`trees_common.py:539-577`). -/
noncomputable def computeSigma (preds_mu_leaf preds_sigma_leaf : List Flt) (min_sigma : ℝ := 0) :
    Py Flt := do
  pyAssert (preds_mu_leaf.length = preds_sigma_leaf.length)
  let preds_sigma_leaf_ :=
    preds_sigma_leaf.map (fun s => npMaximum s (add fl (.fin 0) (.fin min_sigma)))
  let sigma := npMean fl o.flat
    (List.zipWith (fun m s => add fl (square fl m) (square fl s)) preds_mu_leaf preds_sigma_leaf_)
  let sigma := sub fl sigma (square fl (npMean fl o.flat preds_mu_leaf))
  let sigma := pyMax sigma (.fin 0)
  return OverflowKernels.sqrt fl sigma

/-- `_predict_by_trees` (`trees_common.py:426-459`). -/
noncomputable def predictByTreesOne (bx : Point d) (list_trees : List (TreeF d)) :
    Py (Flt × Flt) := do
  let preds ← list_trees.mapM (predictByTree fl o bx)
  let list_mu_leaf := preds.map (·.1)
  let list_sigma_leaf := preds.map (·.2)
  let mu := npMean fl o.flat list_mu_leaf
  let sigma ← computeSigma fl o list_mu_leaf list_sigma_leaf
  return (mu, sigma)

/-- `unit_predict_by_trees` (`trees_common.py:462-494`). -/
noncomputable def unitPredictByTrees (X : List (Point d)) (list_trees : List (TreeF d)) :
    Py (List Flt × List Flt) := do
  let preds ← X.mapM (fun bx => predictByTreesOne fl o bx list_trees)
  return (preds.map (·.1), preds.map (·.2))

/-- `predict_by_trees` (`trees_common.py:497-536`), as in `Trees.lean`. -/
noncomputable def predictByTrees (X : List (Point d)) (list_trees : List (TreeF d)) :
    Py (List Flt × List Flt) := do
  let num_data := X.length
  if num_data ≤ NUM_DATA_PER_SPLIT_TREES then
    unitPredictByTrees fl o X list_trees
  else
    let list_Xs := arraySplit X ⌈(num_data : ℚ) / NUM_DATA_PER_SPLIT_TREES⌉₊
    let results ← list_Xs.mapM (fun Xs => unitPredictByTrees fl o Xs list_trees)
    return ((results.map (·.1)).flatten, (results.map (·.2)).flatten)

/-- `get_generic_trees` (`trees_generic_trees.py:13-82`). -/
noncomputable def getGenericTrees (rnd : ForestRnd d) (X : List (Point d)) (Y : List Flt)
    (num_trees depth_max size_min_leaf : ℤ) (ratio_sampling : ℝ) (replace_samples : Bool)
    (num_features : ℤ) (split_random_location : Bool) : Py (List (TreeF d)) := do
  pyAssert (X.length = Y.length)
  if replace_samples then
    pyAssert (ratio_sampling > 0)
  else
    pyAssert (0 < ratio_sampling ∧ ratio_sampling ≤ 1)
  (List.range num_trees.toNat).mapM (fun k => do
    let (X_, Y_) ← subsample fl (rnd.sample k) X Y ratio_sampling replace_samples
    growTree fl o (rnd.tree k) X_ Y_ depth_max size_min_leaf num_features split_random_location)

/-- `get_random_forest` (`trees_random_forest.py:14-70`). -/
noncomputable def getRandomForest (rnd : ForestRnd d) (X : List (Point d)) (Y : List Flt)
    (num_trees depth_max size_min_leaf num_features : ℤ) : Py (List (TreeF d)) := do
  pyAssert (X.length = Y.length)
  (List.range num_trees.toNat).mapM (fun k => do
    let (X_, Y_) ← subsample fl (rnd.sample k) X Y 1 true
    growTree fl o (rnd.tree k) X_ Y_ depth_max size_min_leaf num_features false)

end Verif.OverflowTrees
