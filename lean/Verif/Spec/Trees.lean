import Verif.Model.Trees

/-! Vocabulary for the properties of regression trees (C47-C53). -/

namespace Verif.Spec

open Verif.Trees

variable {d : ℕ}

/-- All leaves of a tree, left to right. -/
def leaves : Tree d → List (List (Row d))
  | .leaf rows => [rows]
  | .node _ _ l r => leaves l ++ leaves r

/-- All training pairs held by the leaves. -/
def heldRows (t : Tree d) : List (Row d) := (leaves t).flatten

/-- Number of decisions on the longest path. -/
def depth : Tree d → ℕ
  | .leaf _ => 0
  | .node _ _ l r => max (depth l) (depth r) + 1

/-- Every pair lies on the side of each threshold above it that its input belongs to. -/
def Respects : Tree d → Prop
  | .leaf _ => True
  | .node i v l r =>
    (∀ p ∈ heldRows l, p.1 i < v) ∧ (∀ p ∈ heldRows r, v ≤ p.1 i) ∧ Respects l ∧ Respects r

/-- `rows` is the leaf whose thresholds `x` meets. -/
inductive Reaches (x : Point d) : Tree d → List (Row d) → Prop
  | leaf (rows : List (Row d)) : Reaches x (.leaf rows) rows
  | left {i : Fin d} {v : ℝ} {l r : Tree d} {rows : List (Row d)} :
      x i < v → Reaches x l rows → Reaches x (.node i v l r) rows
  | right {i : Fin d} {v : ℝ} {l r : Tree d} {rows : List (Row d)} :
      v ≤ x i → Reaches x r rows → Reaches x (.node i v l r) rows

/-- The average of some numbers. -/
noncomputable def avg (l : List ℝ) : ℝ := l.sum / l.length

/-- The mean squared deviation from `c`. -/
noncomputable def msd (c : ℝ) (l : List ℝ) : ℝ := avg (l.map (fun y => (y - c) ^ 2))

/-- What a side of a split costs: its variance, or `1e8` when it is empty. -/
noncomputable def sideCost (l : List ℝ) : ℝ := if l = [] then 100000000 else msd (avg l) l

/-- The rows below a threshold. -/
noncomputable def below (data : List (Row d)) (f : Fin d) (v : ℝ) : List (Row d) :=
  data.filter (fun p => p.1 f < v)

/-- The rows not below a threshold. -/
noncomputable def notBelow (data : List (Row d)) (f : Fin d) (v : ℝ) : List (Row d) :=
  data.filter (fun p => ¬ p.1 f < v)

/-- The cost of splitting `data` at the threshold `v` of feature `f`. -/
noncomputable def splitCost (data : List (Row d)) (f : Fin d) (v : ℝ) : ℝ :=
  sideCost ((below data f v).map (·.2)) + sideCost ((notBelow data f v).map (·.2))

/-- The distinct values of a feature, increasing. -/
noncomputable def levels (X : List (Point d)) (f : Fin d) : List ℝ :=
  ((X.map (fun x => x f)).toFinset).sort (· ≤ ·)

/-- The random generator keeps its promises: the right number of distinct features, distinct
locations in range, unit draws in `[0, 1)`. -/
structure NodeRndOk (r : NodeRnd d) : Prop where
  features_length : ∀ k : ℤ, 0 ≤ k → k ≤ d → ((r.features k).length : ℤ) = k
  features_nodup : ∀ k : ℤ, 0 ≤ k → k ≤ d → (r.features k).Nodup
  locs_length : ∀ k n m, m ≤ n → (r.locs k n m).length = m
  locs_nodup : ∀ k n m, m ≤ n → (r.locs k n m).Nodup
  locs_lt : ∀ k n m, m ≤ n → ∀ i ∈ r.locs k n m, i < n
  unif_nonneg : ∀ k, 0 ≤ r.unif k
  unif_lt : ∀ k, r.unif k < 1

/-- `v` is half way between two neighbouring values of feature `f`, or the only value. -/
def IsMidpoint (X : List (Point d)) (f : Fin d) (v : ℝ) : Prop :=
  (∃ x ∈ X, ∃ y ∈ X, x f < y f ∧ (∀ z ∈ X, z f ≤ x f ∨ y f ≤ z f) ∧ v = (x f + y f) / 2) ∨
  ((∀ x ∈ X, ∀ y ∈ X, x f = y f) ∧ ∃ x ∈ X, v = x f)

/-- The thresholds tried for the `k`-th drawn feature `f` without random locations: the
midpoints at the drawn locations. -/
noncomputable def triedMidpoints (r : NodeRnd d) (X : List (Point d)) (f : Fin d) (k : ℕ) :
    List ℝ :=
  let s := levels X f
  if s.length > 1 then
    (r.locs k (s.length - 1) (min 20 (s.length - 1))).map
      (fun i => (s.getD i 0 + s.getD (i + 1) 0) / 2)
  else
    (r.locs k 1 1).map (fun _ => s.getD 0 0)

/-- The threshold tried for the `k`-th drawn feature `f` with a random location. -/
noncomputable def triedRandom (r : NodeRnd d) (X : List (Point d)) (f : Fin d) (k : ℕ) : ℝ :=
  let s := levels X f
  s.getD 0 0 + (s.getD (s.length - 1) 0 - s.getD 0 0) * r.unif k

/-- All feature/threshold pairs tried at a node, in order. -/
noncomputable def tried (r : NodeRnd d) (X : List (Point d)) (num_features : ℤ) (random : Bool) :
    List (Fin d × ℝ) :=
  (r.features num_features).zipIdx.flatMap (fun q =>
    (if random then [triedRandom r X q.1 q.2] else triedMidpoints r X q.1 q.2).map
      (fun v => (q.1, v)))

/-- The random calls of a whole tree keep their promises. -/
def TreeRndOk (rnd : TreeRnd d) : Prop := ∀ path, NodeRndOk (rnd path)

/-- The bootstrap indices keep their promises. -/
structure SampleOk (choice : ℕ → ℕ → List ℕ) (replace : Bool) : Prop where
  length : ∀ n k, 0 < n → (replace = false → k ≤ n) → (choice n k).length = k
  lt : ∀ n k, 0 < n → (replace = false → k ≤ n) → ∀ i ∈ choice n k, i < n
  nodup : replace = false → ∀ n k, 0 < n → k ≤ n → (choice n k).Nodup

/-- The random calls of a forest keep their promises. -/
structure ForestRndOk (rnd : ForestRnd d) (replace : Bool) : Prop where
  sample : ∀ k, SampleOk (rnd.sample k) replace
  tree : ∀ k, TreeRndOk (rnd.tree k)

end Verif.Spec
