import Verif.Spec.Trees
import Verif.Spec.Doubles
import Verif.Model.RoundedTrees

/-! Vocabulary for trees and forests in double precision (C137-C139). -/

namespace Verif.Spec

open Verif.Trees

variable {d : ℕ}

/-- Every sum adds every entry once. -/
def SumsAll (o : RoundedTrees.Orders) : Prop :=
  ∀ n : ℕ, 1 ≤ n → (o.column n).Covers n ∧ (o.flat n).Covers n

/-- The thresholds tried for the `k`-th drawn feature `f` without random locations, in floating point:
the sum of two neighbouring values is rounded, and half of it again. -/
noncomputable def triedMidpointsF (fl : ℝ → ℝ) (r : NodeRnd d) (X : List (Point d)) (f : Fin d)
    (k : ℕ) : List ℝ :=
  let s := levels X f
  if s.length > 1 then
    (r.locs k (s.length - 1) (min 20 (s.length - 1))).map
      (fun i => fl (fl (s.getD i 0 + s.getD (i + 1) 0) / 2))
  else
    (r.locs k 1 1).map (fun _ => s.getD 0 0)

/-- The threshold tried for the `k`-th drawn feature `f` with a random location, in floating point. -/
noncomputable def triedRandomF (fl : ℝ → ℝ) (r : NodeRnd d) (X : List (Point d)) (f : Fin d)
    (k : ℕ) : ℝ :=
  let s := levels X f
  if s.length > 1 then
    fl (s.getD 0 0 + fl (fl (s.getD (s.length - 1) 0 - s.getD 0 0) * r.unif k))
  else s.getD 0 0

/-- All feature/threshold pairs tried at a node, in order, in floating point. -/
noncomputable def triedF (fl : ℝ → ℝ) (r : NodeRnd d) (X : List (Point d)) (num_features : ℤ)
    (random : Bool) : List (Fin d × ℝ) :=
  (r.features num_features).zipIdx.flatMap (fun q =>
    (if random then [triedRandomF fl r X q.1 q.2] else triedMidpointsF fl r X q.1 q.2).map
      (fun v => (q.1, v)))

end Verif.Spec
