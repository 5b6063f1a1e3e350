import Verif.Lemmas.RoundedTrees

/-! Without rounding the functions of `Model/RoundedTrees.lean` are those of `Model/Trees.lean`. -/

namespace Verif.RoundedTrees

open Verif.Constants Verif.Trees Verif.Rounded Verif.RoundedKernels Verif.Spec Verif.Lemmas

variable {o : Orders} {d : ℕ}

theorem npMean_id {order : ℕ → SumOrder} (ho : ∀ n, 1 ≤ n → (order n).Covers n) (l : List ℝ) :
    npMean id order l = Trees.npMean l := by
  unfold npMean Trees.npMean
  by_cases h : l = []
  · simp [h]
  · have hperm := ((ho _ (List.length_pos_iff.2 h)).map (fun i => l[i]?.getD 0)).sum_eq
    have hall : (List.range l.length).map (fun i => l[i]?.getD 0) = l := by
      apply List.ext_getElem (by simp)
      intro i h1 h2
      simp [List.getElem?_eq_getElem h2]
    rw [if_neg h, if_neg h, sumList_id, hperm, hall]
    rfl

theorem mse1_id (ho : SumsAll o) (Y : List ℝ) : mse1 id o Y = Trees.mse1 Y := by
  unfold mse1 Trees.mse1
  simp only [npMean_id (fun n hn => (ho n hn).1), npMean_id (fun n hn => (ho n hn).2), square, id]

theorem mse_id (ho : SumsAll o) : mse (d := d) id o = Trees.mse := by
  funext lr
  simp only [mse, Trees.mse, mse1_id ho, id]

theorem subsample_id : subsample (d := d) id = Trees.subsample := rfl

theorem valToSplit_id (ho : SumsAll o) : valToSplit (d := d) id o = Trees.valToSplit := by
  funext X f i
  simp only [valToSplit, Trees.valToSplit, npMean_id (fun n hn => (ho n hn).2)]

theorem tryLoc_id (ho : SumsAll o) : tryLoc (d := d) id o = Trees.tryLoc := by
  funext X Y f cur i
  simp only [tryLoc, Trees.tryLoc, valToSplit_id ho, mse_id ho]

theorem splitDeterministic_id (ho : SumsAll o) :
    splitDeterministic (d := d) id o = Trees.splitDeterministic := by
  funext choice X Y f
  simp only [splitDeterministic, Trees.splitDeterministic, tryLoc_id ho]

theorem splitRandom_id (ho : SumsAll o) : splitRandom (d := d) id o = Trees.splitRandom := by
  funext u X Y f
  simp only [splitRandom, Trees.splitRandom, mse_id ho]
  rfl

theorem splitNode_id (ho : SumsAll o) : splitNode (d := d) id o = Trees.splitNode := by
  funext r X Y nf rl
  have : tryFeature (d := d) id o = Trees.tryFeature := by
    funext r X Y rl cur f
    simp only [tryFeature, Trees.tryFeature, splitFeature, Trees.splitFeature, splitRandom_id ho,
      splitDeterministic_id ho]
  simp only [splitNode, Trees.splitNode, this]

theorem split_id (ho : SumsAll o) (rnd : TreeRnd d) (dm sm nf : ℤ) (rl : Bool) :
    ∀ (fuel : ℕ) (path : List Bool) (node : Best d) (c : ℤ), (dm - c).toNat ≤ fuel →
      split id o rnd path node dm sm nf rl c = Trees.split rnd path node dm sm nf rl c := by
  intro fuel
  induction fuel with
  | zero =>
    intro path node c hf
    have hc : c ≥ dm := by omega
    rw [split, Trees.split]
    cases hn : node.found with
    | none => rfl
    | some q =>
      obtain ⟨f, v, l, r⟩ := q
      simp only [hc, dif_pos]
  | succ fuel ih =>
    intro path node c hf
    rw [split, Trees.split]
    cases hn : node.found with
    | none => rfl
    | some q =>
      obtain ⟨f, v, l, r⟩ := q
      by_cases hc : c ≥ dm
      · simp only [hc, dif_pos]
      · have hlt : (dm - (c + 1)).toNat ≤ fuel := by omega
        simp only [hc, dif_neg, not_false_eq_true, splitNode_id ho, ih _ _ _ hlt]

theorem growTree_id (ho : SumsAll o) : growTree (d := d) id o = Trees.growTree := by
  funext rnd X Y dm sm nf rl
  unfold growTree Trees.growTree
  rw [splitNode_id ho]
  congr 1
  funext root
  exact split_id ho rnd dm sm nf rl _ _ _ _ le_rfl

theorem leafPrediction_id (ho : SumsAll o) : leafPrediction (d := d) id o = Trees.leafPrediction := by
  funext rows
  simp only [leafPrediction, Trees.leafPrediction, npStd, Trees.npStd,
    npMean_id (fun n hn => (ho n hn).2), square, id]

theorem predictByTree_id (ho : SumsAll o) (x : Point d) :
    ∀ t : Trees.Tree d, predictByTree id o x t = Trees.predictByTree x t
  | .leaf _ => rfl
  | .node i v l r => by
    have ihl := predictByTree_id ho x l
    have ihr := predictByTree_id ho x r
    rw [predictByTree.eq_def, Trees.predictByTree.eq_def]
    simp only []
    split_ifs
    · cases l with
      | leaf rows => simp only [leafPrediction_id ho]
      | node => exact ihl
    · cases r with
      | leaf rows => simp only [leafPrediction_id ho]
      | node => exact ihr

theorem predictByTreesOne_id (ho : SumsAll o) :
    predictByTreesOne (d := d) id o = Trees.predictByTreesOne := by
  funext x trees
  have : predictByTree id o x = Trees.predictByTree x := funext (predictByTree_id ho x)
  simp only [predictByTreesOne, Trees.predictByTreesOne, computeSigma, Trees.computeSigma, this,
    npMean_id (fun n hn => (ho n hn).2), square, id]

theorem predictByTrees_id (ho : SumsAll o) : predictByTrees (d := d) id o = Trees.predictByTrees := by
  funext X trees
  simp only [predictByTrees, Trees.predictByTrees, unitPredictByTrees, Trees.unitPredictByTrees,
    predictByTreesOne_id ho]

theorem getGenericTrees_id (ho : SumsAll o) :
    getGenericTrees (d := d) id o = Trees.getGenericTrees := by
  funext rnd X Y num dm sm ratio replace nf rl
  simp only [getGenericTrees, Trees.getGenericTrees, subsample_id, growTree_id ho]

theorem getRandomForest_id (ho : SumsAll o) :
    getRandomForest (d := d) id o = Trees.getRandomForest := by
  funext rnd X Y num dm sm nf
  simp only [getRandomForest, Trees.getRandomForest, subsample_id, growTree_id ho]

end Verif.RoundedTrees
