import Verif.Spec.RoundedTrees
import Verif.Lemmas.Trees
import Verif.Lemmas.Rounded
import Verif.Lemmas.RoundedKernels

/-! Helper lemmas about trees and forests with rounding. -/

namespace Verif.RoundedTrees

open Verif.Spec Verif.Trees Verif.Rounded Verif.RoundedKernels

variable {fl : ℝ → ℝ} {o : Orders} {d : ℕ}

theorem entries_pos (s : SumOrder) : 1 ≤ s.entries.length := by
  induction s with
  | entry i => simp [SumOrder.entries]
  | add a b iha ihb => simp [SumOrder.entries]; omega

theorem sumList_two {s : SumOrder} (hs : s.Covers 2) (a b : ℝ) :
    sumList fl [a, b] s = fl (a + b) := by
  cases s with
  | entry i =>
    have := hs.length_eq
    simp [SumOrder.entries] at this
  | add x y =>
    have hl := hs.length_eq
    have hx := entries_pos x
    have hy := entries_pos y
    simp only [SumOrder.entries, List.length_append, List.length_range] at hl
    cases x with
    | add x1 x2 =>
      have := entries_pos x1
      have := entries_pos x2
      simp only [SumOrder.entries, List.length_append] at hl hx
      omega
    | entry i =>
      cases y with
      | add y1 y2 =>
        have := entries_pos y1
        have := entries_pos y2
        simp only [SumOrder.entries, List.length_append, List.length_singleton] at hl hx
        omega
      | entry j =>
        have h0 : 0 ∈ [i, j] := (hs.mem_iff (a := 0)).2 (by simp)
        have h1 : 1 ∈ [i, j] := (hs.mem_iff (a := 1)).2 (by simp)
        simp only [List.mem_cons, List.not_mem_nil, or_false] at h0 h1
        rcases h0 with rfl | rfl <;> rcases h1 with h1 | h1
        · omega
        · subst h1; simp [sumList]
        · subst h1; simp [sumList, add_comm]
        · omega

/-- The rounded mean. -/
noncomputable def meanOf (fl : ℝ → ℝ) (order : ℕ → SumOrder) (l : List ℝ) : ℝ :=
  fl (sumList fl l (order l.length) / l.length)

theorem npMean_ok {order : ℕ → SumOrder} {l : List ℝ} (h : l ≠ []) :
    npMean fl order l = .ok (meanOf fl order l) := by
  simp [npMean, h, meanOf]

/-- The rounded variance: mean in the order `order`, squares in the flat order. -/
noncomputable def varOf (fl : ℝ → ℝ) (o : Orders) (order : ℕ → SumOrder) (l : List ℝ) : ℝ :=
  meanOf fl o.flat (l.map (fun y => square fl (fl (y - meanOf fl order l))))

/-- The rounded cost of a side. -/
noncomputable def sideCostF (fl : ℝ → ℝ) (o : Orders) (l : List ℝ) : ℝ :=
  if l = [] then 100000000 else varOf fl o o.column l

/-- The rounded cost of a split. -/
noncomputable def splitCostF (fl : ℝ → ℝ) (o : Orders) (data : List (Row d)) (f : Fin d) (v : ℝ) : ℝ :=
  fl (sideCostF fl o ((below data f v).map (·.2)) + sideCostF fl o ((notBelow data f v).map (·.2)))

theorem mse1_eq (Y : List ℝ) : mse1 fl o Y = .ok (sideCostF fl o Y) := by
  by_cases h : Y = []
  · subst h; simp [mse1, sideCostF]; norm_num
  · have hl : 0 < Y.length := List.length_pos_iff.2 h
    simp only [mse1, hl, if_true, gt_iff_lt, npMean_ok h, bind, Except.bind]
    rw [npMean_ok (by simpa using h)]
    simp [sideCostF, h, varOf]

theorem mse_eq (l r : List (Row d)) :
    mse fl o (l, r) = .ok (fl (sideCostF fl o (l.map (·.2)) + sideCostF fl o (r.map (·.2)))) := by
  simp [mse, mse1_eq, getOutputsFromLeaf, bind, Except.bind, pure, Except.pure]

/-- One candidate of the scan for the best split by a cost. -/
noncomputable def stepBestBy (cost : Fin d → ℝ → ℝ) (data : List (Row d)) (cur : Best d)
    (p : Fin d × ℝ) : Best d :=
  if Flt.fin (cost p.1 p.2) < cur.score then
    { score := .fin (cost p.1 p.2)
      found := some (p.1, p.2, below data p.1 p.2, notBelow data p.1 p.2) }
  else cur

theorem stepBestBy_restart (cost : Fin d → ℝ → ℝ) (data : List (Row d)) (l : List (Fin d × ℝ))
    (cur : Best d) (hc : cur.score ≠ Flt.nan) :
    l.foldl (stepBestBy cost data) cur =
      (if (l.foldl (stepBestBy cost data) Best.init).score < cur.score then
        l.foldl (stepBestBy cost data) Best.init else cur) ∧
    (l.foldl (stepBestBy cost data) Best.init).score ≠ Flt.nan := by
  induction l using List.reverseRecOn with
  | nil => simp [Best.init]
  | append_singleton l p ih =>
    obtain ⟨ih, hn⟩ := ih
    rw [List.foldl_append, List.foldl_append, ih]
    generalize l.foldl (stepBestBy cost data) Best.init = B at hn ⊢
    simp only [List.foldl_cons, List.foldl_nil]
    generalize hs : Flt.fin (cost p.1 p.2) = s
    have hsn : s ≠ Flt.nan := by rw [← hs]; simp
    by_cases h1 : B.score < cur.score
    · simp only [h1, if_true]
      by_cases h2 : s < B.score
      · have h3 := Flt.lt_trans h2 h1
        simp [stepBestBy, hs, h2, h3, hsn]
      · simp [stepBestBy, hs, h2, h1, hn]
    · simp only [h1, if_false]
      have h1' := Flt.le_of_not_lt hn hc h1
      by_cases h2 : s < cur.score
      · have h3 := Flt.lt_of_lt_of_le h2 h1'
        simp [stepBestBy, hs, h2, h3, hsn]
      · by_cases h3 : s < B.score
        · simp [stepBestBy, hs, h2, h3, hsn]
        · simp [stepBestBy, hs, h2, h3, h1, hn]

theorem stepBestBy_spec (cost : Fin d → ℝ → ℝ) (data : List (Row d)) (l : List (Fin d × ℝ)) :
    (l = [] ∧ l.foldl (stepBestBy cost data) Best.init = Best.init) ∨
    ∃ (i : ℕ) (p : Fin d × ℝ), l[i]? = some p ∧
      (∀ (j : ℕ) q, l[j]? = some q → cost p.1 p.2 ≤ cost q.1 q.2) ∧
      l.foldl (stepBestBy cost data) Best.init =
        { score := .fin (cost p.1 p.2)
          found := some (p.1, p.2, below data p.1 p.2, notBelow data p.1 p.2) } := by
  induction l using List.reverseRecOn with
  | nil => left; simp
  | append_singleton l p ih =>
    right
    rw [List.foldl_append]
    rcases ih with ⟨rfl, h⟩ | ⟨i, q, hi, hle, hq⟩
    · refine ⟨0, p, by simp, ?_, ?_⟩
      · intro j q hq
        cases j with
        | zero => simp at hq; subst hq; exact _root_.le_refl _
        | succ j => simp at hq
      · rw [h]; simp [stepBestBy, Best.init]
    · rw [hq]
      have hil : i < l.length := (List.getElem?_eq_some_iff.1 hi).1
      by_cases hs : cost p.1 p.2 < cost q.1 q.2
      · refine ⟨l.length, p, by simp, ?_, by simp [stepBestBy, hs]⟩
        intro j r hr
        rcases lt_trichotomy j l.length with hj | hj | hj
        · rw [List.getElem?_append_left hj] at hr
          exact (hs.trans_le (hle j r hr)).le
        · subst hj; simp at hr; subst hr; exact _root_.le_refl _
        · rw [List.getElem?_eq_none (by simp; omega)] at hr; cases hr
      · refine ⟨i, q, by rw [List.getElem?_append_left hil]; exact hi, ?_, by simp [stepBestBy, hs]⟩
        intro j r hr
        rcases lt_trichotomy j l.length with hj | hj | hj
        · rw [List.getElem?_append_left hj] at hr
          exact hle j r hr
        · subst hj; simp at hr; subst hr; exact not_lt.1 hs
        · rw [List.getElem?_eq_none (by simp; omega)] at hr; cases hr

/-! ### The candidates -/

theorem valToSplit_many (ho : SumsAll o) {X : List (Point d)} {f : Fin d}
    (h : (levels X f).length > 1) {i : ℕ} (hi : i < (levels X f).length - 1) :
    valToSplit fl o X f i =
      .ok (fl (fl ((levels X f).getD i 0 + (levels X f).getD (i + 1) 0) / 2)) := by
  have h1 : i < (levels X f).length := by omega
  have h2 : i + 1 < (levels X f).length := by omega
  have hc : candidatesLoc X f = levels X f := rfl
  have ht : ((levels X f).drop i).take 2 = [(levels X f)[i], (levels X f)[i + 1]] := by
    rw [List.drop_eq_getElem_cons h1, List.drop_eq_getElem_cons h2]
    simp only [List.take_succ_cons, List.take_zero]
  simp only [valToSplit, hc, h, if_true, ht]
  rw [npMean_ok (by simp), meanOf]
  simp only [List.length_cons, List.length_nil, zero_add]
  rw [sumList_two (ho 2 (by norm_num)).2]
  simp [List.getElem?_eq_getElem, h1, h2]

theorem valToSplit_one {X : List (Point d)} (hX : X ≠ []) {f : Fin d}
    (h : ¬ (levels X f).length > 1) (i : ℕ) :
    valToSplit fl o X f i = .ok ((levels X f).getD 0 0) := by
  have := Trees.valToSplit_one hX h i
  have hc : candidatesLoc X f = levels X f := rfl
  simp only [Trees.valToSplit, hc, h, if_false] at this
  simp only [valToSplit, hc, h, if_false]
  exact this

theorem tryLoc_fold {X : List (Point d)} {Y : List ℝ} (hl : X.length = Y.length) (f : Fin d)
    (g : ℕ → ℝ) : ∀ (locs : List ℕ) (cur : Best d),
    (∀ i ∈ locs, valToSplit fl o X f i = .ok (g i)) →
    locs.foldlM (tryLoc fl o X Y f) cur =
      .ok ((locs.map (fun i => (f, g i))).foldl
        (stepBestBy (splitCostF fl o (X.zip Y)) (X.zip Y)) cur)
  | [], cur, _ => rfl
  | i :: t, cur, h => by
    have hi := h i (by simp)
    have ih := tryLoc_fold hl f g t
    rw [List.foldlM_cons]
    have : tryLoc fl o X Y f cur i =
        .ok (stepBestBy (splitCostF fl o (X.zip Y)) (X.zip Y) cur (f, g i)) := by
      simp only [tryLoc, hi, splitLeftRight_eq hl, mse_eq, bind, Except.bind, pure, Except.pure]
      simp only [stepBestBy, splitCostF]
      exact (apply_ite Except.ok _ _ _).symm
    rw [this]
    exact ih _ (fun j hj => h j (by simp [hj]))

theorem splitDeterministic_eq (ho : SumsAll o) {r : NodeRnd d} (hr : NodeRndOk r)
    {X : List (Point d)} {Y : List ℝ} (hX : X ≠ []) (hl : X.length = Y.length) (f : Fin d) (k : ℕ) :
    splitDeterministic fl o (r.locs k) X Y f =
      .ok (((triedMidpointsF fl r X f k).map (fun v => (f, v))).foldl
        (stepBestBy (splitCostF fl o (X.zip Y)) (X.zip Y)) Best.init) := by
  have hc : candidatesLoc X f = levels X f := rfl
  simp only [splitDeterministic, triedMidpointsF, hc]
  by_cases h : (levels X f).length > 1
  · simp only [h, if_true]
    rw [tryLoc_fold hl f
      (fun i => fl (fl ((levels X f).getD i 0 + (levels X f).getD (i + 1) 0) / 2))]
    · simp [List.map_map, Function.comp_def]
    · intro i hi
      exact valToSplit_many ho h (hr.locs_lt _ _ _ (by omega) i hi)
  · simp only [h, if_false]
    rw [tryLoc_fold hl f (fun _ => (levels X f).getD 0 0)]
    · simp [List.map_map, Function.comp_def]
    · intro i _
      exact valToSplit_one hX h i

theorem levels_npMin {X : List (Point d)} (hX : X ≠ []) (f : Fin d) :
    npMin (X.map (fun x => x f)) = .ok ((levels X f).getD 0 0) := by
  obtain ⟨h1, h2⟩ := sorted_head_min (levels_sorted X f) (levels_ne_nil hX f)
  rw [npMin_ok]
  obtain ⟨x, hx, hxe⟩ := mem_levels.1 h1
  refine ⟨List.mem_map.2 ⟨x, hx, hxe⟩, ?_⟩
  intro y hy
  obtain ⟨z, hz, rfl⟩ := List.mem_map.1 hy
  exact h2 _ (mem_levels.2 ⟨z, hz, rfl⟩)

theorem levels_npMax {X : List (Point d)} (hX : X ≠ []) (f : Fin d) :
    npMax (X.map (fun x => x f)) = .ok ((levels X f).getD ((levels X f).length - 1) 0) := by
  obtain ⟨h1, h2⟩ := sorted_last_max (levels_sorted X f) (levels_ne_nil hX f)
  rw [npMax_ok]
  obtain ⟨x, hx, hxe⟩ := mem_levels.1 h1
  refine ⟨List.mem_map.2 ⟨x, hx, hxe⟩, ?_⟩
  intro y hy
  obtain ⟨z, hz, rfl⟩ := List.mem_map.1 hy
  exact h2 _ (mem_levels.2 ⟨z, hz, rfl⟩)

theorem splitRandom_eq {r : NodeRnd d} {X : List (Point d)}
    {Y : List ℝ} (hX : X ≠ []) (hl : X.length = Y.length) (f : Fin d) (k : ℕ) :
    splitRandom fl o (r.unif k) X Y f =
      .ok (stepBestBy (splitCostF fl o (X.zip Y)) (X.zip Y) Best.init (f, triedRandomF fl r X f k)) := by
  have hc : candidatesLoc X f = levels X f := rfl
  have hval : randomValToSplit fl (r.unif k) X f = .ok (triedRandomF fl r X f k) := by
    simp only [randomValToSplit, hc, triedRandomF]
    by_cases h : (levels X f).length > 1
    · simp only [h, if_true]
      rw [levels_npMin hX, levels_npMax hX]
      rfl
    · have := Trees.valToSplit_one hX h 0
      simp only [Trees.valToSplit, hc, h, if_false] at this
      simp only [h, if_false]
      exact this
  simp [splitRandom, hval, splitLeftRight_eq hl, mse_eq, bind, Except.bind, pure, Except.pure,
    stepBestBy, Best.init, splitCostF]

theorem splitNode_eq (ho : SumsAll o) {r : NodeRnd d} (hr : NodeRndOk r) {X : List (Point d)}
    {Y : List ℝ} (hX : X ≠ []) (hl : X.length = Y.length) {nf : ℤ} (h0 : 0 ≤ nf) (hd : nf ≤ d)
    (rl : Bool) :
    splitNode fl o r X Y nf rl =
      .ok ((triedF fl r X nf rl).foldl
        (stepBestBy (splitCostF fl o (X.zip Y)) (X.zip Y)) Best.init) := by
  have hpos : X.length > 0 := List.length_pos_iff.2 hX
  have hcond : ¬ (nf < 0 ∨ nf > d) := by omega
  have hYp : 0 < Y.length := by omega
  simp only [splitNode, pyAssert, hl, gt_iff_lt, hYp, if_true, bind, Except.bind, hcond, if_false]
  unfold triedF
  generalize (r.features nf).zipIdx = fs
  suffices h : ∀ (cur : Best d), cur.score ≠ Flt.nan →
      fs.foldlM (tryFeature fl o r X Y rl) cur =
      .ok ((fs.flatMap (fun q =>
        (if rl then [triedRandomF fl r X q.1 q.2] else triedMidpointsF fl r X q.1 q.2).map
          (fun v => (q.1, v)))).foldl (stepBestBy (splitCostF fl o (X.zip Y)) (X.zip Y)) cur) from
    h Best.init (by simp [Best.init])
  induction fs with
  | nil => intro cur _; rfl
  | cons q fs ih =>
    intro cur hc
    rw [List.foldlM_cons, List.flatMap_cons, List.foldl_append]
    set l := ((if rl then [triedRandomF fl r X q.1 q.2] else triedMidpointsF fl r X q.1 q.2).map
          (fun v => (q.1, v))) with hldef
    have hrestart := stepBestBy_restart (splitCostF fl o (X.zip Y)) (X.zip Y) l cur hc
    have hstep : tryFeature fl o r X Y rl cur q =
        .ok (l.foldl (stepBestBy (splitCostF fl o (X.zip Y)) (X.zip Y)) cur) := by
      have hnew : splitFeature fl o r X Y rl q.1 q.2 =
          .ok (l.foldl (stepBestBy (splitCostF fl o (X.zip Y)) (X.zip Y)) Best.init) := by
        cases rl
        · simp [splitFeature, hldef, splitDeterministic_eq ho hr hX hl]
        · simp [splitFeature, hldef, splitRandom_eq hX hl]
      simp only [tryFeature, hnew, bind, Except.bind, pure, Except.pure]
      rw [hrestart.1]
      exact (apply_ite Except.ok _ _ _).symm
    rw [hstep]
    apply ih
    rw [hrestart.1]
    split_ifs
    · exact hrestart.2
    · exact hc

/-! ### Growth -/

theorem triedF_ne_nil {r : NodeRnd d} (hr : NodeRndOk r) {X : List (Point d)} {nf : ℤ}
    (h1 : 1 ≤ nf) (hd : nf ≤ d) (rl : Bool) : triedF fl r X nf rl ≠ [] := by
  have hlen := hr.features_length nf (by omega) hd
  have hne : r.features nf ≠ [] := by
    intro h
    rw [h] at hlen
    simp at hlen
    omega
  obtain ⟨f, fs, hf⟩ := List.exists_cons_of_ne_nil hne
  have hm : triedMidpointsF fl r X f 0 ≠ [] := by
    unfold triedMidpointsF
    by_cases h : (levels X f).length > 1
    · simp only [h, if_true]
      intro hc
      have hc := congrArg List.length hc
      rw [List.length_map, hr.locs_length _ _ _ (by omega)] at hc
      simp at hc
      omega
    · simp only [h, if_false]
      intro hc
      have hc := congrArg List.length hc
      rw [List.length_map, hr.locs_length _ _ _ (by omega)] at hc
      simp at hc
  unfold triedF
  rw [hf, List.zipIdx_cons, List.flatMap_cons]
  cases rl
  · simp [hm]
  · simp

/-- `(f, v)` is the split `_split` chooses for `data` with some random calls, in floating point. -/
def ChosenF (fl : ℝ → ℝ) (o : Orders) (nf : ℤ) (rl : Bool) (data : List (Row d)) (f : Fin d) (v : ℝ) :
    Prop :=
  ∃ r : NodeRnd d, NodeRndOk r ∧ (f, v) ∈ triedF fl r (data.map (·.1)) nf rl ∧
    ∀ q ∈ triedF fl r (data.map (·.1)) nf rl, splitCostF fl o data f v ≤ splitCostF fl o data q.1 q.2

theorem splitNode_found (ho : SumsAll o) {r : NodeRnd d} (hr : NodeRndOk r) {X : List (Point d)}
    {Y : List ℝ} (hX : X ≠ []) (hl : X.length = Y.length) {nf : ℤ} (h1 : 1 ≤ nf) (hd : nf ≤ d)
    (rl : Bool) :
    ∃ (f : Fin d) (v : ℝ), (f, v) ∈ triedF fl r X nf rl ∧
      (∀ q ∈ triedF fl r X nf rl,
        splitCostF fl o (X.zip Y) f v ≤ splitCostF fl o (X.zip Y) q.1 q.2) ∧
      splitNode fl o r X Y nf rl = .ok
        { score := .fin (splitCostF fl o (X.zip Y) f v)
          found := some (f, v, below (X.zip Y) f v, notBelow (X.zip Y) f v) } := by
  rw [splitNode_eq ho hr hX hl (by omega) hd]
  rcases stepBestBy_spec (splitCostF fl o (X.zip Y)) (X.zip Y) (triedF fl r X nf rl) with
    ⟨h, _⟩ | ⟨i, p, hi, hle, he⟩
  · exact absurd h (triedF_ne_nil hr h1 hd rl)
  · refine ⟨p.1, p.2, List.mem_of_getElem? hi, ?_, by rw [he]⟩
    intro q hq
    obtain ⟨j, hj⟩ := List.mem_iff_getElem?.1 hq
    exact hle j q hj

/-- The trees that growth from `data` at depth `c` can produce, when `Ch data f v` says which splits
can be chosen. -/
inductive GrownBy (Ch : List (Row d) → Fin d → ℝ → Prop) (dm sm : ℤ) :
    Bool → List (Row d) → ℤ → Tree d → Prop
  | small {data : List (Row d)} {c : ℤ} : data ≠ [] → (data.length : ℤ) ≤ sm → c ≤ dm →
      GrownBy Ch dm sm false data c (.leaf data)
  | degenerate {root : Bool} {data : List (Row d)} {c : ℤ} {f : Fin d} {v : ℝ} : data ≠ [] →
      (root = false → sm < data.length) → Ch data f v →
      (below data f v = [] ∨ notBelow data f v = []) → (root = false → c ≤ dm) →
      GrownBy Ch dm sm root data c
        (.node f v (.leaf (below data f v ++ notBelow data f v))
          (.leaf (below data f v ++ notBelow data f v)))
  | bottom {root : Bool} {data : List (Row d)} {c : ℤ} {f : Fin d} {v : ℝ} : data ≠ [] →
      (root = false → sm < data.length) → Ch data f v →
      below data f v ≠ [] → notBelow data f v ≠ [] → dm ≤ c → (root = false → c ≤ dm) →
      GrownBy Ch dm sm root data c (.node f v (.leaf (below data f v)) (.leaf (notBelow data f v)))
  | inner {root : Bool} {data : List (Row d)} {c : ℤ} {f : Fin d} {v : ℝ} {l r : Tree d} :
      data ≠ [] →
      (root = false → sm < data.length) → Ch data f v →
      below data f v ≠ [] → notBelow data f v ≠ [] → c < dm →
      GrownBy Ch dm sm false (below data f v) (c + 1) l →
      GrownBy Ch dm sm false (notBelow data f v) (c + 1) r →
      GrownBy Ch dm sm root data c (.node f v l r)

theorem split_grownF (ho : SumsAll o) {rnd : TreeRnd d} (hr : TreeRndOk rnd) {nf : ℤ} (h1 : 1 ≤ nf)
    (hd : nf ≤ d) (dm sm : ℤ) (rl : Bool) :
    ∀ (fuel : ℕ) (path : List Bool) (data : List (Row d)) (c : ℤ) (root : Bool) (f : Fin d) (v : ℝ)
      (score : Flt),
      (dm - c).toNat ≤ fuel → 0 < c → data ≠ [] → (root = false → sm < data.length) →
      (root = false → c ≤ dm) → ChosenF fl o nf rl data f v →
      ∃ t, split fl o rnd path
          { score := score, found := some (f, v, below data f v, notBelow data f v) }
          dm sm nf rl c = .ok t ∧ GrownBy (ChosenF fl o nf rl) dm sm root data c t := by
  intro fuel
  induction fuel with
  | zero =>
    intro path data c root f v score hf hc hne hsm hcd hch
    rw [split]
    simp only [pyAssert, gt_iff_lt, hc, if_true, bind, Except.bind, pure, Except.pure]
    by_cases hdeg : below data f v = [] ∨ notBelow data f v = []
    · rw [if_pos hdeg]
      exact ⟨_, rfl, GrownBy.degenerate hne hsm hch hdeg hcd⟩
    · rw [if_neg hdeg]
      push Not at hdeg
      have : c ≥ dm := by omega
      rw [dif_pos this]
      exact ⟨_, rfl, GrownBy.bottom hne hsm hch hdeg.1 hdeg.2 this hcd⟩
  | succ fuel ih =>
    intro path data c root f v score hf hc hne hsm hcd hch
    rw [split]
    simp only [pyAssert, gt_iff_lt, hc, if_true, bind, Except.bind, pure, Except.pure]
    by_cases hdeg : below data f v = [] ∨ notBelow data f v = []
    · rw [if_pos hdeg]
      exact ⟨_, rfl, GrownBy.degenerate hne hsm hch hdeg hcd⟩
    · rw [if_neg hdeg]
      push Not at hdeg
      by_cases hdm : c ≥ dm
      · rw [dif_pos hdm]
        exact ⟨_, rfl, GrownBy.bottom hne hsm hch hdeg.1 hdeg.2 hdm hcd⟩
      · rw [dif_neg hdm]
        have side : ∀ (path : List Bool) (rows : List (Row d)), rows ≠ [] →
            ∃ t, (((rows.length : ℤ) ≤ sm ∧ t = Trees.Tree.leaf rows) ∨
              (¬ (rows.length : ℤ) ≤ sm ∧ ∃ n, splitNode fl o (rnd path) (getInputsFromLeaf rows)
                (getOutputsFromLeaf rows) nf rl = .ok n ∧
                split fl o rnd path n dm sm nf rl (c + 1) = .ok t)) ∧
              GrownBy (ChosenF fl o nf rl) dm sm false rows (c + 1) t := by
          intro path rows hrows
          by_cases hs : (rows.length : ℤ) ≤ sm
          · exact ⟨_, Or.inl ⟨hs, rfl⟩, GrownBy.small hrows hs (by omega)⟩
          · have hX : getInputsFromLeaf rows ≠ [] := by simpa [getInputsFromLeaf] using hrows
            have hl : (getInputsFromLeaf rows).length = (getOutputsFromLeaf rows).length := by
              simp [getInputsFromLeaf, getOutputsFromLeaf]
            obtain ⟨f', v', ht, hle, he⟩ := splitNode_found (fl := fl) ho (hr path) hX hl h1 hd rl
            rw [zip_inputs_outputs] at hle he
            obtain ⟨t, h2, h3⟩ := ih path rows (c + 1) false f' v' (.fin (splitCostF fl o rows f' v'))
              (by omega) (by omega) hrows
              (fun _ => by omega) (fun _ => by omega) ⟨rnd path, hr path, ht, hle⟩
            exact ⟨t, Or.inr ⟨hs, _, he, h2⟩, h3⟩
        obtain ⟨tl, hl1, hl2⟩ := side (path ++ [true]) (below data f v) hdeg.1
        obtain ⟨tr, hr1, hr2⟩ := side (path ++ [false]) (notBelow data f v) hdeg.2
        refine ⟨Trees.Tree.node f v tl tr, ?_, GrownBy.inner hne hsm hch hdeg.1 hdeg.2 (by omega) hl2 hr2⟩
        rcases hl1 with ⟨hsl, rfl⟩ | ⟨hsl, nl, hnl, htl⟩ <;>
          rcases hr1 with ⟨hsr, rfl⟩ | ⟨hsr, nr, hnr, htr⟩ <;> simp [*]

theorem growTree_grownF (ho : SumsAll o) {rnd : TreeRnd d} (hr : TreeRndOk rnd) {nf : ℤ}
    (h1 : 1 ≤ nf) (hd : nf ≤ d) (dm sm : ℤ) (rl : Bool) {X : List (Point d)} {Y : List ℝ}
    (hX : X ≠ []) (hl : X.length = Y.length) :
    ∃ t, growTree fl o rnd X Y dm sm nf rl = .ok t ∧
      GrownBy (ChosenF fl o nf rl) dm sm true (X.zip Y) 1 t := by
  obtain ⟨f, v, ht, hle, he⟩ := splitNode_found (fl := fl) ho (hr []) hX hl h1 hd rl
  have hz : (X.zip Y).map (·.1) = X := List.map_fst_zip (by omega)
  have hne : X.zip Y ≠ [] := by
    intro h
    rw [h] at hz
    exact hX hz.symm
  obtain ⟨t, h2, h3⟩ := split_grownF ho hr h1 hd dm sm rl _ [] (X.zip Y) 1 true f v
    (.fin (splitCostF fl o (X.zip Y) f v)) (_root_.le_refl _) (by omega) hne (by simp) (by simp)
    ⟨rnd [], hr [], by rw [hz]; exact ⟨ht, hle⟩⟩
  refine ⟨t, ?_, h3⟩
  simp only [growTree, he, bind, Except.bind]
  exact h2

/-! ### Properties of grown trees -/

variable {Ch : List (Row d) → Fin d → ℝ → Prop} {dm sm c : ℤ} {root : Bool} {data : List (Row d)}
  {t : Tree d}

theorem grownBy_mem_heldRows (h : GrownBy Ch dm sm root data c t) (p : Row d) :
    p ∈ heldRows t ↔ p ∈ data := by
  induction h with
  | small _ _ _ => simp
  | @degenerate _ data _ f v _ _ _ _ _ =>
    have := (below_append_perm data f v).mem_iff (a := p)
    simp only [heldRows_node, heldRows_leaf, List.mem_append] at this ⊢
    tauto
  | @bottom _ data _ f v _ _ _ _ _ _ _ =>
    have := (below_append_perm data f v).mem_iff (a := p)
    simpa using this
  | @inner _ data _ f v l r _ _ _ _ _ _ _ _ ihl ihr =>
    have := (below_append_perm data f v).mem_iff (a := p)
    rw [heldRows_node, List.mem_append, ihl, ihr]
    simpa using this

theorem grownBy_perm (h : GrownBy Ch dm sm root data c t) (hr : Respects t) :
    (heldRows t).Perm data := by
  induction h with
  | small _ _ _ => simp
  | @degenerate _ data _ f v hne _ _ hdeg _ =>
    exfalso
    obtain ⟨p, hp⟩ := List.exists_mem_of_ne_nil _ hne
    have hp' := (below_append_perm data f v).mem_iff.2 hp
    obtain ⟨h1, h2, _⟩ := hr
    have := h1 p (by simpa using hp')
    have := h2 p (by simpa using hp')
    linarith
  | @bottom _ data _ f v _ _ _ _ _ _ _ =>
    simpa using below_append_perm data f v
  | @inner _ data _ f v l r _ _ _ _ _ _ _ _ ihl ihr =>
    obtain ⟨_, _, hl, hr⟩ := hr
    rw [heldRows_node]
    exact ((ihl hl).append (ihr hr)).trans (below_append_perm data f v)

theorem grownBy_leaves_ne_nil (h : GrownBy Ch dm sm root data c t) : ∀ L ∈ leaves t, L ≠ [] := by
  induction h with
  | small h _ _ => simpa [leaves] using h
  | @degenerate _ data _ f v hne _ _ _ _ =>
    intro L hL
    have : L = below data f v ++ notBelow data f v := by simpa [leaves] using hL
    subst this
    intro h
    have := below_append_perm data f v
    rw [h] at this
    exact hne this.nil_eq.symm
  | bottom _ _ _ h1 h2 _ _ =>
    intro L hL
    simp [leaves] at hL
    rcases hL with rfl | rfl <;> assumption
  | inner _ _ _ _ _ _ _ _ ihl ihr =>
    intro L hL
    rcases List.mem_append.1 hL with h | h
    · exact ihl L h
    · exact ihr L h

theorem grownBy_leaves_length (h : GrownBy Ch dm sm root data c t) :
    ∀ L ∈ leaves t, L.length ≤ data.length := by
  induction h with
  | small h _ _ => simp [leaves]
  | @degenerate _ data _ f v hne _ _ _ _ =>
    intro L hL
    have : L = below data f v ++ notBelow data f v := by simpa [leaves] using hL
    subst this
    exact (below_append_perm data f v).length_eq.le
  | @bottom _ data _ f v _ _ _ h1 h2 _ _ =>
    intro L hL
    simp [leaves] at hL
    rcases hL with rfl | rfl
    · exact List.length_filter_le _ _
    · exact List.length_filter_le _ _
  | inner _ _ _ _ _ _ _ _ ihl ihr =>
    intro L hL
    rcases List.mem_append.1 hL with h | h
    · exact (ihl L h).trans (List.length_filter_le _ _)
    · exact (ihr L h).trans (List.length_filter_le _ _)

theorem grownBy_depth_le (h : GrownBy Ch dm sm root data c t) :
    (depth t : ℤ) ≤ max (dm - c + 1) (if root then 1 else 0) := by
  induction h with
  | small _ _ _ => simp [depth]
  | @degenerate root _ _ _ _ _ _ _ _ hc =>
    cases root
    · have := hc rfl
      simp [depth]; omega
    · simp [depth]
  | @bottom root _ _ _ _ _ _ _ _ _ _ hc =>
    cases root
    · have := hc rfl
      simp [depth]; omega
    · simp [depth]
  | inner _ _ _ _ _ _ _ _ ihl ihr =>
    simp [depth] at ihl ihr ⊢
    omega

theorem grownBy_not_leaf (h : GrownBy Ch dm sm true data c t) : ∃ f v l r, t = .node f v l r := by
  cases h <;> exact ⟨_, _, _, _, rfl⟩

end Verif.RoundedTrees
