import Verif.Spec.OverflowTrees
import Verif.Lemmas.RoundedTrees
import Verif.Lemmas.OverflowKernels

/-! Helper lemmas about trees and forests with overflow. -/

namespace Verif.OverflowTrees

open Verif.Spec Verif.Trees Verif.Rounded Verif.RoundedKernels Verif.Lemmas
open Verif.RoundedTrees (Orders meanOf varOf sideCostF)

variable {fl : ℝ → ℝ} {o : Orders} {d : ℕ}

/-! ### Agreement with the functions without overflow -/

/-- A pair of numbers as a pair of floats. -/
def liftRow (q : Row d) : RowF d := (q.1, .fin q.2)

/-- The best split so far, in floats. -/
def liftBest (b : Best d) : BestF d where
  score := b.score
  found := b.found.map fun q => (q.1, .fin q.2.1, q.2.2.1.map liftRow, q.2.2.2.map liftRow)

theorem liftBest_score (b : Best d) : (liftBest b).score = b.score := rfl

/-- Moderate rows. -/
def Small (data : List (Row d)) : Prop :=
  data.length ≤ 2 ^ 20 ∧ ∀ q ∈ data, (∀ f, |q.1 f| ≤ (2 : ℝ) ^ (1000 : ℤ)) ∧ |q.2| ≤ (2 : ℝ) ^ (500 : ℤ)

theorem Small.filter {data : List (Row d)} (h : Small data) (p : Row d → Bool) : Small (data.filter p) :=
  ⟨(List.length_filter_le _ _).trans h.1, fun q hq => h.2 q (List.mem_of_mem_filter hq)⟩

theorem Small.below {data : List (Row d)} (h : Small data) (f : Fin d) (v : ℝ) :
    Small (below data f v) := h.filter _

theorem Small.notBelow {data : List (Row d)} (h : Small data) (f : Fin d) (v : ℝ) :
    Small (notBelow data f v) := h.filter _

theorem npMean_agrees (h : Nearest fl) {order : ℕ → SumOrder} {l : List ℝ} (hl : l ≠ [])
    (ho : (order l.length).Covers l.length) {m : ℤ} (hm : -1074 ≤ m) (hm' : m ≤ 1003)
    (hn : l.length ≤ 2 ^ 20) (hb : ∀ y ∈ l, |y| ≤ (2 : ℝ) ^ m) :
    npMean fl order (l.map .fin) = .fin (meanOf fl order l) ∧ |meanOf fl order l| ≤ (2 : ℝ) ^ m := by
  have hlen : (order l.length).entries.length = l.length := by rw [ho.length_eq, List.length_range]
  have hmem : ∀ i ∈ (order l.length).entries, i < l.length :=
    fun i hi => List.mem_range.1 (ho.mem_iff.1 hi)
  have hpos : (0 : ℝ) < l.length := by exact_mod_cast List.length_pos_iff.2 hl
  have hbig : (l.length : ℝ) * (2 : ℝ) ^ m < 2 ^ 1024 := by
    have h1 : (l.length : ℝ) ≤ (2 : ℝ) ^ (20 : ℤ) := by
      rw [show (2 : ℝ) ^ (20 : ℤ) = ((2 ^ 20 : ℕ) : ℝ) by norm_num]
      exact_mod_cast hn
    calc (l.length : ℝ) * (2 : ℝ) ^ m ≤ (2 : ℝ) ^ (20 : ℤ) * (2 : ℝ) ^ m :=
          mul_le_mul_of_nonneg_right h1 (by positivity)
      _ = (2 : ℝ) ^ (20 + m) := by rw [zpow_add₀ (by norm_num)]
      _ < 2 ^ 1024 := zpow_lt_overflow (by omega)
  obtain ⟨s1, s2⟩ := Verif.Lemmas.sumF_fin h hm l hb (order l.length) hmem (by rw [hlen]; exact hn.trans (by norm_num))
    (by rw [hlen]; exact hbig)
  rw [hlen] at s2
  have hq : |sumR fl l (order l.length) / l.length| ≤ (2 : ℝ) ^ m := by
    rw [abs_div, abs_of_pos hpos, div_le_iff₀ hpos, mul_comm]
    exact s2
  have hr := round_zpow h m hm (by omega) hq
  refine ⟨?_, by rw [meanOf, sumList_eq]; exact hr.2⟩
  rw [npMean, if_neg (by simpa using hl), Overflow.meanF, List.length_map, s1, divPos_fin, hr.1, meanOf,
    sumList_eq]

theorem sub_agrees (h : Nearest fl) {x y : ℝ} {m : ℤ} (hm : -1074 ≤ m) (hm' : m ≤ 1022)
    (hx : |x| ≤ (2 : ℝ) ^ m) (hy : |y| ≤ (2 : ℝ) ^ m) :
    Overflow.sub fl (.fin x) (.fin y) = .fin (fl (x - y)) ∧ |fl (x - y)| ≤ (2 : ℝ) ^ (m + 1) := by
  rw [sub_fin]
  refine round_zpow h (m + 1) (by omega) (by omega) ?_
  rw [zpow_add_one₀ (by norm_num)]
  exact (abs_sub _ _).trans (by linarith)

theorem add_agrees (h : Nearest fl) {x y : ℝ} {m : ℤ} (hm : -1074 ≤ m) (hm' : m ≤ 1022)
    (hx : |x| ≤ (2 : ℝ) ^ m) (hy : |y| ≤ (2 : ℝ) ^ m) :
    Overflow.add fl (.fin x) (.fin y) = .fin (fl (x + y)) ∧ |fl (x + y)| ≤ (2 : ℝ) ^ (m + 1) := by
  rw [add_fin]
  refine round_zpow h (m + 1) (by omega) (by omega) ?_
  rw [zpow_add_one₀ (by norm_num)]
  exact (abs_add_le _ _).trans (by linarith)

theorem square_agrees (h : Nearest fl) {x : ℝ} {m : ℤ} (hm : -500 ≤ m) (hm' : m ≤ 511)
    (hx : |x| ≤ (2 : ℝ) ^ m) :
    square fl (.fin x) = .fin (RoundedTrees.square fl x) ∧
      |RoundedTrees.square fl x| ≤ (2 : ℝ) ^ (2 * m) := by
  rw [square, mul_fin, RoundedTrees.square, sq]
  refine round_zpow h (2 * m) (by omega) (by omega) ?_
  rw [abs_mul, two_mul, zpow_add₀ (by norm_num)]
  exact mul_le_mul hx hx (abs_nonneg _) (by positivity)

theorem var_agrees (h : Nearest fl) {order : ℕ → SumOrder} {l : List ℝ} (hl : l ≠ [])
    (ho : (order l.length).Covers l.length) (hf : (o.flat l.length).Covers l.length)
    (hn : l.length ≤ 2 ^ 20) (hb : ∀ y ∈ l, |y| ≤ (2 : ℝ) ^ (500 : ℤ)) :
    npMean fl o.flat ((l.map Flt.fin).map fun y =>
        square fl (Overflow.sub fl y (npMean fl order (l.map .fin)))) = .fin (varOf fl o order l) ∧
      |varOf fl o order l| ≤ (2 : ℝ) ^ (1002 : ℤ) := by
  obtain ⟨m1, m2⟩ := npMean_agrees h hl ho (by norm_num) (by norm_num) hn hb
  have hsq : ∀ y ∈ l, square fl (Overflow.sub fl (.fin y) (.fin (meanOf fl order l))) =
        .fin (RoundedTrees.square fl (fl (y - meanOf fl order l))) ∧
      |RoundedTrees.square fl (fl (y - meanOf fl order l))| ≤ (2 : ℝ) ^ (1002 : ℤ) := by
    intro y hy
    obtain ⟨s1, s2⟩ := sub_agrees h (by norm_num) (by norm_num) (hb y hy) m2
    obtain ⟨q1, q2⟩ := square_agrees h (by norm_num) (by norm_num) s2
    rw [s1]
    exact ⟨q1, by norm_num at q2 ⊢; exact q2⟩
  have e : (l.map Flt.fin).map (fun y => square fl (Overflow.sub fl y (npMean fl order (l.map .fin)))) =
      (l.map fun y => RoundedTrees.square fl (fl (y - meanOf fl order l))).map Flt.fin := by
    rw [List.map_map, List.map_map]
    refine List.map_congr_left fun y hy => ?_
    simp only [Function.comp, m1]
    exact (hsq y hy).1
  rw [e, varOf]
  refine npMean_agrees h (by simpa using hl) (by simpa using hf) (by norm_num) (by norm_num)
    (by simpa using hn) ?_
  intro z hz
  obtain ⟨y, hy, rfl⟩ := List.mem_map.1 hz
  exact (hsq y hy).2

theorem mse1_agrees (h : Nearest fl) (ho : SumsAll o) {l : List ℝ} (hn : l.length ≤ 2 ^ 20)
    (hb : ∀ y ∈ l, |y| ≤ (2 : ℝ) ^ (500 : ℤ)) :
    mse1 fl o (l.map .fin) = .fin (sideCostF fl o l) ∧ |sideCostF fl o l| ≤ (2 : ℝ) ^ (1002 : ℤ) := by
  by_cases hl : l = []
  · subst hl
    simp only [mse1, sideCostF, List.map_nil, List.length_nil, gt_iff_lt, lt_irrefl, if_false, if_true]
    constructor
    · norm_num
    · rw [abs_of_nonneg (by norm_num)]
      calc (100000000 : ℝ) ≤ (2 : ℝ) ^ (27 : ℤ) := by norm_num
        _ ≤ _ := zpow_le_zpow_right₀ (by norm_num) (by norm_num)
  · have hp := List.length_pos_iff.2 hl
    have := var_agrees (o := o) h hl (order := o.column) (ho _ hp).1 (ho _ hp).2 hn hb
    simpa only [mse1, sideCostF, hl, if_false, List.length_map, gt_iff_lt, hp, if_true] using this

theorem map_outputs (l : List (Row d)) : (l.map liftRow).map (·.2) = (l.map (·.2)).map Flt.fin := by
  simp [liftRow, Function.comp_def]

theorem map_inputs (l : List (Row d)) : (l.map liftRow).map (·.1) = l.map (·.1) := by
  simp [liftRow, Function.comp_def]

theorem mse_agrees (h : Nearest fl) (ho : SumsAll o) {l r : List (Row d)} (hl : Small l) (hr : Small r) :
    mse fl o (l.map liftRow, r.map liftRow) =
      .fin (fl (sideCostF fl o (l.map (·.2)) + sideCostF fl o (r.map (·.2)))) := by
  have hb : ∀ {l : List (Row d)}, Small l → ∀ y ∈ l.map (·.2), |y| ≤ (2 : ℝ) ^ (500 : ℤ) := by
    intro l hl y hy
    obtain ⟨q, hq, rfl⟩ := List.mem_map.1 hy
    exact (hl.2 q hq).2
  obtain ⟨a1, a2⟩ := mse1_agrees h ho (l := l.map (·.2)) (by simpa using hl.1) (hb hl)
  obtain ⟨b1, b2⟩ := mse1_agrees h ho (l := r.map (·.2)) (by simpa using hr.1) (hb hr)
  rw [mse, map_outputs, map_outputs, a1, b1]
  exact (add_agrees h (by norm_num) (by norm_num) a2 b2).1

theorem zip_lift (X : List (Point d)) (Y : List ℝ) : X.zip (Y.map Flt.fin) = (X.zip Y).map liftRow := by
  rw [List.zip_map_right]
  rfl

theorem fin_lt_fin {x y : ℝ} : Flt.fin x < Flt.fin y ↔ x < y := Iff.rfl

theorem fin_le_fin {x y : ℝ} : Flt.fin x ≤ Flt.fin y ↔ x ≤ y := Iff.rfl

theorem splitLeftRight_agrees {X : List (Point d)} {Y : List ℝ} (hl : X.length = Y.length) (f : Fin d)
    (v : ℝ) :
    splitLeftRight X (Y.map .fin) f (.fin v) =
      .ok ((below (X.zip Y) f v).map liftRow, (notBelow (X.zip Y) f v).map liftRow) := by
  simp only [splitLeftRight, pyAssert, List.length_map, hl, if_true, bind, Except.bind, pure, Except.pure]
  rw [maskSelect_zip _ _ _ (by simpa using hl), maskSelect_zip _ _ _ (by simpa using hl), zip_lift,
    List.filter_map, List.filter_map]
  simp only [below, notBelow, Function.comp_def, liftRow, fin_lt_fin, fin_le_fin, not_lt]
  rfl

theorem small_zip {X : List (Point d)} {Y : List ℝ} (h : Moderate X Y) : Small (X.zip Y) := by
  refine ⟨?_, fun q hq => ⟨h.2.1 _ (List.of_mem_zip hq).1, h.2.2 _ (List.of_mem_zip hq).2⟩⟩
  rw [List.length_zip]
  exact (min_le_left _ _).trans h.1

/-- Candidates are as good in floats. -/
theorem step_agrees (h : Nearest fl) (ho : SumsAll o) {X : List (Point d)} {Y : List ℝ}
    (hl : X.length = Y.length) (hs : Small (X.zip Y)) (f : Fin d) (v : ℝ) (cur : Best d) :
    (do
      let left_right ← splitLeftRight X (Y.map .fin) f (.fin v)
      let score := mse fl o left_right
      if score < (liftBest cur).score then
        return { score := score, found := some (f, .fin v, left_right) }
      else
        return liftBest cur : Py (BestF d)) =
      (do
        let left_right ← Trees.splitLeftRight X Y f v
        let score ← RoundedTrees.mse fl o left_right
        if Flt.fin score < cur.score then
          return { score := .fin score, found := some (f, v, left_right) }
        else
          return cur : Py (Best d)).map liftBest := by
  rw [splitLeftRight_agrees hl, splitLeftRight_eq hl]
  simp only [bind, Except.bind, pure, Except.pure, RoundedTrees.mse_eq, liftBest_score,
    mse_agrees h ho (hs.below f v) (hs.notBelow f v)]
  by_cases hc : Flt.fin (fl (sideCostF fl o ((below (X.zip Y) f v).map (·.2)) +
      sideCostF fl o ((notBelow (X.zip Y) f v).map (·.2)))) < cur.score
  · rw [if_pos hc, if_pos hc]
    rfl
  · rw [if_neg hc, if_neg hc]
    rfl

theorem candidates_bound {X : List (Point d)} {Y : List ℝ} (hl : X.length = Y.length)
    (hs : Small (X.zip Y)) (f : Fin d) {c : ℝ} (hc : c ∈ candidatesLoc X f) :
    |c| ≤ (2 : ℝ) ^ (1000 : ℤ) := by
  obtain ⟨x, hx, rfl⟩ := mem_levels.1 hc
  obtain ⟨i, hi, rfl⟩ := List.getElem_of_mem hx
  exact (hs.2 (X[i], Y[i]'(hl ▸ hi)) (by
    have : i < (X.zip Y).length := by rw [List.length_zip, ← hl, min_self]; exact hi
    rw [← List.getElem_zip (h := this)]
    exact List.getElem_mem this)).1 f

theorem valToSplit_agrees (h : Nearest fl) (ho : SumsAll o) {X : List (Point d)} {Y : List ℝ}
    (hl : X.length = Y.length) (hX : X ≠ []) (hs : Small (X.zip Y)) (f : Fin d) {i : ℕ}
    (hi : i < (if (candidatesLoc X f).length > 1 then (candidatesLoc X f).length - 1 else 1)) :
    ∃ v, RoundedTrees.valToSplit fl o X f i = .ok v ∧ valToSplit fl o X f i = .ok (.fin v) := by
  unfold RoundedTrees.valToSplit valToSplit
  by_cases hc : (candidatesLoc X f).length > 1
  · simp only [hc, if_true] at hi ⊢
    have hne : ((candidatesLoc X f).drop i).take 2 ≠ [] := by
      rw [Ne, List.take_eq_nil_iff, List.drop_eq_nil_iff]
      omega
    have hlen : (((candidatesLoc X f).drop i).take 2).length ≤ 2 := by simp
    have hp := List.length_pos_iff.2 hne
    have := npMean_agrees h hne (order := o.flat) (ho _ hp).2 (m := 1000) (by norm_num) (by norm_num)
      (hlen.trans (by norm_num))
      fun y hy => candidates_bound hl hs f (List.mem_of_mem_drop (List.mem_of_mem_take hy))
    exact ⟨_, RoundedTrees.npMean_ok hne, by rw [this.1]; rfl⟩
  · simp only [hc, if_false]
    obtain ⟨x, hx⟩ : ∃ x, X[0]? = some x := by
      cases X with
      | nil => exact absurd rfl hX
      | cons x t => exact ⟨x, rfl⟩
    exact ⟨x f, by simp [pyIndex, hx, bind, Except.bind, pure, Except.pure], by
      simp [pyIndex, hx, bind, Except.bind, pure, Except.pure]⟩

theorem foldlM_agrees {α β β' : Type} (lift : β → β') (F : β → α → Py β) (F' : β' → α → Py β') :
    ∀ (l : List α) (c : β), (∀ i ∈ l, ∀ c, F' (lift c) i = (F c i).map lift) →
      l.foldlM F' (lift c) = (l.foldlM F c).map lift
  | [], _, _ => rfl
  | i :: t, c, h => by
    rw [List.foldlM_cons, List.foldlM_cons, h i (by simp)]
    cases hF : F c i with
    | error e => rfl
    | ok c' => exact foldlM_agrees lift F F' t c' fun j hj => h j (by simp [hj])

theorem splitDeterministic_agrees (h : Nearest fl) (ho : SumsAll o) {r : NodeRnd d} (hr : NodeRndOk r)
    {X : List (Point d)} {Y : List ℝ} (hl : X.length = Y.length) (hX : X ≠ []) (hs : Small (X.zip Y))
    (f : Fin d) (k : ℕ) :
    splitDeterministic fl o (r.locs k) X (Y.map .fin) f =
      (RoundedTrees.splitDeterministic fl o (r.locs k) X Y f).map liftBest := by
  unfold splitDeterministic RoundedTrees.splitDeterministic
  refine foldlM_agrees liftBest _ _ _ Best.init fun i hi cur => ?_
  have hi' := hr.locs_lt _ _ _ (min_le_right _ _) i hi
  obtain ⟨v, h1, h2⟩ := valToSplit_agrees h ho hl hX hs f hi'
  have := step_agrees h ho hl hs f v cur
  unfold tryLoc RoundedTrees.tryLoc
  rw [h1, h2]
  exact this

theorem splitRandom_agrees (h : Nearest fl) (ho : SumsAll o) {u : ℝ} (hu0 : 0 ≤ u) (hu1 : u < 1)
    {X : List (Point d)} {Y : List ℝ} (hl : X.length = Y.length) (hX : X ≠ []) (hs : Small (X.zip Y))
    (f : Fin d) :
    splitRandom fl o u X (Y.map .fin) f =
      (RoundedTrees.splitRandom fl o u X Y f).map liftBest := by
  obtain ⟨v, h1, h2⟩ : ∃ v, RoundedTrees.randomValToSplit fl u X f = .ok v ∧
      randomValToSplit fl u X f = .ok (.fin v) := by
    unfold RoundedTrees.randomValToSplit randomValToSplit
    by_cases hc : (candidatesLoc X f).length > 1
    · simp only [hc, if_true]
      have hne : X.map (fun x => x f) ≠ [] := by simpa using hX
      obtain ⟨mn, hmn⟩ := npMin_exists hne
      obtain ⟨mx, hmx⟩ := npMax_exists hne
      have hmn' := npMin_ok.1 hmn
      have hmx' := npMax_ok.1 hmx
      have hbd : ∀ c ∈ X.map (fun x => x f), |c| ≤ (2 : ℝ) ^ (1000 : ℤ) := by
        intro c hc
        obtain ⟨x, hx, rfl⟩ := List.mem_map.1 hc
        exact candidates_bound hl hs f (mem_levels.2 ⟨x, hx, rfl⟩)
      obtain ⟨w1, w2⟩ := sub_agrees h (by norm_num) (by norm_num) (hbd _ hmx'.1) (hbd _ hmn'.1)
      have hm : |fl (mx - mn) * u| ≤ (2 : ℝ) ^ (1001 : ℤ) := by
        rw [abs_mul, abs_of_nonneg hu0]
        exact (mul_le_of_le_one_right (abs_nonneg _) hu1.le).trans (by norm_num at w2 ⊢; exact w2)
      obtain ⟨m1, m2⟩ := round_zpow h 1001 (by norm_num) (by norm_num) hm
      have hmn2 : |mn| ≤ (2 : ℝ) ^ (1001 : ℤ) :=
        (hbd _ hmn'.1).trans (zpow_le_zpow_right₀ (by norm_num) (by norm_num))
      obtain ⟨a1, -⟩ := add_agrees h (by norm_num) (by norm_num) hmn2 m2
      refine ⟨fl (mn + fl (fl (mx - mn) * u)), by
        simp [hmn, hmx, bind, Except.bind, pure, Except.pure], ?_⟩
      simp only [hmn, hmx, bind, Except.bind, pure, Except.pure, w1, mul_fin, m1, a1]
    · simp only [hc, if_false]
      obtain ⟨x, hx⟩ : ∃ x, X[0]? = some x := by
        cases X with
        | nil => exact absurd rfl hX
        | cons x t => exact ⟨x, rfl⟩
      exact ⟨x f, by simp [pyIndex, hx, bind, Except.bind, pure, Except.pure], by
        simp [pyIndex, hx, bind, Except.bind, pure, Except.pure]⟩
  unfold splitRandom RoundedTrees.splitRandom
  rw [h1, h2]
  simp only [bind, Except.bind, pure, Except.pure, splitLeftRight_agrees hl, splitLeftRight_eq hl,
    RoundedTrees.mse_eq, mse_agrees h ho (hs.below f v) (hs.notBelow f v)]
  rfl

theorem splitNode_agrees (h : Nearest fl) (ho : SumsAll o) {r : NodeRnd d} (hr : NodeRndOk r)
    {X : List (Point d)} {Y : List ℝ} (hl : X.length = Y.length) (hX : X ≠ []) (hs : Small (X.zip Y))
    (nf : ℤ) (rl : Bool) :
    splitNode fl o r X (Y.map .fin) nf rl = (RoundedTrees.splitNode fl o r X Y nf rl).map liftBest := by
  have hp := List.length_pos_iff.2 hX
  simp only [splitNode, RoundedTrees.splitNode, pyAssert, List.length_map, ← hl, if_true, gt_iff_lt, hp,
    bind, Except.bind]
  split_ifs with hnf
  · rfl
  · refine foldlM_agrees liftBest _ _ _ Best.init fun q _ cur => ?_
    have hf : splitFeature fl o r X (Y.map .fin) rl q.1 q.2 =
        (RoundedTrees.splitFeature fl o r X Y rl q.1 q.2).map liftBest := by
      unfold splitFeature RoundedTrees.splitFeature
      split_ifs
      · exact splitRandom_agrees h ho (hr.unif_nonneg _) (hr.unif_lt _) hl hX hs _
      · exact splitDeterministic_agrees h ho hr hl hX hs _ _
    unfold tryFeature RoundedTrees.tryFeature
    rw [hf]
    cases RoundedTrees.splitFeature fl o r X Y rl q.1 q.2 with
    | error e => rfl
    | ok b =>
      simp only [Except.map, bind, Except.bind, pure, Except.pure]
      by_cases hc : b.score < cur.score
      · rw [if_pos hc, if_pos (show (liftBest b).score < (liftBest cur).score from hc)]
      · rw [if_neg hc, if_neg (show ¬ (liftBest b).score < (liftBest cur).score from hc)]

/-- The rows of a split are moderate. -/
def SmallBest (b : Best d) : Prop :=
  ∀ f v l r, b.found = some (f, v, l, r) → Small l ∧ Small r

theorem splitNode_small (ho : SumsAll o) {r : NodeRnd d} (hr : NodeRndOk r) {X : List (Point d)}
    {Y : List ℝ} (hl : X.length = Y.length) (hX : X ≠ []) (hs : Small (X.zip Y)) {nf : ℤ} (h0 : 0 ≤ nf)
    (hd : nf ≤ d) (rl : Bool) {b : Best d} (hb : RoundedTrees.splitNode fl o r X Y nf rl = .ok b) :
    SmallBest b := by
  rw [RoundedTrees.splitNode_eq ho hr hX hl h0 hd] at hb
  obtain rfl := Except.ok.inj hb
  intro f v l r' hf
  rcases RoundedTrees.stepBestBy_spec (RoundedTrees.splitCostF fl o (X.zip Y)) (X.zip Y)
    (triedF fl r X nf rl) with ⟨_, he⟩ | ⟨i, p, -, -, he⟩
  · rw [he] at hf
    simp [Best.init] at hf
  · rw [he] at hf
    simp only [Option.some.injEq, Prod.mk.injEq] at hf
    obtain ⟨-, -, rfl, rfl⟩ := hf
    exact ⟨hs.below _ _, hs.notBelow _ _⟩

theorem zip_fst_snd (l : List (Row d)) : (l.map (·.1)).zip (l.map (·.2)) = l := by
  induction l with
  | nil => rfl
  | cons a t ih => simp [ih]

theorem split_agrees (h : Nearest fl) (ho : SumsAll o) {rnd : TreeRnd d} (hr : TreeRndOk rnd)
    (dm sm : ℤ) {nf : ℤ} (h0 : 0 ≤ nf) (hd : nf ≤ d) (rl : Bool) :
    ∀ (fuel : ℕ) (path : List Bool) (node : Best d) (c : ℤ), (dm - c).toNat ≤ fuel → SmallBest node →
      split fl o rnd path (liftBest node) dm sm nf rl c =
        (RoundedTrees.split fl o rnd path node dm sm nf rl c).map asFloats := by
  intro fuel
  have hleaf : ∀ l : List (Row d), asFloats (.leaf l) = .leaf (l.map liftRow) := fun l => rfl
  induction fuel with
  | zero =>
    intro path node c hf hb
    have hc : c ≥ dm := by omega
    rw [split, RoundedTrees.split]
    by_cases hc0 : c > 0
    swap
    · simp [pyAssert, hc0, bind, Except.bind, Except.map]
    simp only [pyAssert, hc0, if_true, bind, Except.bind, liftBest]
    cases hn : node.found with
    | none => rfl
    | some q =>
      obtain ⟨f, v, l, r⟩ := q
      simp only [Option.map_some, hc, dif_pos, List.map_eq_nil_iff, pure, Except.pure]
      split_ifs
      · simp only [Except.map, asFloats, List.map_append]
        rfl
      · rfl
  | succ fuel ih =>
    intro path node c hf hb
    rw [split, RoundedTrees.split]
    by_cases hc0 : c > 0
    swap
    · simp [pyAssert, hc0, bind, Except.bind, Except.map]
    simp only [pyAssert, hc0, if_true, bind, Except.bind, liftBest]
    cases hn : node.found with
    | none => rfl
    | some q =>
      obtain ⟨f, v, l, r⟩ := q
      obtain ⟨hsl, hsr⟩ := hb f v l r hn
      simp only [Option.map_some, List.map_eq_nil_iff, pure, Except.pure]
      by_cases hnil : l = [] ∨ r = []
      · simp only [hnil, if_true, Except.map, asFloats, List.map_append]
        rfl
      simp only [hnil, if_false]
      by_cases hc : c ≥ dm
      · simp only [hc, dif_pos]
        rfl
      have hlt : (dm - (c + 1)).toNat ≤ fuel := by omega
      push Not at hnil
      have side : ∀ (s : List (Row d)) (p : List Bool), s ≠ [] → Small s →
          splitNode fl o (rnd p) ((s.map liftRow).map (·.1)) ((s.map liftRow).map (·.2)) nf rl =
            (RoundedTrees.splitNode fl o (rnd p) (getInputsFromLeaf s) (getOutputsFromLeaf s) nf rl).map
              liftBest ∧
          ∀ n, RoundedTrees.splitNode fl o (rnd p) (getInputsFromLeaf s) (getOutputsFromLeaf s) nf rl =
              .ok n →
            split fl o rnd p (liftBest n) dm sm nf rl (c + 1) =
              (RoundedTrees.split fl o rnd p n dm sm nf rl (c + 1)).map asFloats := by
        intro s p hne hs
        have hz : (getInputsFromLeaf s).zip (getOutputsFromLeaf s) = s := zip_fst_snd s
        have hlen : (getInputsFromLeaf s).length = (getOutputsFromLeaf s).length := by
          simp [getInputsFromLeaf, getOutputsFromLeaf]
        have hne' : getInputsFromLeaf s ≠ [] := by simpa [getInputsFromLeaf] using hne
        rw [map_inputs, map_outputs]
        exact ⟨splitNode_agrees h ho (hr p) hlen hne' (by rw [hz]; exact hs) nf rl, fun n hn =>
          ih p n (c + 1) hlt (splitNode_small ho (hr p) hlen hne' (by rw [hz]; exact hs) h0 hd rl hn)⟩
      simp only [hc, dif_neg, not_false_eq_true]
      obtain ⟨L1, L2⟩ := side l (path ++ [true]) hnil.1 hsl
      obtain ⟨R1, R2⟩ := side r (path ++ [false]) hnil.2 hsr
      rw [L1, R1]
      simp only [List.length_map]
      generalize RoundedTrees.splitNode fl o (rnd (path ++ [true])) (getInputsFromLeaf l)
        (getOutputsFromLeaf l) nf rl = eL at L2
      generalize RoundedTrees.splitNode fl o (rnd (path ++ [false])) (getInputsFromLeaf r)
        (getOutputsFromLeaf r) nf rl = eR at R2
      by_cases hls : (l.length : ℤ) ≤ sm
      · simp only [hls, if_true]
        by_cases hrs : (r.length : ℤ) ≤ sm
        · simp only [hrs, if_true]
          rfl
        · simp only [hrs, if_false]
          cases eR with
          | error e => rfl
          | ok m =>
            simp only [Except.map, R2 m rfl]
            cases RoundedTrees.split fl o rnd (path ++ [false]) m dm sm nf rl (c + 1) <;> rfl
      · simp only [hls, if_false]
        cases eL with
        | error e => rfl
        | ok n =>
          simp only [Except.map, L2 n rfl]
          cases RoundedTrees.split fl o rnd (path ++ [true]) n dm sm nf rl (c + 1) with
          | error e => rfl
          | ok T =>
            by_cases hrs : (r.length : ℤ) ≤ sm
            · simp only [hrs, if_true]
              rfl
            · simp only [hrs, if_false]
              cases eR with
              | error e => rfl
              | ok m =>
                simp only [R2 m rfl, Except.map]
                cases RoundedTrees.split fl o rnd (path ++ [false]) m dm sm nf rl (c + 1) <;> rfl

theorem growTree_agrees (h : Nearest fl) (ho : SumsAll o) {rnd : TreeRnd d} (hr : TreeRndOk rnd)
    {X : List (Point d)} {Y : List ℝ} (hl : X.length = Y.length) (hX : X ≠ []) (hs : Small (X.zip Y))
    (dm sm : ℤ) {nf : ℤ} (h0 : 0 ≤ nf) (hd : nf ≤ d) (rl : Bool) :
    growTree fl o rnd X (Y.map .fin) dm sm nf rl =
      (RoundedTrees.growTree fl o rnd X Y dm sm nf rl).map asFloats := by
  unfold growTree RoundedTrees.growTree
  rw [splitNode_agrees h ho (hr []) hl hX hs]
  cases hb : RoundedTrees.splitNode fl o (rnd []) X Y nf rl with
  | error e => rfl
  | ok b =>
    exact split_agrees h ho hr dm sm h0 hd rl (dm - 1).toNat [] b 1 le_rfl
      (splitNode_small ho (hr []) hl hX hs h0 hd rl hb)

/-! ### Predictions -/

theorem fl_nonneg' (h : Nearest fl) {x : ℝ} (hx : 0 ≤ x) : 0 ≤ fl x := fl_nonneg h hx

theorem sumR_nonneg (h : Nearest fl) {l : List ℝ} (hl : ∀ x ∈ l, 0 ≤ x) (s : SumOrder) :
    0 ≤ sumList fl l s := by
  induction s with
  | entry i =>
    rw [sumList]
    by_cases hi : i < l.length
    · rw [List.getElem?_eq_getElem hi]
      exact hl _ (List.getElem_mem hi)
    · rw [List.getElem?_eq_none (not_lt.1 hi)]
      rfl
  | add a b iha ihb =>
    rw [sumList]
    exact fl_nonneg h (add_nonneg iha ihb)

theorem meanOf_nonneg (h : Nearest fl) {order : ℕ → SumOrder} {l : List ℝ} (hl : ∀ x ∈ l, 0 ≤ x) :
    0 ≤ meanOf fl order l := by
  rw [meanOf]
  exact fl_nonneg h (div_nonneg (sumR_nonneg h hl _) (Nat.cast_nonneg _))

theorem square_nonneg (h : Nearest fl) (x : ℝ) : 0 ≤ RoundedTrees.square fl x :=
  fl_nonneg h (sq_nonneg x)

theorem varOf_nonneg (h : Nearest fl) (order : ℕ → SumOrder) (l : List ℝ) : 0 ≤ varOf fl o order l := by
  rw [varOf]
  refine meanOf_nonneg h ?_
  intro x hx
  obtain ⟨y, -, rfl⟩ := List.mem_map.1 hx
  exact square_nonneg h _

theorem sqrt_agrees (h : Nearest fl) {x : ℝ} (h0 : 0 ≤ x) {m : ℤ} (hm : -500 ≤ m) (hm' : m ≤ 511)
    (hx : |x| ≤ (2 : ℝ) ^ (2 * m)) :
    OverflowKernels.sqrt fl (.fin x) = .fin (fl √x) ∧ 0 ≤ fl √x ∧ fl √x ≤ (2 : ℝ) ^ m := by
  have h1 : |√x| ≤ (2 : ℝ) ^ m := by
    rw [abs_of_nonneg (Real.sqrt_nonneg x)]
    refine Real.sqrt_le_iff.2 ⟨by positivity, ?_⟩
    rw [abs_of_nonneg h0] at hx
    rwa [sq, ← zpow_add₀ (by norm_num), ← two_mul]
  obtain ⟨r1, r2⟩ := round_zpow h m (by omega) (by omega) h1
  have h2 := fl_nonneg h (Real.sqrt_nonneg x)
  rw [sqrt_fin h0, r1]
  exact ⟨rfl, h2, by rwa [abs_of_nonneg h2] at r2⟩

/-- A prediction of one tree: numbers of bounded size. -/
def SmallPair (p : ℝ × ℝ) : Prop := |p.1| ≤ (2 : ℝ) ^ (500 : ℤ) ∧ 0 ≤ p.2 ∧ p.2 ≤ (2 : ℝ) ^ (501 : ℤ)

/-- A pair of numbers, in floats. -/
def liftPair (p : ℝ × ℝ) : Flt × Flt := (.fin p.1, .fin p.2)

theorem leafPrediction_agrees (h : Nearest fl) (ho : SumsAll o) {rows : List (Row d)} (hne : rows ≠ [])
    (hs : Small rows) : ∃ p, RoundedTrees.leafPrediction fl o rows = .ok p ∧
      leafPrediction fl o (rows.map liftRow) = liftPair p ∧ SmallPair p := by
  have hne' : rows.map (·.2) ≠ [] := by simpa using hne
  have hb : ∀ y ∈ rows.map (·.2), |y| ≤ (2 : ℝ) ^ (500 : ℤ) := by
    intro y hy
    obtain ⟨q, hq, rfl⟩ := List.mem_map.1 hy
    exact (hs.2 q hq).2
  have hn : (rows.map (·.2)).length ≤ 2 ^ 20 := by simpa using hs.1
  have hp := List.length_pos_iff.2 hne'
  obtain ⟨m1, m2⟩ := npMean_agrees h hne' (order := o.flat) (ho _ hp).2 (by norm_num) (by norm_num) hn hb
  obtain ⟨v1, v2⟩ := var_agrees (o := o) h hne' (order := o.flat) (ho _ hp).2 (ho _ hp).2 hn hb
  obtain ⟨s1, s2, s3⟩ := sqrt_agrees h (varOf_nonneg (o := o) h o.flat (rows.map (·.2))) (m := 501)
    (by norm_num) (by norm_num) (by norm_num at v2 ⊢; exact v2)
  refine ⟨(meanOf fl o.flat (rows.map (·.2)), fl √(varOf fl o o.flat (rows.map (·.2)))), ?_, ?_, ?_⟩
  · have hnm : (rows.map (·.2)).map (fun y => RoundedTrees.square fl
        (fl (y - meanOf fl o.flat (rows.map (·.2))))) ≠ [] := by simpa using hne
    simp only [RoundedTrees.leafPrediction, RoundedTrees.npStd, getOutputsFromLeaf,
      RoundedTrees.npMean_ok hne', RoundedTrees.npMean_ok hnm, bind, Except.bind, pure, Except.pure, varOf]
  · rw [leafPrediction, npStd, map_outputs, v1, m1, s1, liftPair]
  · rw [SmallPair]
    exact ⟨m2, s2, s3⟩

/-- Every leaf has a row, and its rows are moderate. -/
def SmallTree : Tree d → Prop
  | .leaf rows => rows ≠ [] ∧ Small rows
  | .node _ _ l r => SmallTree l ∧ SmallTree r

theorem predictByTree_agrees (h : Nearest fl) (ho : SumsAll o) (x : Point d) :
    ∀ t : Trees.Tree d, SmallTree t →
      (∃ rows, t = .leaf rows) ∨ ∃ p, RoundedTrees.predictByTree fl o x t = .ok p ∧
        predictByTree fl o x (asFloats t) = .ok (liftPair p) ∧ SmallPair p
  | .leaf rows, _ => .inl ⟨rows, rfl⟩
  | .node i v l r, ht => by
    right
    have ihl := predictByTree_agrees h ho x l ht.1
    have ihr := predictByTree_agrees h ho x r ht.2
    rw [RoundedTrees.predictByTree.eq_def, asFloats, predictByTree.eq_def]
    simp only [fin_lt_fin]
    split_ifs
    · cases l with
      | leaf rows =>
        obtain ⟨p, h1, h2, h3⟩ := leafPrediction_agrees h ho ht.1.1 ht.1.2
        exact ⟨p, h1, congrArg Except.ok h2, h3⟩
      | node =>
        rcases ihl with ⟨_, h⟩ | h
        · cases h
        · exact h
    · cases r with
      | leaf rows =>
        obtain ⟨p, h1, h2, h3⟩ := leafPrediction_agrees h ho ht.2.1 ht.2.2
        exact ⟨p, h1, congrArg Except.ok h2, h3⟩
      | node =>
        rcases ihr with ⟨_, h⟩ | h
        · cases h
        · exact h

theorem mapM_agrees {α α' β β' : Type} (la : α → α') (lb : β → β') (P : β → Prop) (F : α → Py β)
    (F' : α' → Py β') : ∀ l : List α, (∀ a ∈ l, ∃ b, F a = .ok b ∧ F' (la a) = .ok (lb b) ∧ P b) →
      ∃ bs, l.mapM F = .ok bs ∧ (l.map la).mapM F' = .ok (bs.map lb) ∧ (∀ b ∈ bs, P b) ∧
        bs.length = l.length
  | [], _ => ⟨[], rfl, rfl, by simp, rfl⟩
  | a :: t, h => by
    obtain ⟨b, h1, h2, h3⟩ := h a (by simp)
    obtain ⟨bs, g1, g2, g3, g4⟩ := mapM_agrees la lb P F F' t fun x hx => h x (by simp [hx])
    refine ⟨b :: bs, ?_, ?_, ?_, by simp [g4]⟩
    · simp [List.mapM_cons, h1, g1, bind, Except.bind, pure, Except.pure]
    · simp [List.mapM_cons, h2, g2, bind, Except.bind, pure, Except.pure]
    · intro c hc
      rcases List.mem_cons.1 hc with rfl | hc
      · exact h3
      · exact g3 c hc

theorem npMaximum_fin (x y : ℝ) : npMaximum (.fin x) (.fin y) = .fin (max x y) := by
  rw [npMaximum, if_neg (by simp)]
  by_cases hxy : x < y
  · rw [if_pos (show Flt.fin x < Flt.fin y from hxy), max_eq_right hxy.le]
  · rw [if_neg (show ¬ Flt.fin x < Flt.fin y from hxy), max_eq_left (not_lt.1 hxy)]

theorem pyMax_fin (x y : ℝ) : pyMax (.fin x) (.fin y) = .fin (max x y) := by
  rw [pyMax]
  by_cases hxy : x < y
  · rw [if_pos (show Flt.fin x < Flt.fin y from hxy), max_eq_right hxy.le]
  · rw [if_neg (show ¬ Flt.fin x < Flt.fin y from hxy), max_eq_left (not_lt.1 hxy)]

theorem predictByTreesOne_agrees (h : Nearest fl) (ho : SumsAll o) (x : Point d)
    {trees : List (Trees.Tree d)} (hne : trees ≠ []) (hn : trees.length ≤ 2 ^ 20)
    (ht : ∀ t ∈ trees, SmallTree t ∧ ∀ rows, t ≠ .leaf rows) :
    ∃ p, RoundedTrees.predictByTreesOne fl o x trees = .ok p ∧
      predictByTreesOne fl o x (trees.map asFloats) = .ok (liftPair p) := by
  obtain ⟨ps, p1, p2, p3, p4⟩ := mapM_agrees asFloats liftPair SmallPair
    (RoundedTrees.predictByTree fl o x) (predictByTree fl o x) trees fun t htm => by
      rcases predictByTree_agrees h ho x t (ht t htm).1 with ⟨rows, he⟩ | hp
      · exact absurd he ((ht t htm).2 rows)
      · exact hp
  have hps : ps ≠ [] := by
    rintro rfl
    exact hne (List.length_eq_zero_iff.1 (by simpa using p4.symm))
  have hn' : ps.length ≤ 2 ^ 20 := p4 ▸ hn
  have hpos := List.length_pos_iff.2 hps
  have hmu : ps.map (·.1) ≠ [] := by simpa using hps
  have e1 : (ps.map liftPair).map (·.1) = (ps.map (·.1)).map Flt.fin := by
    simp [liftPair, Function.comp_def]
  have e2 : (ps.map liftPair).map (·.2) = (ps.map (·.2)).map Flt.fin := by
    simp [liftPair, Function.comp_def]
  obtain ⟨m1, m2⟩ := npMean_agrees h hmu (order := o.flat) (m := 500) (by simpa using (ho _ hpos).2)
    (by norm_num) (by norm_num) (by simpa using hn') (by
      intro y hy
      obtain ⟨p, hp, rfl⟩ := List.mem_map.1 hy
      exact (p3 p hp).1)
  have hz : fl (0 + 0) = 0 := by
    rw [add_zero]
    exact fl_of_mem h double_zero
  -- the squares
  have hsq : ∀ p ∈ ps, Overflow.add fl (square fl (.fin p.1)) (square fl (.fin (max p.2 0))) =
        .fin (fl (RoundedTrees.square fl p.1 + RoundedTrees.square fl (max p.2 0))) ∧
      |fl (RoundedTrees.square fl p.1 + RoundedTrees.square fl (max p.2 0))| ≤ (2 : ℝ) ^ (1003 : ℤ) := by
    intro p hp
    obtain ⟨q1, q2, q3⟩ := p3 p hp
    obtain ⟨a1, a2⟩ := square_agrees h (m := 500) (by norm_num) (by norm_num) q1
    obtain ⟨b1, b2⟩ := square_agrees h (m := 501) (x := max p.2 0) (by norm_num) (by norm_num) (by
      rw [max_eq_left q2, abs_of_nonneg q2]
      exact q3)
    rw [a1, b1]
    exact add_agrees h (m := 1002) (by norm_num) (by norm_num)
      (a2.trans (zpow_le_zpow_right₀ (by norm_num) (by norm_num))) (by norm_num at b2 ⊢; exact b2)
  have e3 : List.zipWith (fun m s => Overflow.add fl (square fl m) (square fl s))
      ((ps.map (·.1)).map Flt.fin) (((ps.map (·.2)).map Flt.fin).map
        (fun s => npMaximum s (Overflow.add fl (.fin 0) (.fin 0)))) =
      (List.zipWith (fun m s => fl (RoundedTrees.square fl m + RoundedTrees.square fl s)) (ps.map (·.1))
        ((ps.map (·.2)).map (fun s => max s (fl (0 + 0))))).map Flt.fin := by
    have hz' : Overflow.add fl (.fin 0) (.fin 0) = .fin 0 := by
      rw [add_fin, (round_zpow h 0 (by norm_num) (by norm_num) (by norm_num)).1, hz]
    simp only [hz', hz, List.map_map, Function.comp_def, npMaximum_fin, List.zipWith_map,
      List.zipWith_self]
    exact List.map_congr_left fun p hp => (hsq p hp).1
  have e4 : List.zipWith (fun m s => fl (RoundedTrees.square fl m + RoundedTrees.square fl s)) (ps.map (·.1))
        ((ps.map (·.2)).map (fun s => max s (fl (0 + 0)))) =
      ps.map fun p => fl (RoundedTrees.square fl p.1 + RoundedTrees.square fl (max p.2 0)) := by
    simp only [hz, List.map_map, Function.comp_def, List.zipWith_map, List.zipWith_self]
  have hsn : (ps.map fun p => fl (RoundedTrees.square fl p.1 + RoundedTrees.square fl (max p.2 0))) ≠ [] := by
    simpa using hps
  obtain ⟨s1, s2⟩ := npMean_agrees h hsn (order := o.flat) (m := 1003) (by simpa using (ho _ hpos).2)
    (by norm_num) (by norm_num) (by simpa using hn') (by
      intro y hy
      obtain ⟨p, hp, rfl⟩ := List.mem_map.1 hy
      exact (hsq p hp).2)
  obtain ⟨q1, q2⟩ := square_agrees h (m := 500) (by norm_num) (by norm_num) m2
  obtain ⟨d1, d2⟩ := sub_agrees h (m := 1003) (by norm_num) (by norm_num) s2
    (q2.trans (zpow_le_zpow_right₀ (by norm_num) (by norm_num)))
  have hmx : ∀ t : ℝ, |t| ≤ (2 : ℝ) ^ (1004 : ℤ) → |max t 0| ≤ (2 : ℝ) ^ (2 * 502 : ℤ) := by
    intro t ht
    rw [abs_of_nonneg (le_max_right _ _)]
    refine max_le ((le_abs_self t).trans (by norm_num at ht ⊢; exact ht)) (by positivity)
  obtain ⟨r1, -⟩ := sqrt_agrees h (le_max_right _ 0) (m := 502) (by norm_num) (by norm_num)
    (hmx _ (by norm_num at d2 ⊢; exact d2))
  refine ⟨(meanOf fl o.flat (ps.map (·.1)), fl √(max (fl (meanOf fl o.flat (ps.map fun p =>
    fl (RoundedTrees.square fl p.1 + RoundedTrees.square fl (max p.2 0))) -
      RoundedTrees.square fl (meanOf fl o.flat (ps.map (·.1))))) 0)), ?_, ?_⟩
  · simp only [RoundedTrees.predictByTreesOne, RoundedTrees.computeSigma, p1, e4, pyAssert,
      List.length_map, if_true, bind, Except.bind, pure, Except.pure, RoundedTrees.npMean_ok hmu,
      RoundedTrees.npMean_ok hsn]
  · simp only [predictByTreesOne, computeSigma, p2, e1, e2, e3, e4, pyAssert, List.length_map, if_true,
      bind, Except.bind, pure, Except.pure, m1, s1, q1, d1, pyMax_fin, r1]
    rfl

end Verif.OverflowTrees
