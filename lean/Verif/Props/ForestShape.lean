import Verif.Lemmas.ForestShape
import Verif.Props.TreeUnits
import Verif.Model.BoWTrees
import Verif.Lemmas.Bootstrap
import Mathlib.MeasureTheory.Integral.Lebesgue.Add

/-! C135 and C136: where forest predictions change, and what they are at the training inputs. -/

namespace Verif.Props

open Verif.Spec Verif.Trees Verif.Lemmas MeasureTheory

variable {d : ℕ}

/-! ### C135 -/

private theorem midpoints {nf : ℤ} (f : Fin d) (v : ℝ) (r : NodeRnd d) (hr : NodeRndOk r)
    (X : List (Point d)) (hX : X ≠ []) (h : (f, v) ∈ tried r X nf false) : IsMidpoint X f v :=
  (C50_midpoints hr hX h).2

/-- Two queries are predicted alike by every tree that separates them by no threshold between two
rows. -/
private theorem same_prediction {rnd : ForestRnd d} {replace : Bool} (hr : ForestRndOk rnd replace)
    {X : List (Point d)} {Y : List ℝ} (hl : X.length = Y.length) (hX : X ≠ []) {ratio : ℝ}
    (h0 : 0 < ratio) (h1 : replace = false → ratio ≤ 1) (hk : 1 ≤ X.length * ratio) {nf : ℤ}
    (hn1 : 1 ≤ nf) (hnd : nf ≤ d) {num : ℕ} (hnum : 1 ≤ num) (dm sm : ℤ) (rl : Bool) :
    ∃ trees, getGenericTrees rnd X Y num dm sm ratio replace nf rl = .ok trees ∧
      ∀ Xs Xs' : List (Point d), List.Forall₂ (fun x x' => ∀ f v, (∃ p ∈ X, p f < v) →
        (∃ q ∈ X, v ≤ q f) → (rl = false → ∃ p ∈ X, ∃ q ∈ X, p f < q f ∧ v = (p f + q f) / 2) →
        (x f < v ↔ x' f < v)) Xs Xs' →
      ∃ r, predictByTrees Xs trees = .ok r ∧ predictByTrees Xs' trees = .ok r := by
  obtain ⟨trees, ht, hlen, hs⟩ := C53_generic_trees hr hl hX h0 h1 hk hn1 hnd num dm sm rl
  obtain ⟨T, hT, hg⟩ := generic_grown hr hl hX h0 h1 hk hn1 hnd num dm sm rl
  have e := Except.ok.inj (ht.symm.trans hT)
  have hne : trees ≠ [] := by rintro rfl; simp at hlen; omega
  refine ⟨trees, ht, fun Xs Xs' h => ?_⟩
  have hone : ∀ x x', (∀ f v, (∃ p ∈ X, p f < v) → (∃ q ∈ X, v ≤ q f) →
      (rl = false → ∃ p ∈ X, ∃ q ∈ X, p f < q f ∧ v = (p f + q f) / 2) → (x f < v ↔ x' f < v)) →
      ∃ r, predictByTreesOne x trees = .ok r ∧ predictByTreesOne x' trees = .ok r := by
    intro x x' hxx
    choose L hL using fun t => exists_reaches x t
    refine ⟨_, predictByTreesOne_eq hne hs.root
      (fun t ht => ⟨(hL t).1, hs.leaves_ne t ht _ (hL t).2⟩) rfl, predictByTreesOne_eq hne hs.root
      (fun t ht => ⟨?_, hs.leaves_ne t ht _ (hL t).2⟩) rfl⟩
    rw [e] at ht
    obtain ⟨k, -, rfl⟩ := List.mem_map.1 ht
    obtain ⟨data, hgk, hrows⟩ := hg k
    have hsub : ∀ p ∈ data, p.1 ∈ X := fun p hp => by
      obtain ⟨i, -, h2, -⟩ := (hrows p).1 hp
      exact List.mem_of_getElem? h2
    refine grown_reaches_same hgk midpoints (fun f v b1 b2 b3 => hxx f v ?_ ?_ fun hrl => ?_)
      (hL (T k)).1
    · obtain ⟨p, hp, h⟩ := b1
      exact ⟨p.1, hsub p hp, h⟩
    · obtain ⟨p, hp, h⟩ := b2
      exact ⟨p.1, hsub p hp, h⟩
    · obtain ⟨p, hp, q, hq, h⟩ := b3 hrl
      exact ⟨p.1, hsub p hp, q.1, hsub q hq, h⟩
  have hall : ∃ rs, Xs.mapM (fun x => predictByTreesOne x trees) = .ok rs ∧
      Xs'.mapM (fun x => predictByTreesOne x trees) = .ok rs := by
    induction h with
    | nil => exact ⟨[], rfl, rfl⟩
    | cons h1 _ ih =>
      obtain ⟨r, a1, a2⟩ := hone _ _ h1
      obtain ⟨rs, b1, b2⟩ := ih
      refine ⟨r :: rs, ?_, ?_⟩
      · rw [List.mapM_cons, a1, b1]; rfl
      · rw [List.mapM_cons, a2, b2]; rfl
  obtain ⟨rs, c1, c2⟩ := hall
  exact ⟨(rs.map (·.1), rs.map (·.2)), by rw [C52_rowwise, c1]; rfl, by rw [C52_rowwise, c2]; rfl⟩

private theorem moved_side {X : List (Point d)} {x x' : Point d} (h : MovedInto X x x') (f : Fin d)
    (v : ℝ) (h1 : ∃ p ∈ X, p f < v) (h2 : ∃ q ∈ X, v ≤ q f) : x f < v ↔ x' f < v := by
  obtain ⟨lo, hi, hlo, hhi, e⟩ := h f
  obtain ⟨p, hp, hpv⟩ := h1
  obtain ⟨q, hq, hqv⟩ := h2
  have a : lo < v := (hlo.2 ⟨p, hp, rfl⟩).trans_lt hpv
  have b : v ≤ hi := hqv.trans (hhi.2 ⟨q, hq, rfl⟩)
  rw [e, max_lt_iff, min_lt_iff]
  constructor
  · exact fun h => ⟨a, .inr h⟩
  · rintro ⟨-, h | h⟩
    · exact absurd h (not_lt.2 b)
    · exact h

/-- C135: outside of the range of the training inputs the predictions of trees are those at its
border: every coordinate of a query may be moved to the nearest value between the least and the
greatest training value, with midpoints and with random thresholds. -/
theorem C135_outside {rnd : ForestRnd d} {replace : Bool} (hr : ForestRndOk rnd replace)
    {X : List (Point d)} {Y : List ℝ} (hl : X.length = Y.length) (hX : X ≠ []) {ratio : ℝ}
    (h0 : 0 < ratio) (h1 : replace = false → ratio ≤ 1) (hk : 1 ≤ X.length * ratio) {nf : ℤ}
    (hn1 : 1 ≤ nf) (hnd : nf ≤ d) {num : ℕ} (hnum : 1 ≤ num) (dm sm : ℤ) (rl : Bool) :
    ∃ trees, getGenericTrees rnd X Y num dm sm ratio replace nf rl = .ok trees ∧
      ∀ Xs Xs' : List (Point d), List.Forall₂ (MovedInto X) Xs Xs' →
        ∃ r, predictByTrees Xs trees = .ok r ∧ predictByTrees Xs' trees = .ok r := by
  obtain ⟨trees, ht, h⟩ := same_prediction hr hl hX h0 h1 hk hn1 hnd hnum dm sm rl
  exact ⟨trees, ht, fun Xs Xs' hx =>
    h Xs Xs' (hx.imp fun x x' hm f v b1 b2 _ => moved_side hm f v b1 b2)⟩

/-- C135: a coordinate in which all training inputs agree has no influence on predictions. -/
theorem C135_constant {rnd : ForestRnd d} {replace : Bool} (hr : ForestRndOk rnd replace)
    {X : List (Point d)} {Y : List ℝ} (hl : X.length = Y.length) (hX : X ≠ []) {ratio : ℝ}
    (h0 : 0 < ratio) (h1 : replace = false → ratio ≤ 1) (hk : 1 ≤ X.length * ratio) {nf : ℤ}
    (hn1 : 1 ≤ nf) (hnd : nf ≤ d) {num : ℕ} (hnum : 1 ≤ num) (dm sm : ℤ) (rl : Bool) :
    ∃ trees, getGenericTrees rnd X Y num dm sm ratio replace nf rl = .ok trees ∧
      ∀ Xs Xs' : List (Point d),
        List.Forall₂ (fun x x' => ∀ f, x f = x' f ∨ ∀ y ∈ X, ∀ z ∈ X, y f = z f) Xs Xs' →
        ∃ r, predictByTrees Xs trees = .ok r ∧ predictByTrees Xs' trees = .ok r := by
  obtain ⟨trees, ht, h⟩ := same_prediction hr hl hX h0 h1 hk hn1 hnd hnum dm sm rl
  refine ⟨trees, ht, fun Xs Xs' hx => h Xs Xs' (hx.imp fun x x' hm f v b1 b2 _ => ?_)⟩
  obtain ⟨p, hp, hpv⟩ := b1
  obtain ⟨q, hq, hqv⟩ := b2
  rcases hm f with e | e
  · rw [e]
  · linarith [e p hp q hq]

/-- C135: without random thresholds, predictions change only half way between two training values of
a coordinate. -/
theorem C135_cells {rnd : ForestRnd d} {replace : Bool} (hr : ForestRndOk rnd replace)
    {X : List (Point d)} {Y : List ℝ} (hl : X.length = Y.length) (hX : X ≠ []) {ratio : ℝ}
    (h0 : 0 < ratio) (h1 : replace = false → ratio ≤ 1) (hk : 1 ≤ X.length * ratio) {nf : ℤ}
    (hn1 : 1 ≤ nf) (hnd : nf ≤ d) {num : ℕ} (hnum : 1 ≤ num) (dm sm : ℤ) :
    ∃ trees, getGenericTrees rnd X Y num dm sm ratio replace nf false = .ok trees ∧
      ∀ Xs Xs' : List (Point d), List.Forall₂ (SameCell X) Xs Xs' →
        ∃ r, predictByTrees Xs trees = .ok r ∧ predictByTrees Xs' trees = .ok r := by
  obtain ⟨trees, ht, h⟩ := same_prediction hr hl hX h0 h1 hk hn1 hnd hnum dm sm false
  refine ⟨trees, ht, fun Xs Xs' hx => h Xs Xs' (hx.imp fun x x' hm f v _ _ b3 => ?_)⟩
  obtain ⟨p, hp, q, hq, hpq, rfl⟩ := b3 rfl
  exact hm f p hp q hq hpq

/-- C135: so the acquisition values that `BOwTrees` computes outside of the range of the training
inputs are those at its border, and they change only half way between training values. -/
theorem C135_acquisitions {bo : BaseBo.BaseBO d} (hbo : bo.str_surrogate = "rf")
    {rnd : ForestRnd d} (hr : ForestRndOk rnd true) {X : List (Point d)} {Y : List ℝ}
    (hl : X.length = Y.length) (hX : X ≠ []) (hd : 1 ≤ d) {num : ℕ} (hnum : 1 ≤ num) (dm sm : ℤ) :
    ∃ trees, BoWTrees.getTrees bo rnd X Y num dm sm = .ok trees ∧
      ∀ Xs Xs' : List (Point d),
        List.Forall₂ (MovedInto X) Xs Xs' ∨ List.Forall₂ (SameCell X) Xs Xs' →
        BoWTrees.computeAcquisitions bo Xs X Y trees = BoWTrees.computeAcquisitions bo Xs' X Y trees := by
  have hpos : (1 : ℝ) ≤ X.length * 1 := by
    rw [mul_one]
    exact_mod_cast List.length_pos_iff.2 hX
  have h1 : (1 : ℤ) ≤ ⌊Real.sqrt d⌋ := by
    rw [Int.le_floor]
    exact_mod_cast Real.one_le_sqrt.2 (by exact_mod_cast hd)
  have h2 : ⌊Real.sqrt d⌋ ≤ (d : ℤ) := by
    have : Real.sqrt d ≤ d := Real.sqrt_le_iff.2 ⟨by positivity, by
      have : (1 : ℝ) ≤ d := by exact_mod_cast hd
      nlinarith⟩
    exact_mod_cast Int.floor_le_floor this |>.trans (by simp)
  obtain ⟨trees, ht, h⟩ := C135_outside hr hl hX one_pos (by simp) hpos h1 h2 hnum dm sm false
  obtain ⟨trees', ht', h'⟩ := C135_cells hr hl hX one_pos (by simp) hpos h1 h2 hnum dm sm
  cases Except.ok.inj (ht.symm.trans ht')
  rw [← C94_random_forest] at ht
  refine ⟨trees, ?_, fun Xs Xs' hx => ?_⟩
  · simp only [BoWTrees.getTrees, pyAssert, hl, hbo, if_true, bind, Except.bind]
    exact ht
  · obtain ⟨r, a1, a2⟩ : ∃ r, predictByTrees Xs trees = .ok r ∧ predictByTrees Xs' trees = .ok r :=
      hx.elim (h Xs Xs') (h' Xs Xs')
    simp only [BoWTrees.computeAcquisitions, BoWTrees.computePosteriors, a1, a2]

/-! ### C136 -/

private theorem sum_missed (D : ℝ) (g : ℕ → ℝ) (P : ℕ → Prop) [DecidablePred P] (l : List ℕ)
    (h : ∀ k ∈ l, (P k → g k ≤ 0) ∧ g k ≤ D) :
    (l.map g).sum ≤ (l.filter fun k => ¬ P k).length * D := by
  induction l with
  | nil => simp
  | cons a t ih =>
    have h1 := h a (by simp)
    have h2 := ih fun k hk => h k (by simp [hk])
    rw [List.map_cons, List.sum_cons]
    by_cases hP : P a
    · rw [List.filter_cons_of_neg (by simpa using hP)]
      linarith [h1.1 hP]
    · rw [List.filter_cons_of_pos (by simpa using hP), List.length_cons]
      push_cast
      linarith [h1.2]

private theorem avg_missed {m : ℕ} (D : ℝ) (T : ℕ → Tree d) (g : Tree d → ℝ) (P : ℕ → Prop)
    [DecidablePred P] (h : ∀ k, (P k → g (T k) ≤ 0) ∧ g (T k) ≤ D) :
    avg (((List.range m).map T).map g) ≤ ((List.range m).filter fun k => ¬ P k).length / m * D := by
  rw [avg, List.map_map, List.length_map, List.length_range]
  have := sum_missed D (g ∘ T) P (List.range m) fun k _ => h k
  calc _ ≤ ((List.range m).filter fun k => ¬ P k).length * D / (m : ℝ) := by gcongr
    _ = _ := by ring

/-- C136: fully grown trees (split at midpoints, leaves of one row, enough depth for all rows) on
inputs without ties. At a training input the forest mean misses the response at most by the share of
the trees that have not drawn the row, times the range of the responses; the squared deviation is at
most that share times the square of the range. -/
theorem C136_training {rnd : ForestRnd d} {replace : Bool} (hr : ForestRndOk rnd replace)
    {X : List (Point d)} {Y : List ℝ} (hl : X.length = Y.length) (hX : X ≠ []) {ratio : ℝ}
    (h0 : 0 < ratio) (h1 : replace = false → ratio ≤ 1) (hk : 1 ≤ X.length * ratio) {nf : ℤ}
    (hn1 : 1 ≤ nf) (hnd : nf ≤ d) {num : ℕ} (hnum : 1 ≤ num) {dm sm : ℤ} (hties : NoTies X)
    (hsm : sm ≤ 1) (hdm : (X.length : ℤ) ≤ dm + 1) {lo hi : ℝ} (hY : ∀ y ∈ Y, lo ≤ y ∧ y ≤ hi) :
    ∃ trees, getGenericTrees rnd X Y num dm sm ratio replace nf false = .ok trees ∧
      ∀ (i : ℕ) (x : Point d) (y : ℝ), X[i]? = some x → Y[i]? = some y →
        ∃ mu sd, predictByTreesOne x trees = .ok (mu, sd) ∧ 0 ≤ sd ∧
          |mu - y| ≤ missedBy rnd num X.length ⌊X.length * ratio⌋₊ i / num * (hi - lo) ∧
          sd ^ 2 ≤ missedBy rnd num X.length ⌊X.length * ratio⌋₊ i / num * (hi - lo) ^ 2 := by
  classical
  obtain ⟨trees, ht, hlen, hs⟩ := C53_generic_trees hr hl hX h0 h1 hk hn1 hnd num dm sm false
  obtain ⟨T, hT, hg⟩ := generic_grown hr hl hX h0 h1 hk hn1 hnd num dm sm false
  have e := Except.ok.inj (ht.symm.trans hT)
  have hne : trees ≠ [] := by rintro rfl; simp at hlen; omega
  refine ⟨trees, ht, fun i x y hx hy => ?_⟩
  choose L hL using fun t => exists_reaches x t
  obtain ⟨mu, sd, hp, hmu, hsd, hs2, hs3⟩ := C51_mixture hne hs.root
    (fun t ht => ⟨(hL t).1, hs.leaves_ne t ht _ (hL t).2⟩)
  have hymem := hY y (List.mem_of_getElem? hy)
  have hrows : ∀ k, L (T k) ≠ [] ∧ (∀ p ∈ L (T k), lo ≤ p.2 ∧ p.2 ≤ hi) ∧
      (i ∈ rnd.sample k X.length ⌊X.length * ratio⌋₊ → ∀ p ∈ L (T k), p.2 = y) := by
    intro k
    obtain ⟨data, hgk, hrows⟩ := hg k
    have hmem : ∀ p ∈ L (T k), p ∈ data := fun p hp =>
      (grown_mem_heldRows hgk p).1 (List.mem_flatten.2 ⟨_, (hL (T k)).2, hp⟩)
    refine ⟨grown_leaves_ne_nil hgk _ (hL (T k)).2, fun p hp => ?_, fun hi' p hp => ?_⟩
    · obtain ⟨j, -, -, h3⟩ := (hrows p).1 (hmem p hp)
      exact hY _ (List.mem_of_getElem? h3)
    · have hxy : ((x, y) : Row d) ∈ data := (hrows (x, y)).2 ⟨i, hi', hx, hy⟩
      have hzip : ∀ p ∈ data, p ∈ X.zip Y := fun p hp => by
        obtain ⟨j, -, h2, h3⟩ := (hrows p).1 hp
        exact List.mem_iff_getElem?.2 ⟨j, by rw [List.getElem?_zip_eq_some]; exact ⟨h2, h3⟩⟩
      have := grown_pure hsm hgk midpoints (S := (X.zip Y).toFinset) (fun f p hp q hq hpq => by
          obtain ⟨j, -, h2, h3⟩ := (hrows p).1 hp
          obtain ⟨j', -, h2', h3'⟩ := (hrows q).1 hq
          have hj : j < (X.map fun x => x f).length := by
            rw [List.length_map]
            exact (List.getElem?_eq_some_iff.1 h2).1
          have hjj : j = j' := (List.getElem?_inj hj (hties f)).1 (by
            rw [List.getElem?_map, List.getElem?_map, h2, h2', Option.map_some, Option.map_some, hpq])
          subst hjj
          rw [h2] at h2'
          rw [h3] at h3'
          exact Prod.ext (Option.some.inj h2') (Option.some.inj h3'))
        (fun p hp => List.mem_toFinset.2 (hzip p hp)) (by
          have h2 := List.toFinset_card_le (X.zip Y)
          rw [List.length_zip, ← hl, min_self] at h2
          omega) hxy (L := L (T k)) (hL (T k)).1 p hp
      rw [this]
  have hmean : ∀ k, lo ≤ avg ((L (T k)).map (·.2)) ∧ avg ((L (T k)).map (·.2)) ≤ hi := fun k =>
    avg_bounds (by simpa using (hrows k).1) fun z hz => by
      obtain ⟨p, hp, rfl⟩ := List.mem_map.1 hz
      exact (hrows k).2.1 p hp
  have hpure : ∀ k, i ∈ rnd.sample k X.length ⌊X.length * ratio⌋₊ →
      avg ((L (T k)).map (·.2)) = y := fun k hk => by
    have := avg_bounds (a := y) (b := y) (l := (L (T k)).map (·.2)) (by simpa using (hrows k).1)
      fun z hz => by
        obtain ⟨p, hp, rfl⟩ := List.mem_map.1 hz
        rw [(hrows k).2.2 hk p hp]
        exact ⟨le_rfl, le_rfl⟩
    exact le_antisymm this.2 this.1
  have havg : ∀ g : Tree d → ℝ, avg (trees.map fun t => g t - y) = avg (trees.map g) - y := by
    intro g
    have hpos : (trees.length : ℝ) ≠ 0 := by
      exact_mod_cast (List.length_pos_iff.2 hne).ne'
    have := avg_map_add trees g fun _ => -y
    simp only [← sub_eq_add_neg] at this
    rw [this]
    have h2 : avg (trees.map fun _ => -y) = -y := by
      unfold avg
      rw [List.map_const', List.sum_replicate, List.length_replicate, nsmul_eq_mul]
      field_simp
    rw [h2, ← sub_eq_add_neg]
  have hup := avg_missed (m := num) (hi - lo) T (fun t => avg ((L t).map (·.2)) - y)
    (fun k => i ∈ rnd.sample k X.length ⌊X.length * ratio⌋₊)
    (fun k => ⟨fun hk => by rw [hpure k hk, sub_self], by linarith [(hmean k).2, hymem.1]⟩)
  have hdown := avg_missed (m := num) (hi - lo) T (fun t => -(avg ((L t).map (·.2)) - y))
    (fun k => i ∈ rnd.sample k X.length ⌊X.length * ratio⌋₊)
    (fun k => ⟨fun hk => by rw [hpure k hk, sub_self, neg_zero],
      by linarith [(hmean k).1, hymem.2]⟩)
  have hsq := avg_missed (m := num) ((hi - lo) ^ 2) T (fun t => msd y ((L t).map (·.2)))
    (fun k => i ∈ rnd.sample k X.length ⌊X.length * ratio⌋₊) (fun k => by
      have hb : ∀ D, (∀ p ∈ L (T k), (p.2 - y) ^ 2 ≤ D) → msd y ((L (T k)).map (·.2)) ≤ D := by
        intro D hD
        refine (avg_bounds (a := 0) (l := ((L (T k)).map (·.2)).map (fun z => (z - y) ^ 2))
          (by simpa using (hrows k).1) fun z hz => ?_).2
        rw [List.map_map] at hz
        obtain ⟨p, hp, rfl⟩ := List.mem_map.1 hz
        exact ⟨by simp only [Function.comp_apply]; positivity, hD p hp⟩
      refine ⟨fun hk => hb 0 fun p hp => ?_, hb _ fun p hp => ?_⟩
      · rw [(hrows k).2.2 hk p hp, sub_self]
        norm_num
      · obtain ⟨h2, h3⟩ := (hrows k).2.1 p hp
        nlinarith [hymem.1, hymem.2])
  have hneg : avg (trees.map fun t => -(avg ((L t).map (·.2)) - y)) = -(mu - y) := by
    have h2 : (trees.map fun t => -(avg ((L t).map (·.2)) - y)).sum =
        -(trees.map fun t => avg ((L t).map (·.2)) - y).sum := by
      generalize trees = l
      induction l with
      | nil => simp
      | cons a t ih =>
        rw [List.map_cons, List.sum_cons, ih, List.map_cons, List.sum_cons]
        ring
    rw [avg, h2, List.length_map, neg_div, hmu, ← havg, avg, List.length_map]
  rw [← e, havg, ← hmu] at hup
  rw [← e, hneg] at hdown
  rw [← e] at hsq
  refine ⟨mu, sd, hp, hsd, ?_, ?_⟩
  · unfold missedBy
    rw [abs_le]
    constructor <;> linarith
  · unfold missedBy
    refine le_trans ?_ hsq
    have h2 : avg (trees.map fun t => msd y ((L t).map (·.2))) =
        avg (trees.map (fun t => msd (avg ((L t).map (·.2))) ((L t).map (·.2)))) +
          msd y (trees.map (fun t => avg ((L t).map (·.2)))) := by
      rw [msd, List.map_map, ← avg_map_add]
      congr 1
      refine List.map_congr_left fun t ht => ?_
      exact msd_eq (by simpa using hs.leaves_ne t ht _ (hL t).2) _
    rw [hs3, h2, msd_eq (l := trees.map (fun t => avg ((L t).map (·.2)))) (by simpa using hne) y,
      ← hmu]
    nlinarith [sq_nonneg (mu - y)]

/-- C136: trees on all rows, drawn without replacement, reproduce the training data: the predicted
means are the responses and the deviations are zero. -/
theorem C136_interpolates {rnd : ForestRnd d} (hr : ForestRndOk rnd false) {X : List (Point d)}
    {Y : List ℝ} (hl : X.length = Y.length) (hX : X ≠ []) {nf : ℤ} (hn1 : 1 ≤ nf) (hnd : nf ≤ d)
    {num : ℕ} (hnum : 1 ≤ num) {dm sm : ℤ} (hties : NoTies X) (hsm : sm ≤ 1)
    (hdm : (X.length : ℤ) ≤ dm + 1) :
    ∃ trees, getGenericTrees rnd X Y num dm sm 1 false nf false = .ok trees ∧
      predictByTrees X trees = .ok (Y, Y.map fun _ => 0) := by
  have hpos : 0 < X.length := List.length_pos_iff.2 hX
  obtain ⟨lo, hlo⟩ : ∃ lo, ∀ y ∈ Y, lo ≤ y := by
    obtain ⟨b, hb⟩ := (Y.toFinset.finite_toSet).bddBelow
    exact ⟨b, fun y hy => hb (by simpa using hy)⟩
  obtain ⟨hi, hhi⟩ : ∃ hi, ∀ y ∈ Y, y ≤ hi := by
    obtain ⟨b, hb⟩ := (Y.toFinset.finite_toSet).bddAbove
    exact ⟨b, fun y hy => hb (by simpa using hy)⟩
  obtain ⟨trees, ht, h⟩ := C136_training hr hl hX one_pos (by simp) (by
    rw [mul_one]; exact_mod_cast hpos) hn1 hnd hnum hties hsm hdm fun y hy => ⟨hlo y hy, hhi y hy⟩
  refine ⟨trees, ht, ?_⟩
  have hone : ∀ (i : ℕ) (x : Point d) (y : ℝ), X[i]? = some x → Y[i]? = some y →
      predictByTreesOne x trees = .ok (y, 0) := by
    intro i x y hx hy
    obtain ⟨mu, sd, hp, hsd, h2, h3⟩ := h i x y hx hy
    have hz : missedBy rnd num X.length ⌊(X.length : ℝ) * 1⌋₊ i = 0 := by
      rw [mul_one, Nat.floor_natCast, missedBy, List.length_eq_zero_iff, List.filter_eq_nil_iff]
      intro k _ hk
      have hs := hr.sample k
      have hlen := hs.length X.length X.length hpos (by simp)
      have hnd := hs.nodup rfl X.length X.length hpos le_rfl
      have hlt := hs.lt X.length X.length hpos (by simp)
      have hperm := (List.subperm_of_subset hnd (l₂ := List.range X.length) fun j hj =>
        List.mem_range.2 (hlt j hj)).perm_of_length_le (by rw [List.length_range, hlen])
      have hi' : i ∈ rnd.sample k X.length X.length :=
        hperm.mem_iff.2 (List.mem_range.2 (List.getElem?_eq_some_iff.1 hx).1)
      simp [hi'] at hk
    rw [hz, Nat.cast_zero, zero_div, zero_mul] at h2 h3
    have h2 := abs_nonpos_iff.1 h2
    have h3 : sd = 0 := by nlinarith
    rw [hp, h3, sub_eq_zero.1 h2]
  have hall : X.mapM (fun x => predictByTreesOne x trees) = .ok (Y.map fun y => (y, 0)) := by
    have hgen : ∀ (X' : List (Point d)) (Y' : List ℝ), X'.length = Y'.length →
        (∀ (i : ℕ) (x : Point d) (y : ℝ), X'[i]? = some x → Y'[i]? = some y →
          predictByTreesOne x trees = .ok (y, 0)) →
        X'.mapM (fun x => predictByTreesOne x trees) = .ok (Y'.map fun y => (y, 0)) := by
      intro X'
      induction X' with
      | nil =>
        intro Y' hl _
        rw [List.length_nil] at hl
        rw [List.length_eq_zero_iff.1 hl.symm]
        rfl
      | cons x t ih =>
        intro Y' hl hp
        cases Y' with
        | nil => simp at hl
        | cons y u =>
          rw [List.mapM_cons, hp 0 x y rfl rfl, ih u (by simpa using hl) fun i x' y' hx hy =>
            hp (i + 1) x' y' (by simpa using hx) (by simpa using hy)]
          rfl
    exact hgen X Y hl hone
  rw [C52_rowwise, hall]
  simp [bind, Except.bind, pure, Except.pure, Function.comp_def]

private theorem lintegral_missed {Ω : Type} [MeasurableSpace Ω] {μ : Measure Ω}
    {rnd : Ω → ForestRnd d} {m n k : ℕ}
    (hc : ∀ t < m, WithReplacement μ n k fun ω => (rnd ω).sample t n k) {i : ℕ} (hi : i < n) :
    ∫⁻ ω, (missedBy (rnd ω) m n k i : ENNReal) ∂μ =
      m * ENNReal.ofReal ((((n : ℝ) - 1) / n) ^ k) := by
  classical
  have hset : ∀ t < m, MeasurableSet {ω | i ∉ (rnd ω).sample t n k} ∧
      μ {ω | i ∉ (rnd ω).sample t n k} = ENNReal.ofReal ((((n : ℝ) - 1) / n) ^ k) := by
    intro t ht
    obtain ⟨J, hJ, hJc, hp⟩ := hc t ht
    have hn0 : 0 < n := by omega
    have e : {ω | i ∉ (rnd ω).sample t n k} =
        {ω | J ω ∈ Finset.univ.filter fun v : Fin k → Fin n => ∀ s, v s ≠ ⟨i, hi⟩} := by
      ext ω
      simp [hJc ω, List.mem_ofFn, Fin.ext_iff]
    rw [e]
    refine ⟨hJ (Finset.measurableSet _), ?_⟩
    rw [measure_choices hJ _ (fun v _ => hp v), count_avoid,
      show ((n : ENNReal) ^ k)⁻¹ = ((n ^ k : ℕ) : ENNReal)⁻¹ by push_cast; rfl,
      ratio_ofReal (pow_pos hn0 k)]
    congr 1
    rw [div_pow, Nat.cast_pow, Nat.cast_pow, Nat.cast_sub hn0, Nat.cast_one]
  clear hc
  induction m with
  | zero => simp [missedBy]
  | succ m ih =>
    have hstep : ∀ ω, (missedBy (rnd ω) (m + 1) n k i : ENNReal) =
        missedBy (rnd ω) m n k i + Set.indicator {ω | i ∉ (rnd ω).sample m n k} 1 ω := by
      intro ω
      unfold missedBy
      rw [List.range_succ, List.filter_append, List.length_append, Nat.cast_add]
      congr 1
      by_cases h : i ∈ (rnd ω).sample m n k <;> simp [h, Set.indicator]
    have hm := hset m (by omega)
    simp only [hstep]
    rw [lintegral_add_right _ (measurable_one.indicator hm.1), lintegral_indicator_one hm.1, hm.2,
      ih fun t ht => hset t (by omega)]
    push_cast
    ring

/-- C136: so if every tree of a random forest draws its rows uniformly with replacement, its mean at a
training input misses the response in expectation by at most `((n - 1) / n) ^ n`, less than `1 / e`,
times the range of the responses, however many trees there are. -/
theorem C136_expected {Ω : Type} [MeasurableSpace Ω] {μ : Measure Ω} {rnd : Ω → ForestRnd d}
    (hr : ∀ ω, ForestRndOk (rnd ω) true) {X : List (Point d)} {Y : List ℝ}
    (hl : X.length = Y.length) (hX : X ≠ []) {nf : ℤ} (hn1 : 1 ≤ nf) (hnd : nf ≤ d) {num : ℕ}
    (hnum : 1 ≤ num)
    (hc : ∀ t < num, WithReplacement μ X.length X.length
      fun ω => (rnd ω).sample t X.length X.length)
    {dm sm : ℤ} (hties : NoTies X) (hsm : sm ≤ 1) (hdm : (X.length : ℤ) ≤ dm + 1) {lo hi : ℝ}
    (hY : ∀ y ∈ Y, lo ≤ y ∧ y ≤ hi) :
    ∃ trees : Ω → List (Tree d), (∀ ω, getRandomForest (rnd ω) X Y num dm sm nf = .ok (trees ω)) ∧
      ∀ (i : ℕ) (x : Point d) (y : ℝ), X[i]? = some x → Y[i]? = some y →
        ∃ mu sd : Ω → ℝ, (∀ ω, predictByTreesOne x (trees ω) = .ok (mu ω, sd ω)) ∧
          ∫⁻ ω, ENNReal.ofReal |mu ω - y| ∂μ ≤
            ENNReal.ofReal ((((X.length : ℝ) - 1) / X.length) ^ X.length * (hi - lo)) ∧
          ∫⁻ ω, ENNReal.ofReal (sd ω ^ 2) ∂μ ≤
            ENNReal.ofReal ((((X.length : ℝ) - 1) / X.length) ^ X.length * (hi - lo) ^ 2) ∧
          (((X.length : ℝ) - 1) / X.length) ^ X.length < Real.exp (-1) := by
  have hpos : 0 < X.length := List.length_pos_iff.2 hX
  have hp1 : (1 : ℝ) ≤ X.length := by exact_mod_cast hpos
  have hk : ⌊(X.length : ℝ) * 1⌋₊ = X.length := by simp
  choose trees ht h using fun ω => C136_training (hr ω) hl hX one_pos (by simp)
    (by rw [mul_one]; exact hp1) hn1 hnd hnum hties hsm hdm hY
  refine ⟨trees, fun ω => by rw [C94_random_forest]; exact ht ω, fun i x y hx hy => ?_⟩
  have hi' : i < X.length := (List.getElem?_eq_some_iff.1 hx).1
  have hlohi : 0 ≤ hi - lo := by
    have := hY y (List.mem_of_getElem? hy)
    linarith
  choose mu sd hp hsd h2 h3 using fun ω => h ω i x y hx hy
  have hint : ∀ D : ℝ, 0 ≤ D → ∀ g : Ω → ℝ,
      (∀ ω, g ω ≤ missedBy (rnd ω) num X.length X.length i / num * D) →
      ∫⁻ ω, ENNReal.ofReal (g ω) ∂μ ≤
        ENNReal.ofReal ((((X.length : ℝ) - 1) / X.length) ^ X.length * D) := by
    intro D hD g hg
    have hn0 : (num : ENNReal) ≠ 0 := by exact_mod_cast (by omega : num ≠ 0)
    have hnR : (0 : ℝ) < num := by exact_mod_cast hnum
    calc ∫⁻ ω, ENNReal.ofReal (g ω) ∂μ
        ≤ ∫⁻ ω, (missedBy (rnd ω) num X.length X.length i : ENNReal) *
            ENNReal.ofReal (D / num) ∂μ := by
          refine lintegral_mono fun ω => ?_
          rw [← ENNReal.ofReal_natCast, ← ENNReal.ofReal_mul (Nat.cast_nonneg _)]
          refine ENNReal.ofReal_le_ofReal ((hg ω).trans (le_of_eq ?_))
          ring
      _ = (∫⁻ ω, (missedBy (rnd ω) num X.length X.length i : ENNReal) ∂μ) *
            ENNReal.ofReal (D / num) := lintegral_mul_const' _ _ ENNReal.ofReal_ne_top
      _ = _ := by
          rw [lintegral_missed hc hi', ← ENNReal.ofReal_natCast,
            ← ENNReal.ofReal_mul (Nat.cast_nonneg _),
            ← ENNReal.ofReal_mul (mul_nonneg (Nat.cast_nonneg _)
              (pow_nonneg (div_nonneg (by linarith) (by linarith)) _))]
          congr 1
          field_simp
  rw [hk] at h2 h3
  refine ⟨mu, sd, hp, hint _ hlohi _ h2, hint _ (by positivity) _ h3, ?_⟩
  have h4 : ((X.length : ℝ) - 1) / X.length < Real.exp (-1 / X.length) := by
    have hne : (-1 / (X.length : ℝ)) ≠ 0 := by
      apply div_ne_zero <;> linarith
    have := Real.add_one_lt_exp hne
    have h5 : ((X.length : ℝ) - 1) / X.length = -1 / X.length + 1 := by
      field_simp
      ring
    rwa [h5]
  calc (((X.length : ℝ) - 1) / X.length) ^ X.length < Real.exp (-1 / X.length) ^ X.length :=
        pow_lt_pow_left₀ h4 (div_nonneg (by linarith) (by linarith)) hpos.ne'
    _ = Real.exp (-1) := by
        rw [← Real.exp_nat_mul]
        congr 1
        field_simp

/-! ### Cases -/

/-- Rows in their order. -/
private def orderRnd (d : ℕ) : ForestRnd d := ⟨fun _ _ k => List.range k, fun _ _ => firstRnd d⟩

private theorem orderRnd_ok (d : ℕ) : ForestRndOk (orderRnd d) false :=
  ⟨fun _ => ⟨by simp [orderRnd], fun n k _ hk i hi => by
      have := List.mem_range.1 hi
      have := hk rfl
      omega, fun _ n k _ _ => List.nodup_range⟩, fun _ _ => firstRnd_ok d⟩

/-- Three rows: 100 is predicted as 5, and -7 as 0. -/
example : ∃ trees, getGenericTrees (orderRnd 1) [fun _ => 0, fun _ => 1, fun _ => 5] [3, 4, 9] 10 5 1 1
    false 1 true = .ok trees ∧ ∃ r, predictByTrees [fun _ => 100, fun _ => -7] trees = .ok r ∧
      predictByTrees [fun _ => 5, fun _ => 0] trees = .ok r := by
  obtain ⟨trees, ht, h⟩ := C135_outside (orderRnd_ok 1) (X := [fun _ => 0, fun _ => 1, fun _ => 5])
    (Y := [3, 4, 9]) (by simp) (by simp) one_pos (by simp) (by norm_num) le_rfl (by norm_num)
    (num := 10) (by norm_num) 5 1 true
  have hlo : ∀ f : Fin 1, IsLeast
      {v | ∃ z ∈ [fun _ => 0, fun _ => 1, fun _ => (5 : ℝ)], (z : Point 1) f = v} 0 := fun f => by
    constructor
    · exact ⟨fun _ => 0, by simp, rfl⟩
    · rintro v ⟨z, hz, rfl⟩
      fin_cases hz <;> norm_num
  have hhi : ∀ f : Fin 1, IsGreatest
      {v | ∃ z ∈ [fun _ => 0, fun _ => 1, fun _ => (5 : ℝ)], (z : Point 1) f = v} 5 := fun f => by
    constructor
    · exact ⟨fun _ => 5, by simp, rfl⟩
    · rintro v ⟨z, hz, rfl⟩
      fin_cases hz <;> norm_num
  exact ⟨trees, ht, h _ _ (.cons (fun f => ⟨0, 5, hlo f, hhi f, by norm_num⟩)
    (.cons (fun f => ⟨0, 5, hlo f, hhi f, by norm_num⟩) .nil))⟩

/-- 3.1 and 4.9 lie on the same side of the midpoints 0.5, 2.5 and 3, and so does 3 itself. -/
example : ∃ trees, getGenericTrees (orderRnd 1) [fun _ => 0, fun _ => 1, fun _ => 5] [3, 4, 9] 10 5 1 1
    false 1 false = .ok trees ∧ ∃ r, predictByTrees [fun _ => 31 / 10] trees = .ok r ∧
      predictByTrees [fun _ => 49 / 10] trees = .ok r := by
  obtain ⟨trees, ht, h⟩ := C135_cells (orderRnd_ok 1) (X := [fun _ => 0, fun _ => 1, fun _ => 5])
    (Y := [3, 4, 9]) (by simp) (by simp) one_pos (by simp) (by norm_num) le_rfl (by norm_num)
    (num := 10) (by norm_num) 5 1
  refine ⟨trees, ht, h _ _ (.cons (fun f y hy z hz hyz => ?_) .nil)⟩
  fin_cases hy <;> fin_cases hz <;> norm_num

/-- Three rows, all drawn: their responses are predicted, with deviation 0. -/
example : ∃ trees, getGenericTrees (orderRnd 1) [fun _ => 0, fun _ => 1, fun _ => 5] [3, 4, 9] 10 2 1 1
    false 1 false = .ok trees ∧
    predictByTrees [fun _ => 0, fun _ => 1, fun _ => 5] trees = .ok ([3, 4, 9], [0, 0, 0]) :=
  C136_interpolates (orderRnd_ok 1) (X := [fun _ => 0, fun _ => 1, fun _ => 5]) (Y := [3, 4, 9])
    (by simp) (by simp) le_rfl (by norm_num) (num := 10) (by norm_num) (by intro f; simp) le_rfl
    (by norm_num)

/-- Rows drawn with replacement: what `v` says if three of three rows are drawn. -/
private def drawnRnd (v : Fin 3 → Fin 3) : ForestRnd 1 :=
  ⟨fun t n k => if t = 0 ∧ n = 3 ∧ k = 3 then List.ofFn fun s => (v s : ℕ)
    else (List.range k).map (· % n), fun _ _ => firstRnd 1⟩

private theorem drawnRnd_ok (v : Fin 3 → Fin 3) : ForestRndOk (drawnRnd v) true := by
  refine ⟨fun t => ⟨fun n k _ _ => ?_, fun n k hn _ i hi => ?_, by simp⟩, fun _ _ => firstRnd_ok 1⟩
  · simp only [drawnRnd]
    split_ifs with h
    · simp [h]
    · simp
  · simp only [drawnRnd] at hi
    split_ifs at hi with h
    · obtain ⟨s, rfl⟩ := List.mem_ofFn.1 hi
      rw [h.2.1]
      exact (v s).2
    · obtain ⟨j, _, rfl⟩ := List.mem_map.1 hi
      exact Nat.mod_lt _ hn

/-- Two trees, the first of which has drawn the rows 1, 1 and 2: at the input 0 the forest misses the
response 3 by at most half of the range 6. -/
example : ∃ trees, getGenericTrees (drawnRnd ![1, 1, 2]) [fun _ => 0, fun _ => 1, fun _ => 5] [3, 4, 9]
    2 2 1 1 true 1 false = .ok trees ∧
    ∃ mu sd, predictByTreesOne (fun _ => 0) trees = .ok (mu, sd) ∧ |mu - 3| ≤ 3 := by
  obtain ⟨trees, ht, h⟩ := C136_training (drawnRnd_ok ![1, 1, 2])
    (X := [fun _ => 0, fun _ => 1, fun _ => 5]) (Y := [3, 4, 9]) (by simp) (by simp) one_pos (by simp)
    (by norm_num) le_rfl (by norm_num) (num := 2) (by norm_num) (dm := 2) (by intro f; simp) le_rfl
    (by norm_num) (lo := 3) (hi := 9) (by
      intro y hy
      fin_cases hy <;> norm_num)
  obtain ⟨mu, sd, h1, -, h2, -⟩ := h 0 _ _ rfl rfl
  refine ⟨trees, ht, mu, sd, h1, h2.trans (le_of_eq ?_)⟩
  have : missedBy (drawnRnd ![1, 1, 2]) 2 3 3 0 = 1 := by
    simp [missedBy, drawnRnd, List.range_succ]
  norm_num [this]

/-- One tree on three of three rows, all 27 choices equally likely: at the input 0 the mean misses the
response 3 in expectation by at most 8/27 of the range 6. -/
example : ∃ (μ : Measure (Fin 3 → Fin 3)) (trees : (Fin 3 → Fin 3) → List (Tree 1)),
    (∀ v, getRandomForest (drawnRnd v) [fun _ => 0, fun _ => 1, fun _ => 5] [3, 4, 9] 1 2 1 1 =
      .ok (trees v)) ∧
    ∃ mu sd : (Fin 3 → Fin 3) → ℝ, (∀ v, predictByTreesOne (fun _ => 0) (trees v) = .ok (mu v, sd v)) ∧
      ∫⁻ v, ENNReal.ofReal |mu v - 3| ∂μ ≤ ENNReal.ofReal (16 / 9) := by
  obtain ⟨trees, ht, h⟩ := C136_expected (μ := ((3 : ENNReal) ^ 3)⁻¹ • Measure.count) drawnRnd_ok
    (X := [fun _ => 0, fun _ => 1, fun _ => 5]) (Y := [3, 4, 9]) (by simp) (by simp) le_rfl
    (by norm_num) (num := 1) le_rfl (fun t ht => ⟨id, measurable_id, fun v => by
      simp [drawnRnd, Nat.lt_one_iff.1 ht], fun v => by simp⟩) (dm := 2) (by intro f; simp) le_rfl
    (by norm_num) (lo := 3) (hi := 9) (by
      intro y hy
      fin_cases hy <;> norm_num)
  obtain ⟨mu, sd, h1, h2, -⟩ := h 0 _ _ rfl rfl
  refine ⟨_, trees, ht, mu, sd, h1, h2.trans (ENNReal.ofReal_le_ofReal ?_)⟩
  norm_num

end Verif.Props
