import Verif.Props.ForestShape
import Verif.Lemmas.ForestNearest
import Verif.Lemmas.RoundedMeans

/-! C144: which training rows the prediction at a query reads. -/

namespace Verif.Props

open Verif.Spec Verif.Trees Verif.Lemmas

variable {d : ℕ}

private theorem midpoint_of {nf : ℤ} (f : Fin d) (v : ℝ) (r : NodeRnd d) (hr : NodeRndOk r)
    (X : List (Point d)) (hX : X ≠ []) (h : (f, v) ∈ tried r X nf false) : IsMidpoint X f v :=
  (C50_midpoints hr hX h).2

/-- C144: every tree predicts with one leaf. If a row is in that leaf, so are all drawn rows in the box
that the query spans with its input, in every dimension, at every depth and with random thresholds as
well. -/
theorem C144_box {rnd : ForestRnd d} {replace : Bool} (hr : ForestRndOk rnd replace)
    {X : List (Point d)} {Y : List ℝ} (hl : X.length = Y.length) (hX : X ≠ []) {ratio : ℝ}
    (h0 : 0 < ratio) (h1 : replace = false → ratio ≤ 1) (hk : 1 ≤ X.length * ratio) {nf : ℤ}
    (hn1 : 1 ≤ nf) (hnd : nf ≤ d) {num : ℕ} (hnum : 1 ≤ num) (dm sm : ℤ) (rl : Bool) :
    ∃ trees, getGenericTrees rnd X Y num dm sm ratio replace nf rl = .ok trees ∧
      ∀ x : Point d, ∃ L : ℕ → List (Row d),
        (∀ k < num, L k ≠ [] ∧
          (∀ p ∈ L k, Drawn X Y (rnd.sample k X.length ⌊X.length * ratio⌋₊) p.1 p.2) ∧
          ∀ p ∈ L k, ∀ z y, Drawn X Y (rnd.sample k X.length ⌊X.length * ratio⌋₊) z y →
            Spanned x p.1 z → (z, y) ∈ L k) ∧
        ∃ mu sd, predictByTreesOne x trees = .ok (mu, sd) ∧
          mu = avg ((List.range num).map fun k => avg ((L k).map (·.2))) ∧
          sd = Real.sqrt (avg ((List.range num).map fun k => msd mu ((L k).map (·.2)))) := by
  obtain ⟨trees, ht, hlen, hs⟩ := C53_generic_trees hr hl hX h0 h1 hk hn1 hnd num dm sm rl
  obtain ⟨T, hT, hg⟩ := generic_grown hr hl hX h0 h1 hk hn1 hnd num dm sm rl
  have e := Except.ok.inj (ht.symm.trans hT)
  have hne : trees ≠ [] := by rintro rfl; simp at hlen; omega
  refine ⟨trees, ht, fun x => ?_⟩
  choose L hL using fun t => exists_reaches x t
  refine ⟨fun k => L (T k), fun k _ => ?_, _, _, predictByTreesOne_eq hne hs.root
    (fun t ht => ⟨(hL t).1, hs.leaves_ne t ht _ (hL t).2⟩) rfl, ?_, ?_⟩
  · obtain ⟨data, hgk, hrows⟩ := hg k
    refine ⟨grown_leaves_ne_nil hgk _ (hL (T k)).2, fun p hp => (hrows p).1 ?_, fun p hp z y hz hb => ?_⟩
    · exact (grown_mem_heldRows hgk p).1 (List.mem_flatten.2 ⟨_, (hL (T k)).2, hp⟩)
    · exact grown_box hgk (hL (T k)).1 hp ((hrows (z, y)).2 hz) hb
  · rw [e, List.map_map]
    rfl
  · rw [e]
    simp only [List.map_map, Function.comp_def]

/-- The leaves of fully grown trees hold copies of one row. -/
private theorem pure_leaves {rnd : ForestRnd d} {replace : Bool} (hr : ForestRndOk rnd replace)
    {X : List (Point d)} {Y : List ℝ} (hl : X.length = Y.length) (hX : X ≠ []) {ratio : ℝ}
    (h0 : 0 < ratio) (h1 : replace = false → ratio ≤ 1) (hk : 1 ≤ X.length * ratio) {nf : ℤ}
    (hn1 : 1 ≤ nf) (hnd : nf ≤ d) {num : ℕ} (hnum : 1 ≤ num) {dm sm : ℤ} (hties : NoTies X)
    (hsm : sm ≤ 1) (hdm : (X.length : ℤ) ≤ dm + 1) :
    ∃ trees, getGenericTrees rnd X Y num dm sm ratio replace nf false = .ok trees ∧
      ∀ x : Point d, ∃ (p : ℕ → Point d) (y : ℕ → ℝ),
        (∀ k, ∃ (data L : List (Row d)) (t : Tree d), Grown nf dm sm false true data 1 t ∧ Reaches x t L ∧
          (∀ q, q ∈ data ↔ Drawn X Y (rnd.sample k X.length ⌊X.length * ratio⌋₊) q.1 q.2) ∧
          (p k, y k) ∈ L ∧ (p k, y k) ∈ data ∧ ∀ q ∈ L, q = (p k, y k)) ∧
        predictByTreesOne x trees = .ok (avg ((List.range num).map y),
          Real.sqrt (msd (avg ((List.range num).map y)) ((List.range num).map y))) := by
  classical
  obtain ⟨trees, ht, hlen, hs⟩ := C53_generic_trees hr hl hX h0 h1 hk hn1 hnd num dm sm false
  obtain ⟨T, hT, hg⟩ := generic_grown hr hl hX h0 h1 hk hn1 hnd num dm sm false
  have e := Except.ok.inj (ht.symm.trans hT)
  have hne : trees ≠ [] := by rintro rfl; simp at hlen; omega
  refine ⟨trees, ht, fun x => ?_⟩
  choose L hL using fun t => exists_reaches x t
  have hpure : ∀ k, ∃ p : Row d, p ∈ L (T k) ∧ ∀ q ∈ L (T k), q = p := by
    intro k
    obtain ⟨data, hgk, hrows⟩ := hg k
    obtain ⟨p, hp⟩ := List.exists_mem_of_ne_nil _ (grown_leaves_ne_nil hgk _ (hL (T k)).2)
    refine ⟨p, hp, ?_⟩
    have hpd : p ∈ data := (grown_mem_heldRows hgk p).1 (List.mem_flatten.2 ⟨_, (hL (T k)).2, hp⟩)
    have hzip : ∀ p ∈ data, p ∈ X.zip Y := fun p hp => by
      obtain ⟨j, -, h2, h3⟩ := (hrows p).1 hp
      exact List.mem_iff_getElem?.2 ⟨j, by rw [List.getElem?_zip_eq_some]; exact ⟨h2, h3⟩⟩
    exact grown_pure hsm hgk midpoint_of (S := (X.zip Y).toFinset) (fun f p hp q hq hpq => by
        obtain ⟨j, -, h2, h3⟩ := (hrows p).1 hp
        obtain ⟨j', -, h2', h3'⟩ := (hrows q).1 hq
        have hj : j < (X.map fun x => x f).length := by
          rw [List.length_map]
          exact (List.getElem?_eq_some_iff.1 h2).1
        have hjj : j = j' := (List.getElem?_inj hj (hties f)).1 (by
          rw [List.getElem?_map, List.getElem?_map, h2, h2', Option.map_some, Option.map_some, hpq])
        subst hjj
        rw [h2] at h2'
        rw [h3] at h3'
        exact Prod.ext (Option.some.inj h2') (Option.some.inj h3'))
      (fun p hp => List.mem_toFinset.2 (hzip p hp)) (by
        have h2 := List.toFinset_card_le (X.zip Y)
        rw [List.length_zip, ← hl, min_self] at h2
        omega) hpd (grown_reaches_own hgk (hL (T k)).1 hp)
  choose P hP hP' using hpure
  have hmap : ∀ k, (L (T k)).map (·.2) = (L (T k)).map fun _ => (P k).2 := fun k =>
    List.map_congr_left fun q hq => by rw [hP' k q hq]
  have hne' : ∀ k, L (T k) ≠ [] := fun k => List.ne_nil_of_mem (hP k)
  refine ⟨fun k => (P k).1, fun k => (P k).2, fun k => ?_, ?_⟩
  · obtain ⟨data, hgk, hrows⟩ := hg k
    exact ⟨data, _, _, hgk, (hL (T k)).1, hrows, hP k,
      (grown_mem_heldRows hgk _).1 (List.mem_flatten.2 ⟨_, (hL (T k)).2, hP k⟩), hP' k⟩
  · have hmean : (trees.map fun t => avg ((L t).map (·.2))) = (List.range num).map fun k => (P k).2 := by
      rw [e, List.map_map]
      refine List.map_congr_left fun k _ => ?_
      simp only [Function.comp_apply, hmap, RoundedTrees.avg_const (hne' k)]
    rw [predictByTreesOne_eq hne hs.root
      (fun t ht => ⟨(hL t).1, hs.leaves_ne t ht _ (hL t).2⟩) rfl, hmean]
    congr 3
    rw [msd, List.map_map, e, List.map_map]
    congr 1
    refine List.map_congr_left fun k _ => ?_
    simp only [Function.comp_apply]
    rw [hmap, msd, List.map_map]
    exact RoundedTrees.avg_const (hne' k) _

/-- C144: fully grown trees on inputs without ties read one row each, and no other drawn row lies in the
box that the query spans with its input. The mean of the forest is the average of the responses of these
rows, its deviation is their spread. -/
theorem C144_layered {rnd : ForestRnd d} {replace : Bool} (hr : ForestRndOk rnd replace)
    {X : List (Point d)} {Y : List ℝ} (hl : X.length = Y.length) (hX : X ≠ []) {ratio : ℝ}
    (h0 : 0 < ratio) (h1 : replace = false → ratio ≤ 1) (hk : 1 ≤ X.length * ratio) {nf : ℤ}
    (hn1 : 1 ≤ nf) (hnd : nf ≤ d) {num : ℕ} (hnum : 1 ≤ num) {dm sm : ℤ} (hties : NoTies X)
    (hsm : sm ≤ 1) (hdm : (X.length : ℤ) ≤ dm + 1) :
    ∃ trees, getGenericTrees rnd X Y num dm sm ratio replace nf false = .ok trees ∧
      ∀ x : Point d, ∃ (p : ℕ → Point d) (y : ℕ → ℝ),
        (∀ k < num, Drawn X Y (rnd.sample k X.length ⌊X.length * ratio⌋₊) (p k) (y k) ∧
          ∀ z w, Drawn X Y (rnd.sample k X.length ⌊X.length * ratio⌋₊) z w → Spanned x (p k) z →
            z = p k) ∧
        predictByTreesOne x trees = .ok (avg ((List.range num).map y),
          Real.sqrt (msd (avg ((List.range num).map y)) ((List.range num).map y))) := by
  obtain ⟨trees, ht, h⟩ := pure_leaves hr hl hX h0 h1 hk hn1 hnd hnum hties hsm hdm
  refine ⟨trees, ht, fun x => ?_⟩
  obtain ⟨p, y, hp, hpred⟩ := h x
  refine ⟨p, y, fun k _ => ?_, hpred⟩
  obtain ⟨data, L, t, hg, hL, hrows, h1, h2, h3⟩ := hp k
  exact ⟨(hrows _).1 h2, fun z w hz hb =>
    congrArg Prod.fst (h3 _ (grown_box hg hL h1 ((hrows (z, w)).2 hz) hb))⟩

/-- C144: in one dimension the leaf that a query reaches holds the drawn row nearest to it (of two the
upper one), at every depth. -/
theorem C144_nearest_leaf {rnd : ForestRnd 1} {replace : Bool} (hr : ForestRndOk rnd replace)
    {X : List (Point 1)} {Y : List ℝ} (hl : X.length = Y.length) (hX : X ≠ []) {ratio : ℝ}
    (h0 : 0 < ratio) (h1 : replace = false → ratio ≤ 1) (hk : 1 ≤ X.length * ratio) {num : ℕ}
    (hnum : 1 ≤ num) (dm sm : ℤ) :
    ∃ trees, getGenericTrees rnd X Y num dm sm ratio replace 1 false = .ok trees ∧
      ∀ x : Point 1, ∃ L : ℕ → List (Row 1),
        (∀ k < num, (∀ p ∈ L k, Drawn X Y (rnd.sample k X.length ⌊X.length * ratio⌋₊) p.1 p.2) ∧
          (∃ p ∈ L k, ∀ z w, Drawn X Y (rnd.sample k X.length ⌊X.length * ratio⌋₊) z w →
            AsNear x p.1 z) ∧
          ∀ p y, Drawn X Y (rnd.sample k X.length ⌊X.length * ratio⌋₊) p y →
            (∀ z w, Drawn X Y (rnd.sample k X.length ⌊X.length * ratio⌋₊) z w → AsNear x p z) →
            (p, y) ∈ L k) ∧
        ∃ mu sd, predictByTreesOne x trees = .ok (mu, sd) ∧
          mu = avg ((List.range num).map fun k => avg ((L k).map (·.2))) ∧
          sd = Real.sqrt (avg ((List.range num).map fun k => msd mu ((L k).map (·.2)))) := by
  obtain ⟨trees, ht, hlen, hs⟩ := C53_generic_trees hr hl hX h0 h1 hk le_rfl le_rfl num dm sm false
  obtain ⟨T, hT, hg⟩ := generic_grown hr hl hX h0 h1 hk le_rfl le_rfl num dm sm false
  have e := Except.ok.inj (ht.symm.trans hT)
  have hne : trees ≠ [] := by rintro rfl; simp at hlen; omega
  refine ⟨trees, ht, fun x => ?_⟩
  choose L hL using fun t => exists_reaches x t
  refine ⟨fun k => L (T k), fun k _ => ?_, _, _, predictByTreesOne_eq hne hs.root
    (fun t ht => ⟨(hL t).1, hs.leaves_ne t ht _ (hL t).2⟩) rfl, ?_, ?_⟩
  · obtain ⟨data, hgk, hrows⟩ := hg k
    obtain ⟨p, hp, hpn⟩ := exists_asNear x (grown_ne_nil hgk)
    refine ⟨fun p hp => (hrows p).1 ?_, ⟨p, grown_nearest hgk midpoint_of hp hpn (hL (T k)).1,
      fun z w hz => hpn (z, w) ((hrows (z, w)).2 hz)⟩, fun p y hp hpn => ?_⟩
    · exact (grown_mem_heldRows hgk p).1 (List.mem_flatten.2 ⟨_, (hL (T k)).2, hp⟩)
    · exact grown_nearest hgk midpoint_of ((hrows (p, y)).2 hp)
        (fun q hq => hpn q.1 q.2 ((hrows q).1 hq)) (hL (T k)).1
  · rw [e, List.map_map]
    rfl
  · rw [e]
    simp only [List.map_map, Function.comp_def]

/-- C144: in one dimension fully grown trees are nearest-neighbour regression: every tree predicts the
response of the drawn row nearest to the query (of two the upper one). -/
theorem C144_nearest {rnd : ForestRnd 1} {replace : Bool} (hr : ForestRndOk rnd replace)
    {X : List (Point 1)} {Y : List ℝ} (hl : X.length = Y.length) (hX : X ≠ []) {ratio : ℝ}
    (h0 : 0 < ratio) (h1 : replace = false → ratio ≤ 1) (hk : 1 ≤ X.length * ratio) {num : ℕ}
    (hnum : 1 ≤ num) {dm sm : ℤ} (hties : NoTies X) (hsm : sm ≤ 1) (hdm : (X.length : ℤ) ≤ dm + 1) :
    ∃ trees, getGenericTrees rnd X Y num dm sm ratio replace 1 false = .ok trees ∧
      ∀ x : Point 1, ∃ (p : ℕ → Point 1) (y : ℕ → ℝ),
        (∀ k < num, Drawn X Y (rnd.sample k X.length ⌊X.length * ratio⌋₊) (p k) (y k) ∧
          ∀ z w, Drawn X Y (rnd.sample k X.length ⌊X.length * ratio⌋₊) z w → AsNear x (p k) z) ∧
        predictByTreesOne x trees = .ok (avg ((List.range num).map y),
          Real.sqrt (msd (avg ((List.range num).map y)) ((List.range num).map y))) := by
  obtain ⟨trees, ht, h⟩ := pure_leaves hr hl hX h0 h1 hk le_rfl le_rfl hnum hties hsm hdm
  refine ⟨trees, ht, fun x => ?_⟩
  obtain ⟨p, y, hp, hpred⟩ := h x
  refine ⟨p, y, fun k _ => ?_, hpred⟩
  obtain ⟨data, L, t, hg, hL, hrows, h1, h2, h3⟩ := hp k
  obtain ⟨q, hq, hqn⟩ := exists_asNear x (grown_ne_nil hg)
  have := h3 q (grown_nearest hg midpoint_of hq hqn hL)
  subst this
  exact ⟨(hrows _).1 h2, fun z w hz => hqn (z, w) ((hrows (z, w)).2 hz)⟩

/-- C144: so if the responses are values of a function that changes by at most `K` per unit, the forest
mean misses its value at a query by at most `K` times the average over the trees of `r k`, if tree `k` has
drawn an input no farther than `r k` from the query; the squared deviation is at most `K ^ 2` times the
average of the squares. -/
theorem C144_lipschitz {rnd : ForestRnd 1} {replace : Bool} (hr : ForestRndOk rnd replace)
    {X : List (Point 1)} {g : ℝ → ℝ} {K : ℝ} (hg : ∀ a b, |g a - g b| ≤ K * |a - b|) (hX : X ≠ [])
    {ratio : ℝ} (h0 : 0 < ratio) (h1 : replace = false → ratio ≤ 1) (hk : 1 ≤ X.length * ratio)
    {num : ℕ} (hnum : 1 ≤ num) {dm sm : ℤ} (hties : NoTies X) (hsm : sm ≤ 1)
    (hdm : (X.length : ℤ) ≤ dm + 1) :
    ∃ trees, getGenericTrees rnd X (X.map fun x => g (x 0)) num dm sm ratio replace 1 false = .ok trees ∧
      ∀ (x : Point 1) (r : ℕ → ℝ), (∀ k < num, ∃ i ∈ rnd.sample k X.length ⌊X.length * ratio⌋₊,
          ∃ z, X[i]? = some z ∧ |x 0 - z 0| ≤ r k) →
        ∃ mu sd, predictByTreesOne x trees = .ok (mu, sd) ∧ 0 ≤ sd ∧
          |mu - g (x 0)| ≤ K * avg ((List.range num).map r) ∧
          sd ^ 2 ≤ K ^ 2 * avg ((List.range num).map fun k => r k ^ 2) := by
  have hK : 0 ≤ K := by
    have := (abs_nonneg _).trans (hg 1 0)
    simpa using this
  obtain ⟨trees, ht, h⟩ := C144_nearest hr (Y := X.map fun x => g (x 0)) (by simp) hX h0 h1 hk hnum
    hties hsm hdm
  refine ⟨trees, ht, fun x r hx => ?_⟩
  obtain ⟨p, y, hp, hpred⟩ := h x
  have hy : ∀ k < num, |y k - g (x 0)| ≤ K * r k := by
    intro k hk
    obtain ⟨⟨i, hi, a1, a2⟩, hn⟩ := hp k hk
    obtain ⟨j, hj, z, b1, b2⟩ := hx k hk
    have hyk : y k = g (p k 0) := by
      rw [List.getElem?_map, a1] at a2
      exact (Option.some.inj a2).symm
    have hnear : |x 0 - p k 0| ≤ |x 0 - z 0| := by
      rcases hn z (g (z 0)) ⟨j, hj, b1, by rw [List.getElem?_map, b1]; rfl⟩ with h | ⟨h, -⟩
      · exact h.le
      · exact h.le
    rw [hyk, abs_sub_comm]
    exact (hg _ _).trans (mul_le_mul_of_nonneg_left (hnear.trans b2) hK)
  have hne : List.range num ≠ [] := by simp; omega
  have hpos : (0 : ℝ) < (List.range num).length := by exact_mod_cast List.length_pos_iff.2 hne
  have hshift : ∀ c : ℝ, avg ((List.range num).map fun k => y k - c) = avg ((List.range num).map y) - c := by
    intro c
    have := avg_map_add (List.range num) y fun _ => -c
    simp only [← sub_eq_add_neg] at this
    rw [this, RoundedTrees.avg_const hne]
    ring
  have hscale : ∀ (u : ℕ → ℝ) (c : ℝ), avg ((List.range num).map fun k => c * u k) =
      c * avg ((List.range num).map u) := by
    intro u c
    rw [avg, avg, List.sum_map_mul_left, List.length_map, List.length_map, mul_div_assoc]
  have habs : ∀ u : ℕ → ℝ, |avg ((List.range num).map u)| ≤ avg ((List.range num).map fun k => |u k|) := by
    intro u
    have h2 := hscale u (-1)
    rw [neg_one_mul] at h2
    rw [abs_le', ← h2]
    exact ⟨RoundedTrees.avg_mono fun k _ => le_abs_self _, RoundedTrees.avg_mono fun k _ => by
      rw [neg_one_mul]
      exact neg_le_abs _⟩
  refine ⟨_, _, hpred, Real.sqrt_nonneg _, ?_, ?_⟩
  · rw [← hshift, ← hscale]
    refine (habs _).trans (RoundedTrees.avg_mono fun k hk => hy k (List.mem_range.1 hk))
  · rw [Real.sq_sqrt (msd_nonneg _ _)]
    have h2 := msd_eq (l := (List.range num).map y) (by simpa using hne) (g (x 0))
    have h3 : msd (g (x 0)) ((List.range num).map y) ≤
        K ^ 2 * avg ((List.range num).map fun k => r k ^ 2) := by
      rw [msd, List.map_map, ← hscale]
      refine RoundedTrees.avg_mono fun k hk => ?_
      have := hy k (List.mem_range.1 hk)
      rw [Function.comp_apply, ← sq_abs, ← mul_pow]
      exact pow_le_pow_left₀ (abs_nonneg _) this 2
    linarith [sq_nonneg (avg ((List.range num).map y) - g (x 0))]

/-- C144: trees on all rows, drawn without replacement, predict the response of the nearest training
input, with deviation zero. -/
theorem C144_all_rows {rnd : ForestRnd 1} (hr : ForestRndOk rnd false) {X : List (Point 1)}
    {Y : List ℝ} (hl : X.length = Y.length) (hX : X ≠ []) {num : ℕ} (hnum : 1 ≤ num) {dm sm : ℤ}
    (hties : NoTies X) (hsm : sm ≤ 1) (hdm : (X.length : ℤ) ≤ dm + 1) :
    ∃ trees, getGenericTrees rnd X Y num dm sm 1 false 1 false = .ok trees ∧
      ∀ (x : Point 1) (i : ℕ) (p : Point 1) (y : ℝ), X[i]? = some p → Y[i]? = some y →
        (∀ z ∈ X, AsNear x p z) → predictByTreesOne x trees = .ok (y, 0) := by
  have hpos : 0 < X.length := List.length_pos_iff.2 hX
  obtain ⟨trees, ht, h⟩ := C144_nearest hr hl hX one_pos (by simp) (by
    rw [mul_one]; exact_mod_cast hpos) hnum hties hsm hdm
  refine ⟨trees, ht, fun x i p y hp hy hn => ?_⟩
  obtain ⟨q, w, hq, hpred⟩ := h x
  have hw : ∀ k < num, w k = y := by
    intro k hk
    obtain ⟨⟨j, hj, b1, b2⟩, hqn⟩ := hq k hk
    have hs := hr.sample k
    have hlen := hs.length X.length X.length hpos (by simp)
    have hnd := hs.nodup rfl X.length X.length hpos le_rfl
    have hlt := hs.lt X.length X.length hpos (by simp)
    have hperm := (List.subperm_of_subset hnd (l₂ := List.range X.length) fun j hj =>
      List.mem_range.2 (hlt j hj)).perm_of_length_le (by rw [List.length_range, hlen])
    have hi : i ∈ rnd.sample k X.length X.length :=
      hperm.mem_iff.2 (List.mem_range.2 (List.getElem?_eq_some_iff.1 hp).1)
    rw [mul_one, Nat.floor_natCast] at hqn
    have n1 := hqn p y ⟨i, hi, hp, hy⟩
    have n2 := hn (q k) (List.mem_of_getElem? b1)
    have e : q k 0 = p 0 := by
      rcases n1 with n1 | ⟨n1, n1'⟩
      · rcases n2 with n2 | ⟨n2, -⟩
        · exact absurd n1 n2.asymm
        · exact absurd n1 n2.le.not_gt
      · rcases n2 with n2 | ⟨-, n2'⟩
        · exact absurd n1 n2.ne'
        · exact le_antisymm n2' n1'
    have hji : j = i := (List.getElem?_inj (l := X.map fun x => x 0) (by
      rw [List.length_map]
      exact (List.getElem?_eq_some_iff.1 b1).1) (hties 0)).1 (by
        rw [List.getElem?_map, List.getElem?_map, b1, hp, Option.map_some, Option.map_some, e])
    subst hji
    exact Option.some.inj (b2.symm.trans hy)
  have hmap : (List.range num).map w = (List.range num).map fun _ => y :=
    List.map_congr_left fun k hk => hw k (List.mem_range.1 hk)
  have hne : List.range num ≠ [] := by simp; omega
  rw [hpred, hmap, RoundedTrees.avg_const hne, msd, List.map_map]
  have : ((fun z => (z - y) ^ 2) ∘ fun _ => y) = fun _ : ℕ => (0 : ℝ) := by
    funext k
    simp
  rw [this, RoundedTrees.avg_const hne, Real.sqrt_zero]

/-! ### Concrete cases -/

/-- Rows in their order. -/
private def inOrder (d : ℕ) : ForestRnd d := ⟨fun _ _ k => List.range k, fun _ _ => firstRnd d⟩

private theorem inOrder_ok (d : ℕ) : ForestRndOk (inOrder d) false :=
  ⟨fun _ => ⟨by simp [inOrder], fun n k _ hk i hi => by
      have := List.mem_range.1 hi
      have := hk rfl
      omega, fun _ n k _ _ => List.nodup_range⟩, fun _ _ => firstRnd_ok d⟩

/-- Three rows, all drawn: 2 is predicted as 1, and so is everything below 3; at 3 it is the response of
5. -/
example : ∃ trees, getGenericTrees (inOrder 1) [fun _ => 0, fun _ => 1, fun _ => 5] [3, 4, 9] (10 : ℕ) 2 1 1
    false 1 false = .ok trees ∧ predictByTreesOne (fun _ => 2) trees = .ok (4, 0) ∧
    predictByTreesOne (fun _ => 3) trees = .ok (9, 0) := by
  obtain ⟨trees, ht, h⟩ := C144_all_rows (inOrder_ok 1) (X := [fun _ => 0, fun _ => 1, fun _ => 5])
    (Y := [3, 4, 9]) (by simp) (by simp) (num := 10) (by norm_num) (dm := 2) (sm := 1)
    (by intro f; simp) le_rfl (by norm_num)
  refine ⟨trees, ht, h _ 1 _ _ rfl rfl ?_, h _ 2 _ _ rfl rfl ?_⟩
  · intro z hz
    fin_cases hz <;> norm_num [AsNear]
  · intro z hz
    fin_cases hz <;> norm_num [AsNear]

/-- Responses of the function `|x|`: with the three rows -1, 0 and 2 the mean at 1/2 misses 1/2 by at
most 1/2. -/
example : ∃ trees, getGenericTrees (inOrder 1) [fun _ => -1, fun _ => 0, fun _ => 2] [|-1|, |0|, |2|]
    (10 : ℕ) 2 1 1 false 1 false = .ok trees ∧
    ∃ mu sd, predictByTreesOne (fun _ => 1 / 2) trees = .ok (mu, sd) ∧ |mu - (|1 / 2|)| ≤ 1 * (1 / 2) := by
  obtain ⟨trees, ht, h⟩ := C144_lipschitz (inOrder_ok 1) (X := [fun _ => -1, fun _ => 0, fun _ => 2])
    (g := fun a => |a|) (K := 1) (fun a b => by rw [one_mul]; exact abs_abs_sub_abs_le a b) (by simp)
    (ratio := 1) one_pos (by simp) (by norm_num) (num := 10) (by norm_num) (dm := 2) (sm := 1)
    (by intro f; norm_num) le_rfl (by norm_num)
  obtain ⟨mu, sd, h1, -, h2, -⟩ := h (fun _ => 1 / 2) (fun _ => 1 / 2) fun k _ =>
    ⟨1, by simp [inOrder], _, rfl, by norm_num⟩
  exact ⟨trees, ht, mu, sd, h1, h2.trans_eq (by rw [RoundedTrees.avg_const (by simp)])⟩

/-- Two dimensions: at (1, 1) a tree on the rows (0, 0) and (3, 5) reads one of them. -/
example : ∃ trees, getGenericTrees (inOrder 2) [![0, 0], ![3, 5]] [3, 4] (1 : ℕ) 1 1 1 false 2 false =
      .ok trees ∧
    ∃ (p : ℕ → Point 2) (y : ℕ → ℝ), Drawn [![0, 0], ![3, 5]] [3, 4] [0, 1] (p 0) (y 0) ∧
      predictByTreesOne ![1, 1] trees = .ok (avg [y 0], Real.sqrt (msd (avg [y 0]) [y 0])) := by
  obtain ⟨trees, ht, h⟩ := C144_layered (inOrder_ok 2) (X := [![0, 0], ![3, 5]]) (Y := [3, 4]) (by simp)
    (by simp) (ratio := 1) one_pos (by simp) (by norm_num) (nf := 2) (by norm_num) (by norm_num) (num := 1)
    le_rfl (dm := 1) (sm := 1) (by intro f; fin_cases f <;> simp) le_rfl (by norm_num)
  obtain ⟨p, y, hp, hpred⟩ := h ![1, 1]
  refine ⟨trees, ht, p, y, ?_, hpred⟩
  have := (hp 0 one_pos).1
  rwa [mul_one, Nat.floor_natCast] at this

/-- A tree with one split: its leaves read two of the three rows 0, 1 and 5, one of them the nearest. -/
example : ∃ trees, getGenericTrees (inOrder 1) [fun _ => 0, fun _ => 1, fun _ => 5] [3, 4, 9] (1 : ℕ) 1 1 1
    false 1 false = .ok trees ∧ ∃ L : List (Row 1), ((fun _ => 1, 4) : Row 1) ∈ L ∧
      ∃ mu sd, predictByTreesOne (fun _ => 2) trees = .ok (mu, sd) ∧ mu = avg [avg (L.map (·.2))] := by
  obtain ⟨trees, ht, h⟩ := C144_nearest_leaf (inOrder_ok 1) (X := [fun _ => 0, fun _ => 1, fun _ => 5])
    (Y := [3, 4, 9]) (by simp) (by simp) (ratio := 1) one_pos (by simp) (by norm_num) (num := 1) le_rfl 1 1
  obtain ⟨L, hL, mu, sd, h1, h2, -⟩ := h fun _ => 2
  refine ⟨trees, ht, L 0, (hL 0 one_pos).2.2 _ _ ⟨1, by simp [inOrder], rfl, rfl⟩ ?_, mu, sd, h1, h2⟩
  rintro z w ⟨i, -, hz, -⟩
  have hz := List.mem_of_getElem? hz
  fin_cases hz <;> norm_num [AsNear]

/-- The same with random thresholds: what is between 0 and a row of its leaf is in the leaf. -/
example : ∃ trees, getGenericTrees (inOrder 1) [fun _ => 0, fun _ => 1, fun _ => 5] [3, 4, 9] (1 : ℕ) 1 1 1
    false 1 true = .ok trees ∧ ∃ L : List (Row 1), (((fun _ => 5, 9) : Row 1) ∈ L →
      ((fun _ => 1, 4) : Row 1) ∈ L) ∧
      ∃ mu sd, predictByTreesOne (fun _ => 0) trees = .ok (mu, sd) ∧ mu = avg [avg (L.map (·.2))] := by
  obtain ⟨trees, ht, h⟩ := C144_box (inOrder_ok 1) (X := [fun _ => 0, fun _ => 1, fun _ => 5])
    (Y := [3, 4, 9]) (by simp) (by simp) (ratio := 1) one_pos (by simp) (by norm_num) (nf := 1) le_rfl
    (by norm_num) (num := 1) le_rfl 1 1 true
  obtain ⟨L, hL, mu, sd, h1, h2, -⟩ := h fun _ => 0
  refine ⟨trees, ht, L 0, fun h5 => (hL 0 one_pos).2.2 _ h5 _ _ ⟨1, by simp [inOrder], rfl, rfl⟩
    fun f => by norm_num, mu, sd, h1, h2⟩

end Verif.Props
