import Verif.Lemmas.Trees
import Mathlib.Tactic.NormNum
import Mathlib.Tactic.FinCases

/-!
# Regression trees (C47-C53)

The random generator is arbitrary up to the promises of numpy (`NodeRndOk`, `SampleOk`).
-/

namespace Verif.Props

open Verif.Trees Verif.Spec

variable {d : ℕ}

/-! ### A concrete generator, used by the examples -/

/-- Draws the first features and the first locations, and the unit draw 0. -/
def firstRnd (d : ℕ) : NodeRnd d where
  features k := (List.finRange d).take k.toNat
  locs _ _ m := List.range m
  unif _ := 0

theorem firstRnd_ok (d : ℕ) : NodeRndOk (firstRnd d) where
  features_length k h0 hd := by simp [firstRnd]; omega
  features_nodup k _ _ := (List.nodup_finRange d).sublist (List.take_sublist _ _)
  locs_length _ _ _ _ := by simp [firstRnd]
  locs_nodup _ _ _ _ := List.nodup_range
  locs_lt _ _ _ h i hi := by simp [firstRnd] at hi; omega
  unif_nonneg _ := by simp [firstRnd]
  unif_lt _ := by simp [firstRnd]

/-! ### Growth -/

/-- C48: growing a tree from a non-empty sample always succeeds: it terminates and raises
nothing. -/
theorem C48_grows {rnd : TreeRnd d} (hr : TreeRndOk rnd) {X : List (Point d)} {Y : List ℝ}
    (hX : X ≠ []) (hl : X.length = Y.length) {nf : ℤ} (h1 : 1 ≤ nf) (hd : nf ≤ d) (dm sm : ℤ)
    (rl : Bool) : ∃ t, growTree rnd X Y dm sm nf rl = .ok t := by
  obtain ⟨t, h, _⟩ := growTree_grown hr h1 hd dm sm rl hX hl
  exact ⟨t, h⟩

example : ∃ t, growTree (d := 1) (fun _ => firstRnd 1) [fun _ => 0, fun _ => 1, fun _ => 5] [3, 4, 9]
    5 1 1 false = .ok t :=
  C48_grows (fun _ => firstRnd_ok 1) (by simp) (by simp) (by norm_num) (by norm_num) _ _ _

/-- C48: a grown tree is at most `max(depth_max, 1)` decisions deep and none of its leaves is
empty. -/
theorem C48_depth {rnd : TreeRnd d} (hr : TreeRndOk rnd) {X : List (Point d)} {Y : List ℝ}
    (hX : X ≠ []) (hl : X.length = Y.length) {nf : ℤ} (h1 : 1 ≤ nf) (hd : nf ≤ d) {dm sm : ℤ}
    {rl : Bool} {t : Tree d} (ht : growTree rnd X Y dm sm nf rl = .ok t) :
    1 ≤ depth t ∧ (depth t : ℤ) ≤ max dm 1 ∧ ∀ L ∈ leaves t, L ≠ [] := by
  obtain ⟨t', h, hg⟩ := growTree_grown hr h1 hd dm sm rl hX hl
  rw [ht] at h
  cases h
  refine ⟨?_, ?_, grown_leaves_ne_nil hg⟩
  · obtain ⟨f, v, l, r, rfl⟩ := grown_not_leaf hg
    simp [depth]
  · have := grown_depth_le hg
    simpa using this

/-- C48: without features to try there is no split, and `split` fails to unpack it. -/
theorem C48_no_features {rnd : TreeRnd d} (hr : TreeRndOk rnd) {X : List (Point d)} {Y : List ℝ}
    (hX : X ≠ []) (hl : X.length = Y.length) (dm sm : ℤ) (rl : Bool) :
    growTree rnd X Y dm sm 0 rl = .error .type := by
  have hf : (rnd []).features 0 = [] := by
    have := (hr []).features_length 0 (by omega) (by omega)
    exact List.length_eq_zero_iff.1 (by exact_mod_cast this)
  have : splitNode (rnd []) X Y 0 rl = .ok Best.init := by
    rw [splitNode_eq (hr []) hX hl (by omega) (by omega)]
    simp [tried, hf]
  simp only [growTree, this, bind, Except.bind]
  rw [split]
  simp [pyAssert, Best.init, bind, Except.bind]

/-- C48: an empty sample is refused. -/
theorem C48_empty (rnd : TreeRnd d) (dm sm nf : ℤ) (rl : Bool) :
    growTree rnd [] [] dm sm nf rl = .error .assertion := by
  simp [growTree, splitNode, pyAssert, bind, Except.bind]

/-! ### Which pairs the leaves hold -/

/-- C47: the leaves hold the training pairs and nothing else. -/
theorem C47_covers {rnd : TreeRnd d} (hr : TreeRndOk rnd) {X : List (Point d)} {Y : List ℝ}
    (hX : X ≠ []) (hl : X.length = Y.length) {nf : ℤ} (h1 : 1 ≤ nf) (hd : nf ≤ d) {dm sm : ℤ}
    {rl : Bool} {t : Tree d} (ht : growTree rnd X Y dm sm nf rl = .ok t) (p : Row d) :
    (∃ L ∈ leaves t, p ∈ L) ↔ p ∈ X.zip Y := by
  obtain ⟨t', h, hg⟩ := growTree_grown hr h1 hd dm sm rl hX hl
  rw [ht] at h
  cases h
  rw [← grown_mem_heldRows hg p]
  simp [heldRows]

/-- C47, for trees without a degenerate split (every pair is on its own side of every
threshold above it): every training pair is held exactly as often as it occurs in the sample,
so each row is in exactly one leaf. What is missing: a split that puts all rows on one side
breaks the claim (`C47_violated`). -/
theorem C47_exactly_once_partial {rnd : TreeRnd d} (hr : TreeRndOk rnd) {X : List (Point d)}
    {Y : List ℝ} (hX : X ≠ []) (hl : X.length = Y.length) {nf : ℤ} (h1 : 1 ≤ nf) (hd : nf ≤ d)
    {dm sm : ℤ} {rl : Bool} {t : Tree d} (ht : growTree rnd X Y dm sm nf rl = .ok t)
    (hproper : Respects t) : (leaves t).flatten.Perm (X.zip Y) := by
  obtain ⟨t', h, hg⟩ := growTree_grown hr h1 hd dm sm rl hX hl
  rw [ht] at h
  cases h
  exact grown_perm hg hproper

/-- C47 is false as it stands: from a sample of one row every tree holds the row in two
leaves. -/
theorem C47_violated {rnd : TreeRnd d} (hr : TreeRndOk rnd) (x : Point d) (y : ℝ)
    {nf : ℤ} (h1 : 1 ≤ nf) (hd : nf ≤ d) (dm sm : ℤ) (rl : Bool) :
    ∃ t, growTree rnd [x] [y] dm sm nf rl = .ok t ∧ leaves t = [[(x, y)], [(x, y)]] := by
  obtain ⟨t, h, hg⟩ := growTree_grown hr h1 hd dm sm rl (X := [x]) (Y := [y]) (by simp) (by simp)
  refine ⟨t, h, ?_⟩
  have key : ∀ (data : List (Row d)), data = [(x, y)] → ∀ (f : Fin d) (v : ℝ),
      (below data f v = [] ∨ notBelow data f v = []) ∧
      below data f v ++ notBelow data f v = [(x, y)] := by
    rintro _ rfl f v
    by_cases hv : x f < v
    · simp [below, notBelow, hv]
    · simp [below, notBelow, hv, not_lt.1 hv]
  generalize hdata : List.zip [x] [y] = data at hg
  have hdata' : data = [(x, y)] := by rw [← hdata]; rfl
  cases hg with
  | degenerate _ _ _ _ _ => simp [leaves, (key data hdata' _ _).2]
  | bottom _ _ _ h2 h3 _ _ =>
    rcases (key data hdata' _ _).1 with h | h
    · exact absurd h h2
    · exact absurd h h3
  | inner _ _ _ h2 h3 _ _ _ =>
    rcases (key data hdata' _ _).1 with h | h
    · exact absurd h h2
    · exact absurd h h3

/-! ### The thresholds tried -/

private theorem midpoint_of_locs {X : List (Point d)} {f : Fin d} {i : ℕ}
    (hi : i < (levels X f).length - 1) :
    IsMidpoint X f (((levels X f).getD i 0 + (levels X f).getD (i + 1) 0) / 2) := by
  have h1 : i < (levels X f).length := by omega
  have h2 : i + 1 < (levels X f).length := by omega
  have hs := List.pairwise_iff_getElem.1 (levels_sorted X f)
  have e1 : (levels X f).getD i 0 = (levels X f)[i] := by simp [List.getElem?_eq_getElem, h1]
  have e2 : (levels X f).getD (i + 1) 0 = (levels X f)[i + 1] := by
    simp [List.getElem?_eq_getElem, h2]
  rw [e1, e2]
  obtain ⟨x, hx, hxe⟩ := mem_levels.1 (List.getElem_mem h1)
  obtain ⟨y, hy, hye⟩ := mem_levels.1 (List.getElem_mem h2)
  left
  refine ⟨x, hx, y, hy, ?_, ?_, by rw [hxe, hye]⟩
  · rw [hxe, hye]
    exact hs i (i + 1) h1 h2 (by omega)
  · intro z hz
    obtain ⟨j, hj, hje⟩ := List.getElem_of_mem (mem_levels.2 ⟨z, hz, rfl⟩)
    rw [hxe, hye, ← hje]
    rcases lt_trichotomy j i with h | h | h
    · exact Or.inl (hs j i hj h1 h).le
    · subst h; exact Or.inl le_rfl
    · rcases Nat.eq_or_lt_of_le (Nat.succ_le_of_lt h) with h' | h'
      · have h' : j = i + 1 := by omega
        subst h'; exact Or.inr le_rfl
      · exact Or.inr (hs (i + 1) j h2 hj h').le

private theorem levels_const {X : List (Point d)} (hX : X ≠ []) {f : Fin d}
    (h : ¬ (levels X f).length > 1) : ∃ a, levels X f = [a] ∧ ∀ x ∈ X, x f = a := by
  have hl : (levels X f).length = 1 := by
    have := List.length_pos_iff.2 (levels_ne_nil hX f)
    omega
  obtain ⟨a, ha⟩ := List.length_eq_one_iff.1 hl
  refine ⟨a, ha, fun x hx => ?_⟩
  have : x f ∈ levels X f := mem_levels.2 ⟨x, hx, rfl⟩
  rw [ha] at this
  simpa using this

/-- C50: without random locations, every pair tried is a drawn feature with a midpoint of two
neighbouring values of it (or its only value). -/
theorem C50_midpoints {r : NodeRnd d} (hr : NodeRndOk r) {X : List (Point d)} (hX : X ≠ [])
    {nf : ℤ} {f : Fin d} {v : ℝ} (h : (f, v) ∈ tried r X nf false) :
    f ∈ r.features nf ∧ IsMidpoint X f v := by
  obtain ⟨⟨f', k⟩, hq, hm⟩ := List.mem_flatMap.1 h
  simp only [Bool.false_eq_true, if_false, List.mem_map] at hm
  obtain ⟨v', hv', he⟩ := hm
  simp only [Prod.mk.injEq] at he
  obtain ⟨rfl, rfl⟩ := he
  refine ⟨?_, ?_⟩
  · have := List.mem_map_of_mem (f := Prod.fst) hq
    simpa using this
  · unfold triedMidpoints at hv'
    by_cases hl : (levels X f').length > 1
    · simp only [hl, if_true, List.mem_map] at hv'
      obtain ⟨i, hi, rfl⟩ := hv'
      exact midpoint_of_locs (hr.locs_lt _ _ _ (by omega) i hi)
    · obtain ⟨a, ha, hc⟩ := levels_const hX hl
      simp only [hl, if_false] at hv'
      rw [ha] at hv'
      obtain ⟨_, _, rfl⟩ := List.mem_map.1 hv'
      obtain ⟨x, hx⟩ := List.exists_mem_of_ne_nil X hX
      right
      refine ⟨fun y hy z hz => by rw [hc y hy, hc z hz], x, hx, by simp [hc x hx]⟩

private theorem mem_of_full {l : List ℕ} {n : ℕ} (h1 : l.length = n) (h2 : l.Nodup)
    (h3 : ∀ i ∈ l, i < n) {i : ℕ} (hi : i < n) : i ∈ l := by
  have hsub : l.toFinset ⊆ Finset.range n := by
    intro j hj
    simpa using h3 j (by simpa using hj)
  have hcard : (Finset.range n).card ≤ l.toFinset.card := by
    rw [List.toFinset_card_of_nodup h2, h1, Finset.card_range]
  have := Finset.eq_of_subset_of_card_le hsub hcard
  have hmem : i ∈ l.toFinset := by rw [this]; simpa using hi
  simpa using hmem

/-- C50: a drawn feature with at most 21 distinct values has all its midpoints tried. -/
theorem C50_all_midpoints {r : NodeRnd d} (hr : NodeRndOk r) {X : List (Point d)} (hX : X ≠ [])
    {nf : ℤ} {f : Fin d} {v : ℝ} (hf : f ∈ r.features nf)
    (hfew : ((X.map (fun x => x f)).toFinset).card ≤ 21) (hv : IsMidpoint X f v) :
    (f, v) ∈ tried r X nf false := by
  have hlen : (levels X f).length ≤ 21 := by
    simpa [levels] using hfew
  obtain ⟨k, hk, hke⟩ := List.getElem_of_mem hf
  apply List.mem_flatMap.2
  refine ⟨(f, k), ?_, ?_⟩
  · rw [List.mem_iff_getElem]
    exact ⟨k, by simpa using hk, by simp [hke]⟩
  · simp only [Bool.false_eq_true, if_false, List.mem_map]
    refine ⟨v, ?_, rfl⟩
    unfold triedMidpoints
    rcases hv with ⟨x, hx, y, hy, hxy, hgap, rfl⟩ | ⟨hconst, x, hx, rfl⟩
    · obtain ⟨i, hi, hie⟩ := List.getElem_of_mem (mem_levels.2 ⟨x, hx, rfl⟩ : x f ∈ levels X f)
      obtain ⟨j, hj, hje⟩ := List.getElem_of_mem (mem_levels.2 ⟨y, hy, rfl⟩ : y f ∈ levels X f)
      have hs := List.pairwise_iff_getElem.1 (levels_sorted X f)
      have hij : i < j := by
        by_contra hc
        rcases Nat.eq_or_lt_of_le (not_lt.1 hc) with h | h
        · subst h
          rw [hie] at hje
          linarith
        · have := hs j i hj hi h
          linarith
      have hj1 : j = i + 1 := by
        by_contra hc
        have hi1 : i + 1 < (levels X f).length := by omega
        obtain ⟨z, hz, hze⟩ := mem_levels.1 (List.getElem_mem hi1)
        have a1 := hs i (i + 1) hi hi1 (by omega)
        have a2 := hs (i + 1) j hi1 hj (by omega)
        rcases hgap z hz with h | h <;> linarith
      subst hj1
      have hmany : (levels X f).length > 1 := by omega
      simp only [hmany, if_true, List.mem_map]
      refine ⟨i, ?_, ?_⟩
      · have hmin : min 20 ((levels X f).length - 1) = (levels X f).length - 1 := by omega
        rw [hmin]
        exact mem_of_full (hr.locs_length _ _ _ le_rfl) (hr.locs_nodup _ _ _ le_rfl)
          (hr.locs_lt _ _ _ le_rfl) (by omega)
      · simp only [List.getD_eq_getElem?_getD, List.getElem?_eq_getElem hi,
          List.getElem?_eq_getElem hj, Option.getD_some, hie, hje]
    · have hone : ¬ (levels X f).length > 1 := by
        intro h
        have hs := List.pairwise_iff_getElem.1 (levels_sorted X f) 0 1 (by omega) h (by omega)
        obtain ⟨y, hy, hye⟩ := mem_levels.1 (List.getElem_mem (show 0 < (levels X f).length by omega))
        obtain ⟨z, hz, hze⟩ := mem_levels.1 (List.getElem_mem h)
        have := hconst y hy z hz
        rw [hye, hze] at this
        linarith
      obtain ⟨a, ha, hc⟩ := levels_const hX hone
      simp only [hone, if_false]
      rw [ha]
      refine List.mem_map.2 ⟨0, mem_of_full (hr.locs_length _ _ _ le_rfl) (hr.locs_nodup _ _ _ le_rfl)
          (hr.locs_lt _ _ _ le_rfl) (by omega), by simp [hc x hx]⟩

/-- C50: with random locations one threshold per drawn feature is tried, and it lies between
the smallest and the largest value of the feature. -/
theorem C50_random {r : NodeRnd d} (hr : NodeRndOk r) {X : List (Point d)} (hX : X ≠ [])
    {nf : ℤ} : (tried r X nf true).map (·.1) = r.features nf ∧
    ∀ f v, (f, v) ∈ tried r X nf true → ∃ x ∈ X, ∃ y ∈ X, (∀ z ∈ X, x f ≤ z f ∧ z f ≤ y f) ∧
      x f ≤ v ∧ v ≤ y f ∧ (x f < y f → v < y f) := by
  constructor
  · unfold tried
    generalize hz : r.features nf = fs
    have : ∀ (fs : List (Fin d)) (n : ℕ), ((fs.zipIdx n).flatMap (fun q =>
        (if true = true then [triedRandom r X q.1 q.2] else triedMidpoints r X q.1 q.2).map
        (fun v => (q.1, v)))).map (·.1) = fs := by
      intro fs
      induction fs with
      | nil => intro n; rfl
      | cons a t ih =>
        intro n
        simp only [if_true, List.map_cons, List.map_nil] at ih
        simp [List.zipIdx_cons, ih]
    exact this fs 0
  · intro f v h
    obtain ⟨⟨f', k⟩, hq, hm⟩ := List.mem_flatMap.1 h
    simp only [if_true, List.map_cons, List.map_nil, List.mem_singleton, Prod.mk.injEq] at hm
    obtain ⟨rfl, rfl⟩ := hm
    have hne := levels_ne_nil hX f
    obtain ⟨a1, a2⟩ := sorted_head_min (levels_sorted X f) hne
    obtain ⟨b1, b2⟩ := sorted_last_max (levels_sorted X f) hne
    obtain ⟨x, hx, hxe⟩ := mem_levels.1 a1
    obtain ⟨y, hy, hye⟩ := mem_levels.1 b1
    have hxy : x f ≤ y f := by rw [hxe]; exact a2 _ (mem_levels.2 ⟨y, hy, rfl⟩)
    have hu0 := hr.unif_nonneg k
    have hu1 := hr.unif_lt k
    refine ⟨x, hx, y, hy, ?_, ?_, ?_, ?_⟩
    · intro z hz
      rw [hxe, hye]
      exact ⟨a2 _ (mem_levels.2 ⟨z, hz, rfl⟩), b2 _ (mem_levels.2 ⟨z, hz, rfl⟩)⟩
    · simp only [triedRandom, ← hxe, ← hye]
      nlinarith
    · simp only [triedRandom, ← hxe, ← hye]
      nlinarith
    · intro hlt
      simp only [triedRandom, ← hxe, ← hye]
      nlinarith

/-- C50: `_split` returns the first of the tried feature/threshold pairs with the smallest sum
of the two sides' mean squared errors, with the rows below the threshold on the left and the
other rows on the right. -/
theorem C50_first_best {r : NodeRnd d} (hr : NodeRndOk r) {X : List (Point d)} {Y : List ℝ}
    (hX : X ≠ []) (hl : X.length = Y.length) {nf : ℤ} (h1 : 1 ≤ nf) (hd : nf ≤ d) (rl : Bool) :
    ∃ (i : ℕ) (f : Fin d) (v : ℝ) (node : Best d), splitNode r X Y nf rl = .ok node ∧
      node.found = some (f, v, (X.zip Y).filter (fun p => p.1 f < v),
        (X.zip Y).filter (fun p => ¬ p.1 f < v)) ∧
      FirstBest (fun _ => True)
        ((tried r X nf rl).map (fun q => (q, Flt.fin (splitCost (X.zip Y) q.1 q.2))))
        i (f, v) node.score := by
  obtain ⟨i, f, v, hi, hle, hlt, he⟩ := splitNode_found hr hX hl h1 hd rl
  refine ⟨i, f, v, _, he, rfl, ?_, trivial, by simp, ?_, ?_⟩
  · simp [hi]
  · intro j b w hj _
    rw [List.getElem?_map] at hj
    obtain ⟨q, hq, hqe⟩ := Option.map_eq_some_iff.1 hj
    simp only [Prod.mk.injEq] at hqe
    obtain ⟨rfl, rfl⟩ := hqe
    right
    simpa using hle j q hq
  · intro j b w hji hj _
    rw [List.getElem?_map] at hj
    obtain ⟨q, hq, hqe⟩ := Option.map_eq_some_iff.1 hj
    simp only [Prod.mk.injEq] at hqe
    obtain ⟨rfl, rfl⟩ := hqe
    right
    simpa using hlt j q hji hq

example : ∃ (f : Fin 1) (v : ℝ) (node : Best 1),
    splitNode (firstRnd 1) [fun _ => 0, fun _ => 1, fun _ => 5] [3, 4, 9] 1 false = .ok node ∧
    node.found = some (f, v, (List.zip [fun _ => 0, fun _ => 1, fun _ => 5] [3, 4, 9]).filter (fun p => p.1 f < v),
        (List.zip [fun _ => 0, fun _ => 1, fun _ => 5] [3, 4, 9]).filter (fun p => ¬ p.1 f < v)) := by
  obtain ⟨_, f, v, node, h, h', _⟩ := C50_first_best (firstRnd_ok 1)
    (X := [fun _ => 0, fun _ => 1, fun _ => 5]) (Y := [3, 4, 9]) (by simp) (by simp)
    (nf := 1) (by norm_num) (by norm_num) false
  exact ⟨f, v, node, h, h'⟩

/-- C50: when all features are drawn and none has more than 21 distinct values, no threshold
whatsoever that separates the rows does better than the chosen one. -/
theorem C50_optimal {r : NodeRnd d} (hr : NodeRndOk r) {X : List (Point d)} {Y : List ℝ}
    (hX : X ≠ []) (hl : X.length = Y.length) (hd : 1 ≤ d)
    (hfew : ∀ f, ((X.map (fun x => x f)).toFinset).card ≤ 21) :
    ∃ (f : Fin d) (v : ℝ) (node : Best d), splitNode r X Y d false = .ok node ∧
      node.found = some (f, v, below (X.zip Y) f v, notBelow (X.zip Y) f v) ∧
      ∀ (f' : Fin d) (v' : ℝ), below (X.zip Y) f' v' ≠ [] → notBelow (X.zip Y) f' v' ≠ [] →
        splitCost (X.zip Y) f v ≤ splitCost (X.zip Y) f' v' := by
  obtain ⟨i, f, v, hi, hle, hlt, he⟩ :=
    splitNode_found hr hX hl (nf := d) (by exact_mod_cast hd) le_rfl false
  refine ⟨f, v, _, he, rfl, ?_⟩
  intro f' v' hb hn
  have hfeat : f' ∈ r.features d := by
    have h1 := hr.features_length d (by omega) le_rfl
    have h2 := hr.features_nodup d (by omega) le_rfl
    have h3 : (r.features d).toFinset = Finset.univ := by
      apply Finset.eq_univ_of_card
      rw [List.toFinset_card_of_nodup h2, Fintype.card_fin]
      exact_mod_cast h1
    have : f' ∈ (r.features d).toFinset := by rw [h3]; simp
    simpa using this
  have hzX : (X.zip Y).map (·.1) = X := List.map_fst_zip (by omega)
  -- the largest value below and the smallest value not below
  obtain ⟨a, ha⟩ := npMax_exists (l := (below (X.zip Y) f' v').map (fun p => p.1 f'))
    (by simpa using hb)
  obtain ⟨b, hb'⟩ := npMin_exists (l := (notBelow (X.zip Y) f' v').map (fun p => p.1 f'))
    (by simpa using hn)
  rw [npMax_ok] at ha
  rw [npMin_ok] at hb'
  obtain ⟨p, hp, hpe⟩ := List.mem_map.1 ha.1
  obtain ⟨q, hq, hqe⟩ := List.mem_map.1 hb'.1
  have hpa := mem_below.1 hp
  have hqb := mem_notBelow.1 hq
  have hside : ∀ z ∈ X.zip Y, (z.1 f' < v' → z.1 f' ≤ a) ∧ (v' ≤ z.1 f' → b ≤ z.1 f') := by
    intro z hz
    exact ⟨fun h => ha.2 _ (List.mem_map.2 ⟨z, mem_below.2 ⟨hz, h⟩, rfl⟩),
      fun h => hb'.2 _ (List.mem_map.2 ⟨z, mem_notBelow.2 ⟨hz, h⟩, rfl⟩)⟩
  have hav : a < v' := by rw [← hpe]; exact hpa.2
  have hvb : v' ≤ b := by rw [← hqe]; exact hqb.2
  have hmem : (f', (a + b) / 2) ∈ tried r X d false := by
    apply C50_all_midpoints hr hX hfeat (hfew f')
    left
    refine ⟨p.1, ?_, q.1, ?_, by rw [hpe, hqe]; linarith, ?_, by rw [hpe, hqe]⟩
    · rw [← hzX]; exact List.mem_map_of_mem hpa.1
    · rw [← hzX]; exact List.mem_map_of_mem hqb.1
    · intro z hz
      rw [← hzX] at hz
      obtain ⟨w, hw, rfl⟩ := List.mem_map.1 hz
      rw [hpe, hqe]
      rcases lt_or_ge (w.1 f') v' with h | h
      · exact Or.inl ((hside w hw).1 h)
      · exact Or.inr ((hside w hw).2 h)
  obtain ⟨j, hj⟩ := List.mem_iff_getElem?.1 hmem
  have := hle j _ hj
  have e1 : below (X.zip Y) f' ((a + b) / 2) = below (X.zip Y) f' v' := by
    apply List.filter_congr
    intro z hz
    rcases lt_or_ge (z.1 f') v' with h | h
    · have h' := (hside z hz).1 h
      have : z.1 f' < (a + b) / 2 := by linarith
      simp [h, this]
    · have h' := (hside z hz).2 h
      have : ¬ z.1 f' < (a + b) / 2 := by linarith
      simp [not_lt.2 h, this]
  have e2 : notBelow (X.zip Y) f' ((a + b) / 2) = notBelow (X.zip Y) f' v' := by
    apply List.filter_congr
    intro z hz
    rcases lt_or_ge (z.1 f') v' with h | h
    · have h' := (hside z hz).1 h
      have : z.1 f' < (a + b) / 2 := by linarith
      simp [h, this]
    · have h' := (hside z hz).2 h
      have : ¬ z.1 f' < (a + b) / 2 := by linarith
      simp only [this, not_lt.2 h]
  simpa [splitCost, e1, e2] using this

example (r : NodeRnd 1) (hr : NodeRndOk r) : ∃ (f : Fin 1) (v : ℝ) (node : Best 1),
    splitNode r [fun _ => 0, fun _ => 1] [3, 4] (1 : ℕ) false = .ok node ∧
      node.found = some (f, v, below (List.zip [fun _ => 0, fun _ => 1] [3, 4]) f v,
        notBelow (List.zip [fun _ => 0, fun _ => 1] [3, 4]) f v) := by
  obtain ⟨f, v, node, h, h', _⟩ := C50_optimal hr (X := [fun _ => 0, fun _ => 1]) (Y := [3, 4])
    (by simp) (by simp) le_rfl
    (fun f => (List.toFinset_card_le _).trans (by simp))
  exact ⟨f, v, node, h, h'⟩

/-- C50: the 1e8 of an empty side is not beyond every variance. With responses of 20000 a feature with
a single value, which separates nothing, beats the one split that separates the rows. -/
theorem C50_large_responses {r : NodeRnd 2} (hr : NodeRndOk r) :
    ∃ (v : ℝ) (node : Best 2),
      splitNode r [![0, 0], ![0, 0], ![0, 1], ![0, 1]] [20000, -20000, 20000, -20000] 2 false = .ok node ∧
      node.found = some (0, v, [], [(![0, 0], 20000), (![0, 0], -20000), (![0, 1], 20000),
        (![0, 1], -20000)]) := by
  set X : List (Point 2) := [![0, 0], ![0, 0], ![0, 1], ![0, 1]] with hX
  have hne : X ≠ [] := by simp [hX]
  obtain ⟨i, f, v, hi, hle, hlt, he⟩ :=
    splitNode_found hr (Y := [20000, -20000, 20000, -20000]) hne rfl (nf := 2) (by norm_num) le_rfl false
  have hfeat : (0 : Fin 2) ∈ r.features 2 := by
    have h1 := hr.features_length 2 (by omega) le_rfl
    have h2 := hr.features_nodup 2 (by omega) le_rfl
    have h3 : (r.features 2).toFinset = Finset.univ := by
      apply Finset.eq_univ_of_card
      rw [List.toFinset_card_of_nodup h2, Fintype.card_fin]
      exact_mod_cast h1
    have : (0 : Fin 2) ∈ (r.features 2).toFinset := by rw [h3]; simp
    simpa using this
  have hmem : ((0 : Fin 2), (0 : ℝ)) ∈ tried r X 2 false := by
    apply C50_all_midpoints hr hne hfeat ((List.toFinset_card_le _).trans (by simp [hX]))
    right
    refine ⟨?_, ![0, 0], by simp [hX], by simp⟩
    intro x hx y hy
    simp only [hX, List.mem_cons, List.not_mem_nil, or_false] at hx hy
    rcases hx with rfl | rfl | rfl | rfl <;> rcases hy with rfl | rfl | rfl | rfl <;> simp
  have hz : X.zip [20000, -20000, 20000, -20000] = [(![0, 0], (20000 : ℝ)), (![0, 0], -20000),
      (![0, 1], 20000), (![0, 1], -20000)] := rfl
  have hc0 : splitCost (X.zip [20000, -20000, 20000, -20000]) (0 : Fin 2) 0 = 500000000 := by
    rw [hz]
    simp [splitCost, below, notBelow, sideCost, msd, avg]
    norm_num
  obtain ⟨j, hj⟩ := List.mem_iff_getElem?.1 hmem
  have hcost := hle j _ hj
  rw [hc0] at hcost
  obtain ⟨-, hm⟩ := C50_midpoints hr hne (List.mem_iff_getElem?.2 ⟨i, hi⟩)
  have hf0 : f = 0 := by
    by_contra hf
    have hf1 : f = 1 := by omega
    subst hf1
    have hv : v = 1 / 2 := by
      rcases hm with ⟨x, hx, y, hy, hxy, _, rfl⟩ | ⟨hc, _⟩
      · simp only [hX, List.mem_cons, List.not_mem_nil, or_false] at hx hy
        rcases hx with rfl | rfl | rfl | rfl <;> rcases hy with rfl | rfl | rfl | rfl <;>
          simp at hxy ⊢
      · have := hc ![0, 0] (by simp [hX]) ![0, 1] (by simp [hX])
        simp at this
    subst hv
    have hc1 : splitCost (X.zip [20000, -20000, 20000, -20000]) (1 : Fin 2) (1 / 2) = 800000000 := by
      rw [hz]
      have hb : below [(![0, 0], (20000 : ℝ)), (![0, 0], -20000), (![0, 1], 20000), (![0, 1], -20000)]
          (1 : Fin 2) (1 / 2) = [(![0, 0], (20000 : ℝ)), (![0, 0], -20000)] := by
        norm_num [below, List.filter_cons]
      have hn : notBelow [(![0, 0], (20000 : ℝ)), (![0, 0], -20000), (![0, 1], 20000), (![0, 1], -20000)]
          (1 : Fin 2) (1 / 2) = [(![0, 1], (20000 : ℝ)), (![0, 1], -20000)] := by
        norm_num [notBelow, List.filter_cons]
      rw [splitCost, hb, hn]
      simp [sideCost, msd, avg]
      norm_num
    rw [hc1] at hcost
    norm_num at hcost
  subst hf0
  have hv0 : v = 0 := by
    rcases hm with ⟨x, hx, y, hy, hxy, _, rfl⟩ | ⟨_, x, hx, rfl⟩
    · simp only [hX, List.mem_cons, List.not_mem_nil, or_false] at hx hy
      rcases hx with rfl | rfl | rfl | rfl <;> rcases hy with rfl | rfl | rfl | rfl <;>
        simp at hxy
    · simp only [hX, List.mem_cons, List.not_mem_nil, or_false] at hx
      rcases hx with rfl | rfl | rfl | rfl <;> simp
  subst hv0
  refine ⟨0, _, he, ?_⟩
  rw [hz]
  simp [below, notBelow]

/-! ### Samples without ties -/

private theorem grown_respects {nf dm sm : ℤ} (hsm : 1 ≤ sm) {root : Bool} {data : List (Row d)}
    {c : ℤ} {t : Tree d} (h : Grown nf dm sm false root data c t)
    (hroot : root = true → 2 ≤ data.length)
    (hd : ∀ f, (data.map (fun p => p.1 f)).Nodup) : Respects t := by
  have proper : ∀ (data : List (Row d)) (f : Fin d) (v : ℝ), data ≠ [] → 2 ≤ data.length →
      (∀ f, (data.map (fun p => p.1 f)).Nodup) → Chosen nf false data f v →
      below data f v ≠ [] ∧ notBelow data f v ≠ [] := by
    intro data f v hne h2 hd hch
    obtain ⟨r, hr, i, hi, _⟩ := hch
    have hX : data.map (·.1) ≠ [] := by simpa using hne
    obtain ⟨_, hm⟩ := C50_midpoints hr hX (List.mem_iff_getElem?.2 ⟨i, hi⟩)
    rcases hm with ⟨x, hx, y, hy, hxy, _, rfl⟩ | ⟨hconst, _⟩
    · obtain ⟨p, hp, rfl⟩ := List.mem_map.1 hx
      obtain ⟨q, hq, rfl⟩ := List.mem_map.1 hy
      exact ⟨List.ne_nil_of_mem (mem_below.2 ⟨hp, by linarith⟩),
        List.ne_nil_of_mem (mem_notBelow.2 ⟨hq, by linarith⟩)⟩
    · exfalso
      obtain ⟨p, q, rest, rfl⟩ : ∃ p q rest, data = p :: q :: rest := by
        match data, h2 with
        | p :: q :: rest, _ => exact ⟨p, q, rest, rfl⟩
      have h1 := hconst p.1 (by simp) q.1 (by simp)
      have h3 := hd f
      simp [h1] at h3
  induction h with
  | small _ _ _ => trivial
  | @degenerate root data _ f v hne hlen hch hdeg _ =>
    have h2 : 2 ≤ data.length := by
      cases root
      · have := hlen rfl
        omega
      · exact hroot rfl
    obtain ⟨h3, h4⟩ := proper data f v hne h2 hd hch
    rcases hdeg with h | h
    · exact absurd h h3
    · exact absurd h h4
  | bottom _ _ _ _ _ _ _ =>
    refine ⟨?_, ?_, trivial, trivial⟩
    · intro p hp
      rw [heldRows_leaf] at hp
      exact (mem_below.1 hp).2
    · intro p hp
      rw [heldRows_leaf] at hp
      exact (mem_notBelow.1 hp).2
  | inner _ _ _ _ _ _ hgl hgr ihl ihr =>
    refine ⟨?_, ?_, ihl (by simp) ?_, ihr (by simp) ?_⟩
    · intro p hp
      exact (mem_below.1 ((grown_mem_heldRows hgl p).1 hp)).2
    · intro p hp
      exact (mem_notBelow.1 ((grown_mem_heldRows hgr p).1 hp)).2
    · intro f
      exact (hd f).sublist (List.filter_sublist.map _)
    · intro f
      exact (hd f).sublist (List.filter_sublist.map _)

/-- C47 in full for samples of at least two rows without ties in any feature, split at midpoints
with `size_min_leaf >= 1`: every training row is in exactly one leaf, on its side of all
thresholds. -/
theorem C47_no_ties {rnd : TreeRnd d} (hr : TreeRndOk rnd) {X : List (Point d)}
    {Y : List ℝ} (hX : 2 ≤ X.length) (hl : X.length = Y.length) {nf : ℤ} (h1 : 1 ≤ nf)
    (hd : nf ≤ d) {dm sm : ℤ} (hsm : 1 ≤ sm) (hties : ∀ f, (X.map (fun x => x f)).Nodup)
    {t : Tree d} (ht : growTree rnd X Y dm sm nf false = .ok t) :
    (leaves t).flatten.Perm (X.zip Y) ∧ Respects t := by
  have hne : X ≠ [] := by rintro rfl; simp at hX
  obtain ⟨t', h, hg⟩ := growTree_grown hr h1 hd dm sm false hne hl
  rw [ht] at h
  cases h
  have hz : (X.zip Y).map (·.1) = X := List.map_fst_zip (by omega)
  have hresp : Respects t := by
    apply grown_respects hsm hg
    · intro _
      rw [List.length_zip]
      omega
    · intro f
      have := hties f
      rw [← hz, List.map_map] at this
      exact this
  exact ⟨grown_perm hg hresp, hresp⟩

example : ∃ t, growTree (d := 1) (fun _ => firstRnd 1) [fun _ => 0, fun _ => 1, fun _ => 5] [3, 4, 9]
    5 1 1 false = .ok t ∧
    (leaves t).flatten.Perm [(fun _ => 0, 3), (fun _ => 1, 4), (fun _ => 5, 9)] := by
  obtain ⟨t, ht⟩ := C48_grows (d := 1) (rnd := fun _ => firstRnd 1) (fun _ => firstRnd_ok 1)
    (X := [fun _ => 0, fun _ => 1, fun _ => 5]) (Y := [3, 4, 9]) (by simp) (by simp) (nf := 1)
    (by norm_num) (by norm_num) 5 1 false
  refine ⟨t, ht, (C47_no_ties (fun _ => firstRnd_ok 1) (by simp) (by simp) (by norm_num)
    (by norm_num) le_rfl (fun f => ?_) ht).1⟩
  norm_num

/-! ### Prediction -/

/-- C49: predicting with a grown tree reads the one leaf whose thresholds the query meets and
returns the mean and the (population) standard deviation of its responses; the mean lies in
the range of the training responses. In a tree without degenerate splits, the leaf reached from
a training input is the one which holds that training pair. -/
theorem C49_routing {rnd : TreeRnd d} (hr : TreeRndOk rnd) {X : List (Point d)} {Y : List ℝ}
    (hX : X ≠ []) (hl : X.length = Y.length) {nf : ℤ} (h1 : 1 ≤ nf) (hd : nf ≤ d) {dm sm : ℤ}
    {rl : Bool} {t : Tree d} (ht : growTree rnd X Y dm sm nf rl = .ok t) (x : Point d) :
    ∃ L, Reaches x t L ∧ L ∈ leaves t ∧ L ≠ [] ∧
      predictByTree x t =
        .ok (avg (L.map (·.2)), Real.sqrt (msd (avg (L.map (·.2))) (L.map (·.2)))) ∧
      (∀ lo hi, (∀ y ∈ Y, lo ≤ y ∧ y ≤ hi) →
        lo ≤ avg (L.map (·.2)) ∧ avg (L.map (·.2)) ≤ hi) ∧
      (Respects t → ∀ p ∈ X.zip Y, p.1 = x → p ∈ L) := by
  obtain ⟨t', h, hg⟩ := growTree_grown hr h1 hd dm sm rl hX hl
  rw [ht] at h
  cases h
  obtain ⟨L, hL, hmem⟩ := exists_reaches x t
  have hne := grown_leaves_ne_nil hg L hmem
  refine ⟨L, hL, hmem, hne, predictByTree_eq hL hne (grown_not_leaf hg), ?_, ?_⟩
  · intro lo hi hY
    apply avg_bounds (by simpa using hne)
    intro y hy
    obtain ⟨p, hp, rfl⟩ := List.mem_map.1 hy
    have : p ∈ X.zip Y := (grown_mem_heldRows hg p).1 (List.mem_flatten.2 ⟨L, hmem, hp⟩)
    exact hY _ (List.of_mem_zip this).2
  · intro hresp p hp hx
    exact reaches_mem_of_respects hL hresp ((grown_mem_heldRows hg p).2 hp) hx

/-- C49: in a sample without ties the tree grown at midpoints interpolates the leaf means at the
training inputs: the leaf reached from `x_i` holds the pair `(x_i, y_i)`. -/
theorem C49_training_input {rnd : TreeRnd d} (hr : TreeRndOk rnd) {X : List (Point d)}
    {Y : List ℝ} (hX : 2 ≤ X.length) (hl : X.length = Y.length) {nf : ℤ} (h1 : 1 ≤ nf)
    (hd : nf ≤ d) {dm sm : ℤ} (hsm : 1 ≤ sm) (hties : ∀ f, (X.map (fun x => x f)).Nodup)
    {t : Tree d} (ht : growTree rnd X Y dm sm nf false = .ok t) {p : Row d} (hp : p ∈ X.zip Y) :
    ∃ L, Reaches p.1 t L ∧ p ∈ L := by
  have hne : X ≠ [] := by rintro rfl; simp at hX
  obtain ⟨L, h2, _, _, _, _, h3⟩ := C49_routing hr hne hl h1 hd ht p.1
  exact ⟨L, h2, h3 (C47_no_ties hr hX hl h1 hd hsm hties ht).2 p hp rfl⟩

/-- C51: the forest's mean is the average of the leaf means, and its deviation is the standard
deviation of drawing a tree and then one response of the leaf reached in it. -/
theorem C51_mixture {x : Point d} {trees : List (Tree d)} (hne : trees ≠ [])
    {L : Tree d → List (Row d)} (hroot : ∀ t ∈ trees, ∃ f v l r, t = .node f v l r)
    (hL : ∀ t ∈ trees, Reaches x t (L t) ∧ L t ≠ []) :
    ∃ mu sigma, predictByTreesOne x trees = .ok (mu, sigma) ∧
      mu = avg (trees.map (fun t => avg ((L t).map (·.2)))) ∧ 0 ≤ sigma ∧
      sigma ^ 2 = avg (trees.map (fun t => msd mu ((L t).map (·.2)))) ∧
      sigma ^ 2 = avg (trees.map (fun t => msd (avg ((L t).map (·.2))) ((L t).map (·.2)))) +
        msd mu (trees.map (fun t => avg ((L t).map (·.2)))) := by
  refine ⟨_, _, predictByTreesOne_eq hne hroot hL rfl, rfl, Real.sqrt_nonneg _, ?_, ?_⟩
  · rw [Real.sq_sqrt]
    unfold avg
    apply div_nonneg _ (by positivity)
    apply List.sum_nonneg
    intro y hy
    obtain ⟨t, _, rfl⟩ := List.mem_map.1 hy
    exact msd_nonneg _ _
  · rw [Real.sq_sqrt]
    · rw [msd, List.map_map]
      rw [← avg_map_add]
      congr 1
      apply List.map_congr_left
      intro t ht
      exact msd_eq (by simpa using (hL t ht).2) _
    · unfold avg
      apply div_nonneg _ (by positivity)
      apply List.sum_nonneg
      intro y hy
      obtain ⟨t, _, rfl⟩ := List.mem_map.1 hy
      exact msd_nonneg _ _

/-- Two trees of one decision: leaf means 1 and 4 at the query 0. -/
example : ∃ mu sigma, predictByTreesOne (d := 1) (fun _ => 0)
    [.node 0 1 (.leaf [(fun _ => 0, 0), (fun _ => 0, 2)]) (.leaf [(fun _ => 3, 7)]),
     .node 0 (-1) (.leaf [(fun _ => -2, 5)]) (.leaf [(fun _ => 0, 4)])] = .ok (mu, sigma) ∧
    mu = 5 / 2 ∧ sigma ^ 2 = 11 / 4 := by
  obtain ⟨mu, sigma, h, hm, _, hs, _⟩ := C51_mixture (d := 1) (x := fun _ => 0)
    (trees := [.node 0 1 (.leaf [(fun _ => 0, 0), (fun _ => 0, 2)]) (.leaf [(fun _ => 3, 7)]),
     .node 0 (-1) (.leaf [(fun _ => -2, 5)]) (.leaf [(fun _ => 0, 4)])]) (by simp)
    (L := fun t => match t with
      | .node _ _ (.leaf [_]) (.leaf r) => r
      | .node _ _ (.leaf l) _ => l
      | _ => []) (by simp) (by
      simp only [List.mem_cons, List.not_mem_nil, or_false, forall_eq_or_imp, forall_eq]
      exact ⟨⟨.left (by norm_num) (.leaf _), by simp⟩, ⟨.right (by norm_num) (.leaf _), by simp⟩⟩)
  refine ⟨mu, sigma, h, ?_, ?_⟩
  · rw [hm]; norm_num [avg]
  · rw [hs, hm]; norm_num [avg, msd]

/-! ### Chunked prediction -/

/-- C52: predicting in chunks is predicting row by row, whatever the number of rows (including
the first exception, if a row raises one). -/
theorem C52_rowwise (X : List (Point d)) (trees : List (Tree d)) :
    predictByTrees X trees = (do
      let preds ← X.mapM (fun bx => predictByTreesOne bx trees)
      return (preds.map (·.1), preds.map (·.2))) := by
  unfold predictByTrees
  by_cases h : X.length ≤ Constants.NUM_DATA_PER_SPLIT_TREES
  · simp only [h, if_true]
    rfl
  · simp only [h, if_false]
    set k := ⌈(X.length : ℚ) / Constants.NUM_DATA_PER_SPLIT_TREES⌉₊ with hk
    have hkpos : 0 < k := by
      rw [hk, Nat.ceil_pos]
      simp only [Constants.NUM_DATA_PER_SPLIT_TREES] at h ⊢
      have : (0 : ℚ) < X.length := by
        have : 0 < X.length := by omega
        exact_mod_cast this
      positivity
    have hflat : (arraySplit X k).flatten = X :=
      flatten_cutSizes _ _ (arraySplitSizes_sum hkpos)
    conv_rhs => rw [← hflat, mapM_flatten]
    have hu : (fun Xs => unitPredictByTrees Xs trees) = (fun Xs => do
        let preds ← List.mapM (fun bx => predictByTreesOne bx trees) Xs
        return (preds.map (·.1), preds.map (·.2))) := by
      funext Xs
      rfl
    rw [hu, mapM_map_ok]
    cases (arraySplit X k).mapM (fun l => l.mapM (fun bx => predictByTreesOne bx trees)) with
    | error e => rfl
    | ok rs =>
      simp only [bind, Except.bind, pure, Except.pure, List.map_map, List.map_flatten,
        Function.comp_def]

/-- C52: the chunks have at most 100 rows each. -/
theorem C52_chunks (X : List (Point d)) (h : 100 < X.length) :
    ∀ c ∈ arraySplit X ⌈(X.length : ℚ) / 100⌉₊, c.length ≤ 100 := by
  set k := ⌈(X.length : ℚ) / 100⌉₊ with hk
  have hkpos : 0 < k := by
    rw [hk, Nat.ceil_pos]
    have : (0 : ℚ) < X.length := by
      have : 0 < X.length := by omega
      exact_mod_cast this
    positivity
  have hle : X.length ≤ 100 * k := by
    have := Nat.le_ceil ((X.length : ℚ) / 100)
    rw [← hk, div_le_iff₀ (by norm_num)] at this
    have h2 : X.length ≤ k * 100 := by exact_mod_cast this
    omega
  have hcut : ∀ (s : List ℕ) (l : List (Point d)), ∀ c ∈ cutSizes s l, ∃ a ∈ s, c.length ≤ a := by
    intro s
    induction s with
    | nil => intro l c hc; simp [cutSizes] at hc
    | cons a t ih =>
      intro l c hc
      rw [cutSizes] at hc
      rcases List.mem_cons.1 hc with rfl | hc
      · exact ⟨a, by simp, by simp⟩
      · obtain ⟨b, hb, hcb⟩ := ih _ c hc
        exact ⟨b, by simp [hb], hcb⟩
  intro c hc
  obtain ⟨a, ha, hca⟩ := hcut _ _ c hc
  refine hca.trans ?_
  unfold arraySplitSizes at ha
  rcases List.mem_append.1 ha with h' | h'
  · obtain ⟨hne, rfl⟩ := List.mem_replicate.1 h'
    have : X.length / k < 100 := by
      rw [Nat.div_lt_iff_lt_mul hkpos]
      rcases Nat.lt_or_ge X.length (100 * k) with h2 | h2
      · exact h2
      · exfalso
        have : X.length = 100 * k := by omega
        rw [this] at hne
        simp at hne
    omega
  · obtain ⟨_, rfl⟩ := List.mem_replicate.1 h'
    calc X.length / k ≤ (100 * k) / k := Nat.div_le_div_right hle
      _ = 100 := Nat.mul_div_cancel _ hkpos

/-! ### Bootstrap samples -/

theorem takeRows_ok {α : Type _} {X : List α} : ∀ {idx : List ℕ},
    (∀ i ∈ idx, i < X.length) → ∃ X', takeRows X idx = .ok X' ∧ X'.length = idx.length ∧
      ∀ (j i : ℕ), idx[j]? = some i → X'[j]? = X[i]?
  | [], _ => ⟨[], rfl, rfl, by simp⟩
  | a :: t, h => by
    obtain ⟨X', h1, h2, h3⟩ := takeRows_ok (X := X) (idx := t) (fun i hi => h i (by simp [hi]))
    have ha : a < X.length := h a (by simp)
    refine ⟨X[a] :: X', ?_, by simp [h2], ?_⟩
    · unfold takeRows at h1 ⊢
      rw [List.mapM_cons, h1]
      simp [pyIndex, ha, bind, Except.bind, pure, Except.pure]
    · intro j i hj
      cases j with
      | zero =>
        simp at hj
        subst hj
        simp [ha]
      | succ j => simpa using h3 j i (by simpa using hj)

/-- C53: a bootstrap sample exists exactly for paired data and an admissible ratio; it has
`int(n * ratio)` rows, and row `j` is the pair `(x_i, y_i)` of one drawn index `i`, the drawn
indices being distinct without replacement. -/
theorem C53_paired {choice : ℕ → ℕ → List ℕ} {replace : Bool} (hc : SampleOk choice replace)
    {X : List (Point d)} {Y : List ℝ} (hl : X.length = Y.length) (hX : X ≠ []) {ratio : ℝ}
    (h0 : 0 < ratio) (h1 : replace = false → ratio ≤ 1) :
    ∃ (X' : List (Point d)) (Y' : List ℝ) (idx : List ℕ), subsample choice X Y ratio replace = .ok (X', Y') ∧
      X'.length = ⌊X.length * ratio⌋₊ ∧ Y'.length = X'.length ∧ idx.length = X'.length ∧
      (∀ (j i : ℕ), idx[j]? = some i →
        i < X.length ∧ X'[j]? = X[i]? ∧ Y'[j]? = Y[i]?) ∧
      (replace = false → idx.Nodup) := by
  have hpos : 0 < X.length := List.length_pos_iff.2 hX
  set k := ⌊(X.length : ℝ) * ratio⌋₊ with hk
  have hkle : replace = false → k ≤ X.length := by
    intro hr
    have : (X.length : ℝ) * ratio ≤ X.length := by
      have := h1 hr
      have hp : (0 : ℝ) < X.length := by exact_mod_cast hpos
      nlinarith
    calc k ≤ ⌊(X.length : ℝ)⌋₊ := Nat.floor_le_floor this
      _ = X.length := Nat.floor_natCast _
  obtain ⟨X', a1, a2, a3⟩ := takeRows_ok (X := X) (idx := choice X.length k) (hc.lt _ _ hpos hkle)
  obtain ⟨Y', b1, b2, b3⟩ := takeRows_ok (X := Y) (idx := choice X.length k)
    (fun i hi => hl ▸ hc.lt _ _ hpos hkle i hi)
  have hlen := hc.length X.length k hpos hkle
  refine ⟨X', Y', choice X.length k, ?_, by omega, by omega, by omega, ?_, ?_⟩
  · have hcond : ¬ ((X.length = 0 ∧ k > 0) ∨ (replace = false ∧ k > X.length)) := by
      rintro (⟨h, _⟩ | ⟨h, h'⟩)
      · omega
      · have := hkle h
        omega
    cases replace
    · have := h1 rfl
      simp only [subsample, pyAssert, hl, if_true, h0, this, and_self, Bool.false_eq_true, if_false,
        bind, Except.bind, pure, Except.pure]
      rw [← hl, ← hk, if_neg (by simpa using hcond), a1, b1]
    · simp only [subsample, pyAssert, hl, if_true, h0, gt_iff_lt,
        bind, Except.bind, pure, Except.pure]
      rw [← hl, ← hk, if_neg (by simpa using hcond), a1, b1]
  · intro j i hj
    exact ⟨hc.lt _ _ hpos hkle i (List.mem_iff_getElem?.2 ⟨j, hj⟩), a3 j i hj, b3 j i hj⟩
  · intro hr
    exact hc.nodup hr _ _ hpos (hkle hr)

/-- A sample of two rows out of four without replacement. -/
example : ∃ X' Y', subsample (d := 1) (fun _ k => List.range k)
    [fun _ => 1, fun _ => 2, fun _ => 3, fun _ => 4] [5, 6, 7, 8] (1 / 2) false = .ok (X', Y') := by
  have : ⌊((4 : ℕ) : ℝ) * (1 / 2)⌋₊ = 2 := by norm_num
  refine ⟨[fun _ => 1, fun _ => 2], [5, 6], ?_⟩
  simp only [subsample, pyAssert, List.length_cons, List.length_nil, bind, Except.bind, pure,
    Except.pure]
  norm_num at this ⊢
  simp [this, takeRows, pyIndex, List.range_succ, bind, Except.bind, pure, Except.pure]

/-! ### Forests -/

theorem mapM_range_ok {β : Type _} (g : ℕ → Py β) (P : ℕ → β → Prop) (n : ℕ)
    (h : ∀ k, ∃ b, g k = .ok b ∧ P k b) :
    ∃ l, (List.range n).mapM g = .ok l ∧ l.length = n ∧
      ∀ (k : ℕ) b, l[k]? = some b → P k b := by
  choose f hf hP using h
  refine ⟨(List.range n).map f, mapM_ok _ _ _ (fun k _ => hf k), by simp, ?_⟩
  intro k b hb
  rw [List.getElem?_map] at hb
  obtain ⟨j, hj, rfl⟩ := Option.map_eq_some_iff.1 hb
  have : j = k := by
    rcases Nat.lt_or_ge k n with hkn | hkn
    · rw [List.getElem?_range hkn] at hj; simpa using hj.symm
    · rw [List.getElem?_eq_none (by simpa using hkn)] at hj; cases hj
  subst this
  exact hP j

/-- What the properties below need of a forest over `(X, Y)`: its trees start with a decision,
and their leaves are non-empty and hold training pairs only. -/
structure SoundForest (X : List (Point d)) (Y : List ℝ) (dm : ℤ) (trees : List (Tree d)) : Prop where
  root : ∀ t ∈ trees, ∃ f v l r, t = .node f v l r
  leaves_ne : ∀ t ∈ trees, ∀ L ∈ leaves t, L ≠ []
  from_data : ∀ t ∈ trees, ∀ L ∈ leaves t, ∀ p ∈ L, p ∈ X.zip Y
  depth_le : ∀ t ∈ trees, (depth t : ℤ) ≤ max dm 1

theorem mem_zip_of_getElem? {α β : Type _} {X : List α} {Y : List β} {p : α × β} {i : ℕ}
    (h1 : X[i]? = some p.1) (h2 : Y[i]? = some p.2) : p ∈ X.zip Y := by
  rw [List.mem_iff_getElem?]
  exact ⟨i, by rw [List.getElem?_zip_eq_some]; exact ⟨h1, h2⟩⟩

private theorem boot_tree {choice : ℕ → ℕ → List ℕ} {replace : Bool} (hc : SampleOk choice replace)
    {rnd : TreeRnd d} (hr : TreeRndOk rnd) {X : List (Point d)} {Y : List ℝ}
    (hl : X.length = Y.length) (hX : X ≠ []) {ratio : ℝ} (h0 : 0 < ratio)
    (h1 : replace = false → ratio ≤ 1) (hk : 1 ≤ ⌊X.length * ratio⌋₊) {nf : ℤ} (hn1 : 1 ≤ nf)
    (hnd : nf ≤ d) (dm sm : ℤ) (rl : Bool) :
    ∃ X' Y' t, subsample choice X Y ratio replace = .ok (X', Y') ∧
      growTree rnd X' Y' dm sm nf rl = .ok t ∧ SoundForest X Y dm [t] := by
  obtain ⟨X', Y', idx, hs, hlen, hYX, hidx, hpair, _⟩ := C53_paired hc hl hX h0 h1
  have hX' : X' ≠ [] := by
    rintro rfl
    rw [List.length_nil] at hlen
    omega
  obtain ⟨t, ht⟩ := C48_grows hr hX' hYX.symm hn1 hnd dm sm rl
  obtain ⟨t', ht', hg⟩ := growTree_grown hr hn1 hnd dm sm rl hX' hYX.symm
  rw [ht] at ht'
  cases ht'
  refine ⟨X', Y', t, hs, ht, ?_, ?_, ?_, ?_⟩
  · intro t' h
    rw [List.mem_singleton.1 h]
    exact grown_not_leaf hg
  · intro t' h
    rw [List.mem_singleton.1 h]
    exact grown_leaves_ne_nil hg
  · intro t' h L hL p hp
    rw [List.mem_singleton.1 h] at hL
    have hmem := (grown_mem_heldRows hg p).1 (List.mem_flatten.2 ⟨L, hL, hp⟩)
    obtain ⟨j, hj⟩ := List.mem_iff_getElem?.1 hmem
    rw [List.getElem?_zip_eq_some] at hj
    have hjl : j < X'.length := (List.getElem?_eq_some_iff.1 hj.1).1
    obtain ⟨_, e1, e2⟩ := hpair j (idx[j]) (List.getElem?_eq_getElem (by omega))
    exact mem_zip_of_getElem? (by rw [← e1]; exact hj.1) (by rw [← e2]; exact hj.2)
  · intro t' h
    rw [List.mem_singleton.1 h]
    exact (C48_depth hr hX' hYX.symm hn1 hnd ht).2.1

theorem soundForest_of_all {X : List (Point d)} {Y : List ℝ} {dm : ℤ}
    {trees : List (Tree d)} (h : ∀ t ∈ trees, SoundForest X Y dm [t]) : SoundForest X Y dm trees where
  root t ht := (h t ht).root t (by simp)
  leaves_ne t ht := (h t ht).leaves_ne t (by simp)
  from_data t ht := (h t ht).from_data t (by simp)
  depth_le t ht := (h t ht).depth_le t (by simp)

/-- C53/C48: `get_generic_trees` succeeds as soon as a bootstrap sample has a row and there is a
feature to draw; it returns `num_trees` trees whose leaves are non-empty and hold rows of the
data only. -/
theorem C53_generic_trees {rnd : ForestRnd d} {replace : Bool} (hr : ForestRndOk rnd replace)
    {X : List (Point d)} {Y : List ℝ}
    (hl : X.length = Y.length) (hX : X ≠ []) {ratio : ℝ} (h0 : 0 < ratio)
    (h1 : replace = false → ratio ≤ 1) (hk : 1 ≤ X.length * ratio) {nf : ℤ} (hn1 : 1 ≤ nf)
    (hnd : nf ≤ d) (num : ℕ) (dm sm : ℤ) (rl : Bool) :
    ∃ trees, getGenericTrees rnd X Y num dm sm ratio replace nf rl = .ok trees ∧
      trees.length = num ∧ SoundForest X Y dm trees := by
  have hk' : 1 ≤ ⌊X.length * ratio⌋₊ := Nat.le_floor (by simpa using hk)
  obtain ⟨trees, ht, hlen, hP⟩ := mapM_range_ok (fun k => do
      let (X_, Y_) ← subsample (rnd.sample k) X Y ratio replace
      growTree (rnd.tree k) X_ Y_ dm sm nf rl) (fun _ t => SoundForest X Y dm [t]) num (by
    intro k
    obtain ⟨X', Y', t, hs, ht, hsound⟩ :=
      boot_tree (hr.sample k) (hr.tree k) hl hX h0 h1 hk' hn1 hnd dm sm rl
    refine ⟨t, ?_, hsound⟩
    simp only [hs, bind, Except.bind]
    exact ht)
  refine ⟨trees, ?_, hlen, soundForest_of_all (fun t hm => ?_)⟩
  · cases replace
    · have := h1 rfl
      simp only [getGenericTrees, pyAssert, hl, if_true, h0, this, and_self, Bool.false_eq_true,
        if_false, Int.toNat_natCast]
      exact ht
    · simp only [getGenericTrees, pyAssert, hl, if_true, h0, gt_iff_lt, Int.toNat_natCast]
      exact ht
  · obtain ⟨k, hk⟩ := List.mem_iff_getElem?.1 hm
    exact hP k t hk

/-- C53/C48: `get_random_forest` succeeds on every non-empty data set with a feature to draw. -/
theorem C53_random_forest {rnd : ForestRnd d} (hr : ForestRndOk rnd true)
    {X : List (Point d)} {Y : List ℝ} (hl : X.length = Y.length) (hX : X ≠ []) {nf : ℤ}
    (hn1 : 1 ≤ nf) (hnd : nf ≤ d) (num : ℕ) (dm sm : ℤ) :
    ∃ trees, getRandomForest rnd X Y num dm sm nf = .ok trees ∧
      trees.length = num ∧ SoundForest X Y dm trees := by
  have hpos : 0 < X.length := List.length_pos_iff.2 hX
  have hk' : 1 ≤ ⌊(X.length : ℝ) * 1⌋₊ := by
    apply Nat.le_floor
    have : (1 : ℝ) ≤ X.length := by exact_mod_cast hpos
    simpa using this
  obtain ⟨trees, ht, hlen, hP⟩ := mapM_range_ok (fun k => do
      let (X_, Y_) ← subsample (rnd.sample k) X Y 1 true
      growTree (rnd.tree k) X_ Y_ dm sm nf false) (fun _ t => SoundForest X Y dm [t]) num (by
    intro k
    obtain ⟨X', Y', t, hs, ht, hsound⟩ :=
      boot_tree (hr.sample k) (hr.tree k) hl hX one_pos (by simp) hk' hn1 hnd dm sm false
    refine ⟨t, ?_, hsound⟩
    simp only [hs, bind, Except.bind]
    exact ht)
  refine ⟨trees, ?_, hlen, soundForest_of_all (fun t hm => ?_)⟩
  · simp only [getRandomForest, pyAssert, hl, if_true, Int.toNat_natCast]
    exact ht
  · obtain ⟨k, hk⟩ := List.mem_iff_getElem?.1 hm
    exact hP k t hk

/-- C53: a ratio too small for a single row makes `get_generic_trees` fail: the empty sample is
refused by `_split`. -/
theorem C53_too_few_rows {rnd : ForestRnd d} {replace : Bool} (hr : ForestRndOk rnd replace)
    {X : List (Point d)} {Y : List ℝ} (hl : X.length = Y.length) (hX : X ≠ []) {ratio : ℝ}
    (h0 : 0 < ratio) (hk : X.length * ratio < 1) {num : ℕ} (hnum : 1 ≤ num)
    (dm sm nf : ℤ) (rl : Bool) :
    getGenericTrees rnd X Y num dm sm ratio replace nf rl = .error .assertion := by
  have hpos : (1 : ℝ) ≤ X.length := by exact_mod_cast List.length_pos_iff.2 hX
  have hr1 : ratio ≤ 1 := by nlinarith
  obtain ⟨X', Y', idx, hs, hlen, hYX, _⟩ := C53_paired (hr.sample 0) hl hX h0 (fun _ => hr1)
  have hfl : ⌊X.length * ratio⌋₊ = 0 := Nat.floor_eq_zero.2 hk
  have hX' : X' = [] := List.length_eq_zero_iff.1 (by rw [hlen, hfl])
  have hY' : Y' = [] := List.length_eq_zero_iff.1 (by rw [hYX, hX']; rfl)
  subst hX' hY'
  obtain ⟨m, rfl⟩ : ∃ m, num = m + 1 := ⟨num - 1, by omega⟩
  have hrest : (List.range (m + 1)).mapM (fun k => do
      let (X_, Y_) ← subsample (rnd.sample k) X Y ratio replace
      growTree (rnd.tree k) X_ Y_ dm sm nf rl) = .error .assertion := by
    rw [List.range_succ_eq_map, List.mapM_cons]
    simp [hs, bind, Except.bind, C48_empty]
  cases replace
  · simp only [getGenericTrees, pyAssert, hl, if_true, h0, hr1, and_self, Bool.false_eq_true,
      if_false, Int.toNat_natCast]
    exact hrest
  · simp only [getGenericTrees, pyAssert, hl, if_true, h0, gt_iff_lt, Int.toNat_natCast]
    exact hrest

/-- C51: a non-empty sound forest predicts at every query: the mean lies in the range of the
training responses, and the deviation is between 0 and half the width of that range. -/
theorem C51_range {X : List (Point d)} {Y : List ℝ} {dm : ℤ} {trees : List (Tree d)}
    (hf : SoundForest X Y dm trees) (hne : trees ≠ []) {lo hi : ℝ} (hY : ∀ y ∈ Y, lo ≤ y ∧ y ≤ hi)
    (x : Point d) : ∃ mu sigma, predictByTreesOne x trees = .ok (mu, sigma) ∧
      lo ≤ mu ∧ mu ≤ hi ∧ 0 ≤ sigma ∧ sigma ≤ (hi - lo) / 2 := by
  choose L hL using fun t => exists_reaches x t
  have hleaf : ∀ t ∈ trees, Reaches x t (L t) ∧ L t ≠ [] :=
    fun t ht => ⟨(hL t).1, hf.leaves_ne t ht _ (hL t).2⟩
  obtain ⟨mu, sigma, h, hmu, hs0, hs, _⟩ := C51_mixture hne hf.root hleaf
  have hrange : ∀ t ∈ trees, ∀ y ∈ (L t).map (·.2), lo ≤ y ∧ y ≤ hi := by
    intro t ht y hy
    obtain ⟨p, hp, rfl⟩ := List.mem_map.1 hy
    exact hY _ (List.of_mem_zip (hf.from_data t ht _ (hL t).2 p hp)).2
  have hmean : lo ≤ mu ∧ mu ≤ hi := by
    rw [hmu]
    apply avg_bounds (by simpa using hne)
    intro m hm
    obtain ⟨t, ht, rfl⟩ := List.mem_map.1 hm
    exact avg_bounds (by simpa using (hleaf t ht).2) (hrange t ht)
  refine ⟨mu, sigma, h, hmean.1, hmean.2, hs0, ?_⟩
  -- variance is at most the mean squared distance from the middle of the range
  have hmid : sigma ^ 2 ≤ ((hi - lo) / 2) ^ 2 := by
    set c := (hi + lo) / 2 with hc
    have e : ∀ t ∈ trees, msd c ((L t).map (·.2)) ≤ ((hi - lo) / 2) ^ 2 := by
      intro t ht
      have := avg_bounds (l := ((L t).map (·.2)).map (fun y => (y - c) ^ 2))
        (by simpa using (hleaf t ht).2) (a := 0) (b := ((hi - lo) / 2) ^ 2) (by
          intro z hz
          obtain ⟨y, hy, rfl⟩ := List.mem_map.1 hz
          obtain ⟨h1, h2⟩ := hrange t ht y hy
          refine ⟨by positivity, ?_⟩
          apply sq_le_sq'
          · rw [hc]; linarith
          · rw [hc]; linarith)
      exact this.2
    have e2 : avg (trees.map (fun t => msd c ((L t).map (·.2)))) ≤ ((hi - lo) / 2) ^ 2 := by
      refine (avg_bounds (a := 0) (by simpa using hne) ?_).2
      intro z hz
      obtain ⟨t, ht, rfl⟩ := List.mem_map.1 hz
      exact ⟨msd_nonneg _ _, e t ht⟩
    have e3 : avg (trees.map (fun t => msd c ((L t).map (·.2)))) =
        sigma ^ 2 + (mu - c) ^ 2 := by
      have k1 : ∀ t ∈ trees, msd c ((L t).map (·.2)) =
          msd mu ((L t).map (·.2)) + (2 * (mu - c) * avg ((L t).map (·.2)) +
            (c ^ 2 - mu ^ 2)) := by
        intro t ht
        have hn : (L t).map (·.2) ≠ [] := by simpa using (hleaf t ht).2
        rw [msd_eq hn c, msd_eq hn mu]
        ring
      rw [List.map_congr_left k1, avg_map_add, ← hs]
      have hpos : (0 : ℝ) < trees.length := by exact_mod_cast List.length_pos_iff.2 hne
      have k2 : avg (trees.map (fun t => 2 * (mu - c) * avg ((L t).map (·.2)) + (c ^ 2 - mu ^ 2))) =
          2 * (mu - c) * mu + (c ^ 2 - mu ^ 2) := by
        rw [avg_map_add]
        congr 1
        · have k3 : ∀ (a : ℝ) (g : Tree d → ℝ), avg (trees.map (fun t => a * g t)) =
              a * avg (trees.map g) := by
            intro a g
            simp only [avg, List.length_map, List.sum_map_mul_left]
            ring
          rw [k3, ← hmu]
        · have k4 : ∀ a : ℝ, avg (trees.map (fun _ => a)) = a := by
            intro a
            simp only [avg, List.length_replicate, List.map_const', List.sum_replicate, nsmul_eq_mul]
            field_simp
          exact k4 _
      rw [k2]
      ring
    have := sq_nonneg (mu - c)
    linarith
  have hw : 0 ≤ (hi - lo) / 2 := by linarith [hmean.1, hmean.2]
  exact abs_le_of_sq_le_sq' hmid hw |>.2

/-- The forest of the default settings on three points predicts everywhere. -/
example (x : Point 1) : ∃ trees mu sigma,
    getRandomForest (d := 1) ⟨fun _ _ k => List.replicate k 0, fun _ _ => firstRnd 1⟩
      [fun _ => 0, fun _ => 1, fun _ => 5] [3, 4, 9] (10 : ℕ) 5 1 1 = .ok trees ∧
    predictByTreesOne x trees = .ok (mu, sigma) ∧ 3 ≤ mu ∧ mu ≤ 9 := by
  obtain ⟨trees, h1, h2, h3⟩ := C53_random_forest (d := 1)
    (rnd := ⟨fun _ _ k => List.replicate k 0, fun _ _ => firstRnd 1⟩)
    ⟨fun _ => ⟨by simp, fun n k hn _ i hi => by rw [(List.mem_replicate.1 hi).2]; exact hn, by simp⟩,
      fun _ _ => firstRnd_ok 1⟩
    (X := [fun _ => 0, fun _ => 1, fun _ => 5]) (Y := [3, 4, 9]) (by simp) (by simp) (nf := 1)
    (by norm_num) (by norm_num) 10 5 1
  obtain ⟨mu, sigma, h, hl, hu, _⟩ := C51_range h3 (by rintro rfl; simp at h2) (lo := 3) (hi := 9)
    (by norm_num) x
  exact ⟨trees, mu, sigma, h1, h, hl, hu⟩

end Verif.Props
