import Verif.Props.OverflowTrees

/-!
# What trees and forests reject, also under rounding and overflow (C53, C137, C143)

The theorems of `Trees.lean`, `RoundedTrees.lean` and `OverflowTrees.lean` are about inputs that are accepted; these
are about the others.
-/

namespace Verif.Props

open Verif.Spec Verif.Lemmas
open Verif.Trees (Row Tree NodeRnd TreeRnd ForestRnd)
open Verif.RoundedTrees (Orders)

variable {d : ℕ} {fl : ℝ → ℝ} {o : Orders}

/-- Numbers of rows or a ratio that the assertions of `get_generic_trees` and `subsample` reject. -/
def BadSample (n m : ℕ) (ratio : ℝ) (replace : Bool) : Prop :=
  n ≠ m ∨ ratio ≤ 0 ∨ (replace = false ∧ 1 < ratio)

private theorem ite_gt {α : Type} {ratio : ℝ} {replace : Bool} (F : Py α)
    (h : ratio ≤ 0 ∨ (replace = false ∧ 1 < ratio)) :
    (do
      if replace = true then pyAssert (ratio > 0) else pyAssert (0 < ratio ∧ ratio ≤ 1)
      F) = .error .assertion := by
  rcases h with h | ⟨rfl, h⟩
  · cases replace <;> simp [pyAssert, not_lt.2 h, bind, Except.bind]
  · simp [pyAssert, not_le.2 h, bind, Except.bind]

/-- C53: bad numbers of rows and bad ratios are an `AssertionError`; so are rows to split of different
numbers, and none at all; numbers of features that cannot be drawn are a `ValueError`. -/
theorem C53_rejects (X : List (Point d)) (Y : List ℝ) (rl : Bool) :
    (∀ ratio replace, BadSample X.length Y.length ratio replace →
      (∀ choice, Trees.subsample choice X Y ratio replace = .error .assertion) ∧
      ∀ rnd num dm sm nf, Trees.getGenericTrees rnd X Y num dm sm ratio replace nf rl =
        .error .assertion) ∧
    (X.length ≠ Y.length ∨ X = [] → ∀ rnd dm sm nf,
      Trees.growTree rnd X Y dm sm nf rl = .error .assertion) ∧
    (X.length = Y.length → X ≠ [] → ∀ nf : ℤ, nf < 0 ∨ (d : ℤ) < nf → ∀ rnd dm sm,
      Trees.growTree rnd X Y dm sm nf rl = .error .value) := by
  refine ⟨?_, ?_, ?_⟩
  · rintro ratio replace (h | h)
    · exact ⟨fun choice => by simp [Trees.subsample, pyAssert, h, bind, Except.bind],
        fun rnd num dm sm nf => by simp [Trees.getGenericTrees, pyAssert, h, bind, Except.bind]⟩
    · by_cases hl : X.length = Y.length
      · constructor
        · intro choice
          simp only [Trees.subsample, pyAssert, hl, if_true]
          exact ite_gt _ h
        · intro rnd num dm sm nf
          simp only [Trees.getGenericTrees, pyAssert, hl, if_true]
          exact ite_gt _ h
      · exact ⟨fun choice => by simp [Trees.subsample, pyAssert, hl, bind, Except.bind],
          fun rnd num dm sm nf => by simp [Trees.getGenericTrees, pyAssert, hl, bind, Except.bind]⟩
  · rintro (h | h) rnd dm sm nf
    · simp [Trees.growTree, Trees.splitNode, pyAssert, h, bind, Except.bind]
    · subst h
      by_cases hl : ([] : List (Point d)).length = Y.length <;>
        simp_all [Trees.growTree, Trees.splitNode, pyAssert, bind, Except.bind]
  · intro hl hX nf hn rnd dm sm
    have hp : 0 < Y.length := hl ▸ List.length_pos_iff.2 hX
    simp only [Trees.growTree, Trees.splitNode, pyAssert, hl, gt_iff_lt, hp, hn, if_true, bind,
      Except.bind]

/-- Two rows and one response; three features of two. -/
example : Trees.getGenericTrees (d := 1) ⟨fun _ _ k => List.range k, fun _ _ => firstRnd 1⟩
      [fun _ => 0, fun _ => 1] [3] 1 5 1 1 true 1 false = .error .assertion ∧
    Trees.growTree (d := 2) (fun _ => firstRnd 2) [fun _ => 0] [7] 5 1 3 false = .error .value :=
  ⟨((C53_rejects _ _ false).1 1 true (.inl (by simp))).2 _ _ _ _ _,
    (C53_rejects _ _ _).2.2 rfl (by simp) 3 (.inr (by norm_num)) _ _ _⟩

/-- C137: bad numbers of rows and bad ratios are an `AssertionError`; so are rows to split of different
numbers, and none at all; numbers of features that cannot be drawn are a `ValueError`. -/
theorem C137_rejects (X : List (Point d)) (Y : List ℝ) (rl : Bool) :
    (∀ ratio replace, BadSample X.length Y.length ratio replace →
      (∀ choice, RoundedTrees.subsample fl choice X Y ratio replace = .error .assertion) ∧
      ∀ rnd num dm sm nf, RoundedTrees.getGenericTrees fl o rnd X Y num dm sm ratio replace nf rl =
        .error .assertion) ∧
    (X.length ≠ Y.length ∨ X = [] → ∀ rnd dm sm nf,
      RoundedTrees.growTree fl o rnd X Y dm sm nf rl = .error .assertion) ∧
    (X.length = Y.length → X ≠ [] → ∀ nf : ℤ, nf < 0 ∨ (d : ℤ) < nf → ∀ rnd dm sm,
      RoundedTrees.growTree fl o rnd X Y dm sm nf rl = .error .value) := by
  refine ⟨?_, ?_, ?_⟩
  · rintro ratio replace (h | h)
    · exact ⟨fun choice => by simp [RoundedTrees.subsample, pyAssert, h, bind, Except.bind],
        fun rnd num dm sm nf => by simp [RoundedTrees.getGenericTrees, pyAssert, h, bind, Except.bind]⟩
    · by_cases hl : X.length = Y.length
      · constructor
        · intro choice
          simp only [RoundedTrees.subsample, pyAssert, hl, if_true]
          exact ite_gt _ h
        · intro rnd num dm sm nf
          simp only [RoundedTrees.getGenericTrees, pyAssert, hl, if_true]
          exact ite_gt _ h
      · exact ⟨fun choice => by simp [RoundedTrees.subsample, pyAssert, hl, bind, Except.bind],
          fun rnd num dm sm nf => by simp [RoundedTrees.getGenericTrees, pyAssert, hl, bind, Except.bind]⟩
  · rintro (h | h) rnd dm sm nf
    · simp [RoundedTrees.growTree, RoundedTrees.splitNode, pyAssert, h, bind, Except.bind]
    · subst h
      by_cases hl : ([] : List (Point d)).length = Y.length <;>
        simp_all [RoundedTrees.growTree, RoundedTrees.splitNode, pyAssert, bind, Except.bind]
  · intro hl hX nf hn rnd dm sm
    have hp : 0 < Y.length := hl ▸ List.length_pos_iff.2 hX
    simp only [RoundedTrees.growTree, RoundedTrees.splitNode, pyAssert, hl, gt_iff_lt, hp, hn, if_true, bind,
      Except.bind]

/-- Two rows and one response; the ratio 2 without replacement. -/
example : RoundedTrees.subsample (d := 1) fl (fun _ k => List.range k) [fun _ => 0, fun _ => 1] [3] 1 true =
      .error .assertion ∧
    RoundedTrees.subsample (d := 1) fl (fun _ k => List.range k) [fun _ => 0] [3] 2 false =
      .error .assertion :=
  ⟨((C137_rejects (o := ⟨inTurn, inTurn⟩) _ _ false).1 1 true (.inl (by simp))).1 _,
    ((C137_rejects (o := ⟨inTurn, inTurn⟩) _ _ false).1 2 false (.inr (.inr ⟨rfl, by norm_num⟩))).1 _⟩

/-- C143: the same holds when numbers overflow. -/
theorem C143_rejects (X : List (Point d)) (Y : List Flt) (rl : Bool) :
    (∀ ratio replace, BadSample X.length Y.length ratio replace →
      (∀ choice, OverflowTrees.subsample fl choice X Y ratio replace = .error .assertion) ∧
      ∀ rnd num dm sm nf, OverflowTrees.getGenericTrees fl o rnd X Y num dm sm ratio replace nf rl =
        .error .assertion) ∧
    (X.length ≠ Y.length ∨ X = [] → ∀ rnd dm sm nf,
      OverflowTrees.growTree fl o rnd X Y dm sm nf rl = .error .assertion) ∧
    (X.length = Y.length → X ≠ [] → ∀ nf : ℤ, nf < 0 ∨ (d : ℤ) < nf → ∀ rnd dm sm,
      OverflowTrees.growTree fl o rnd X Y dm sm nf rl = .error .value) := by
  refine ⟨?_, ?_, ?_⟩
  · rintro ratio replace (h | h)
    · exact ⟨fun choice => by simp [OverflowTrees.subsample, pyAssert, h, bind, Except.bind],
        fun rnd num dm sm nf => by simp [OverflowTrees.getGenericTrees, pyAssert, h, bind, Except.bind]⟩
    · by_cases hl : X.length = Y.length
      · constructor
        · intro choice
          simp only [OverflowTrees.subsample, pyAssert, hl, if_true]
          exact ite_gt _ h
        · intro rnd num dm sm nf
          simp only [OverflowTrees.getGenericTrees, pyAssert, hl, if_true]
          exact ite_gt _ h
      · exact ⟨fun choice => by simp [OverflowTrees.subsample, pyAssert, hl, bind, Except.bind],
          fun rnd num dm sm nf => by simp [OverflowTrees.getGenericTrees, pyAssert, hl, bind, Except.bind]⟩
  · rintro (h | h) rnd dm sm nf
    · simp [OverflowTrees.growTree, OverflowTrees.splitNode, pyAssert, h, bind, Except.bind]
    · subst h
      by_cases hl : ([] : List (Point d)).length = Y.length <;>
        simp_all [OverflowTrees.growTree, OverflowTrees.splitNode, pyAssert, bind, Except.bind]
  · intro hl hX nf hn rnd dm sm
    have hp : 0 < Y.length := hl ▸ List.length_pos_iff.2 hX
    simp only [OverflowTrees.growTree, OverflowTrees.splitNode, pyAssert, hl, gt_iff_lt, hp, hn, if_true, bind,
      Except.bind]

/-- No rows; three features of two. -/
example : OverflowTrees.growTree (d := 2) fl o (fun _ => firstRnd 2) [] [] 5 1 1 false =
      .error .assertion ∧
    OverflowTrees.growTree (d := 2) fl o (fun _ => firstRnd 2) [fun _ => 0] [.nan] 5 1 3 false =
      .error .value :=
  ⟨(C143_rejects _ _ _).2.1 (.inr rfl) _ _ _ _,
    (C143_rejects _ _ _).2.2 rfl (by simp) 3 (.inr (by norm_num)) _ _ _⟩

/-- C143: a ratio that asks for more rows than a double can count is an `OverflowError`: `int` of an
infinity. -/
theorem C143_count {X : List (Point d)} {Y : List Flt} (hl : X.length = Y.length) {ratio : ℝ}
    (hr : 2 ^ 1024 ≤ fl (X.length * ratio)) (h0 : 0 < ratio) {num : ℤ} (hnum : 1 ≤ num) (rnd : ForestRnd d)
    (dm sm nf : ℤ) (rl : Bool) :
    OverflowTrees.getGenericTrees fl o rnd X Y num dm sm ratio true nf rl = .error .overflow := by
  obtain ⟨n, rfl⟩ : ∃ n : ℕ, num = ((n + 1 : ℕ) : ℤ) := ⟨num.toNat - 1, by omega⟩
  have hs : ∀ c, OverflowTrees.subsample fl c X Y ratio true = .error .overflow := by
    intro c
    have : Overflow.round fl ((X.length : ℝ) * ratio) = .pinf := by rw [Overflow.round, if_pos hr]
    simp only [OverflowTrees.subsample, pyAssert, this, if_pos hl, if_true, gt_iff_lt, h0, bind, Except.bind]
  simp only [OverflowTrees.getGenericTrees, pyAssert, if_pos hl, if_true, gt_iff_lt, h0, bind, Except.bind,
    Int.toNat_natCast, List.range_succ_eq_map, List.mapM_cons, hs]

/-- Two rows, the ratio `2^1023`. -/
example : OverflowTrees.getGenericTrees (d := 1) roundUp o ⟨fun _ _ k => List.range k, fun _ _ => firstRnd 1⟩
    [fun _ => 0, fun _ => 1] [.fin 3, .fin 4] 1 5 1 (2 ^ (1023 : ℤ)) true 1 false = .error .overflow := by
  have hD : (2 : ℝ) ^ (1024 : ℤ) ∈ Double := double_half (by norm_num)
  rw [show (2 : ℝ) ^ (1024 : ℤ) = 2 ^ 1024 from zpow_natCast 2 1024] at hD
  have h2 : (2 : ℝ) * (2 : ℝ) ^ (1023 : ℤ) = 2 ^ 1024 := by
    rw [← zpow_natCast, show ((1024 : ℕ) : ℤ) = 1 + 1023 by norm_num, zpow_add₀ (by norm_num), zpow_one]
  refine C143_count rfl ?_ (by positivity) le_rfl _ _ _ _ _
  show 2 ^ 1024 ≤ roundUp (((2 : ℕ) : ℝ) * _)
  rw [Nat.cast_ofNat, h2, fl_of_mem roundUp_nearest hD]

/-- C53: rows to divide of different numbers, and different numbers of means and deviations of leaves,
are rejected by the functions that divide a node and that mix the leaves, also when these are called on
their own. -/
theorem C53_rejects_parts {X : List (Point d)} {Y : List ℝ} (h : X.length ≠ Y.length) {mu sd : List ℝ}
    (h' : mu.length ≠ sd.length) (j : Fin d) (v least : ℝ) :
    Trees.splitLeftRight X Y j v = .error .assertion ∧ Trees.computeSigma mu sd least = .error .assertion := by
  simp [Trees.splitLeftRight, Trees.computeSigma, pyAssert, h, h', bind, Except.bind]

/-- C137: the same under rounding. -/
theorem C137_rejects_parts {mu sd : List ℝ} (h : mu.length ≠ sd.length) (least : ℝ) :
    RoundedTrees.computeSigma fl o mu sd least = .error .assertion := by
  simp [RoundedTrees.computeSigma, pyAssert, h, bind, Except.bind]

/-- C143: the same for responses that may be infinite or not a number. -/
theorem C143_rejects_parts {X : List (Point d)} {Y : List Flt} (h : X.length ≠ Y.length) {mu sd : List Flt}
    (h' : mu.length ≠ sd.length) (j : Fin d) (v : Flt) (least : ℝ) :
    OverflowTrees.splitLeftRight X Y j v = .error .assertion ∧
    OverflowTrees.computeSigma fl o mu sd least = .error .assertion := by
  simp [OverflowTrees.splitLeftRight, OverflowTrees.computeSigma, pyAssert, h, h', bind, Except.bind]

/-- Two rows and one response, two means and no deviation. -/
example : OverflowTrees.splitLeftRight (d := 1) [fun _ => 0, fun _ => 1] [.nan] 0 .pinf = .error .assertion ∧
    OverflowTrees.computeSigma fl o [.nan, .fin 1] [] 0 = .error .assertion :=
  C143_rejects_parts (by simp) (by simp) _ _ _

end Verif.Props
