import Verif.Props.RoundedTrees
import Verif.Lemmas.OverflowTreesFail

/-!
# Trees and forests when numbers overflow (C143)

As in `RoundedTrees.lean`, `Nearest fl` stands for any way to break ties between doubles, the order of
summation is arbitrary, and so is the random generator up to the promises of numpy.
-/

namespace Verif.Props

open Verif.Spec Verif.OverflowTrees Verif.Lemmas
open Verif.Trees (Row Tree NodeRnd TreeRnd ForestRnd Best takeRows mem_levels)
open Verif.Rounded (SumOrder)
open Verif.RoundedTrees (Orders meanOf)

variable {d : ℕ} {fl : ℝ → ℝ} {o : Orders}

/-! ### Agreement -/

private theorem takeRows_map {α β : Type} (g : α → β) (X : List α) :
    ∀ idx : List ℕ, takeRows (X.map g) idx = (takeRows X idx).map (List.map g)
  | [] => rfl
  | a :: t => by
    have ih := takeRows_map g X t
    unfold takeRows at ih ⊢
    rw [List.mapM_cons, List.mapM_cons, ih]
    by_cases ha : a < X.length
    · cases List.mapM (fun i => pyIndex X i) t <;>
        simp [pyIndex, ha, bind, Except.bind, pure, Except.pure, Except.map]
    · simp [pyIndex, ha, bind, Except.bind, Except.map]

private theorem subsample_agrees (h : Nearest fl) (choice : ℕ → ℕ → List ℕ) (X : List (Point d))
    (Y : List ℝ) {ratio : ℝ} (h0 : 0 < ratio) (hbig : X.length * ratio < 2 ^ 20) (replace : Bool) :
    subsample fl choice X (Y.map .fin) ratio replace =
      (RoundedTrees.subsample fl choice X Y ratio replace).map fun p => (p.1, p.2.map .fin) := by
  have hr : Overflow.round fl ((X.length : ℝ) * ratio) = .fin (fl ((X.length : ℝ) * ratio)) := by
    refine (round_zpow h 20 (by norm_num) (by norm_num) ?_).1
    rw [abs_of_nonneg (by positivity)]
    exact hbig.le.trans (by norm_num)
  unfold subsample RoundedTrees.subsample
  simp only [hr, List.length_map, takeRows_map]
  by_cases hl : X.length = Y.length
  · cases replace
    · by_cases h1 : ratio ≤ 1
      · simp only [pyAssert, hl, if_true, h0, h1, and_self, Bool.false_eq_true, if_false, bind,
          Except.bind]
        split_ifs
        · rfl
        · cases takeRows X (choice Y.length ⌊fl (↑Y.length * ratio)⌋₊) with
          | error e => rfl
          | ok X' =>
            cases takeRows Y (choice Y.length ⌊fl (↑Y.length * ratio)⌋₊) <;> rfl
      · simp only [pyAssert, hl, if_true, h0, h1, and_false, Bool.false_eq_true, if_false, bind,
          Except.bind]
        rfl
    · simp only [pyAssert, hl, if_true, h0, gt_iff_lt, bind, Except.bind, reduceCtorEq, false_and, or_false]
      split_ifs
      · rfl
      · cases takeRows X (choice Y.length ⌊fl (↑Y.length * ratio)⌋₊) with
        | error e => rfl
        | ok X' =>
          cases takeRows Y (choice Y.length ⌊fl (↑Y.length * ratio)⌋₊) <;> rfl
  · simp only [pyAssert, hl, if_false, bind, Except.bind]
    rfl

private theorem mapM_map {α β γ : Type} (g : β → γ) (F : α → Py β) (F' : α → Py γ) :
    ∀ l : List α, (∀ a ∈ l, F' a = (F a).map g) → l.mapM F' = (l.mapM F).map (List.map g)
  | [], _ => rfl
  | a :: t, h => by
    rw [List.mapM_cons, List.mapM_cons, h a (by simp), mapM_map g F F' t fun x hx => h x (by simp [hx])]
    cases F a with
    | error e => rfl
    | ok b => cases List.mapM F t <;> rfl

private theorem mapM_total {α β : Type} (F : α → Py β) (g : α → β) (h : ∀ a, F a = .ok (g a)) :
    ∀ l : List α, l.mapM F = .ok (l.map g)
  | [] => rfl
  | a :: t => by
    rw [List.mapM_cons, h a, mapM_total F g h t]
    rfl

private theorem smallTree_of : ∀ t : Tree d, (∀ L ∈ leaves t, L ≠ [] ∧ Small L) → SmallTree t
  | .leaf rows, h => h rows (by simp [leaves])
  | .node _ _ l r, h => ⟨smallTree_of l fun L hL => h L (by simp [leaves, hL]),
      smallTree_of r fun L hL => h L (by simp [leaves, hL])⟩

private theorem sample_small (h : Nearest fl) {choice : ℕ → ℕ → List ℕ} {replace : Bool}
    (hc : SampleOk choice replace) {X : List (Point d)} {Y : List ℝ} (hl : X.length = Y.length)
    (hX : X ≠ []) (hm : Moderate X Y) {ratio : ℝ} (h0 : 0 < ratio) (h1 : replace = false → ratio ≤ 1)
    (hbig : X.length * ratio < 2 ^ 20) (hk : 1 ≤ X.length * ratio) :
    ∃ X' Y', RoundedTrees.subsample fl choice X Y ratio replace = .ok (X', Y') ∧
      X'.length = Y'.length ∧ X' ≠ [] ∧ Small (X'.zip Y') := by
  have hk' : 1 ≤ ⌊X.length * ratio⌋₊ := Nat.le_floor (by simpa using hk)
  obtain ⟨X', Y', idx, hs, hlen, hlen', -, -, hYX, hidx, hpair, -⟩ :=
    C137_sample h hc hl hX h0 h1 (hm.1.trans_lt (by norm_num)) (hbig.trans (by norm_num))
  have hf : ⌊X.length * ratio⌋₊ < 2 ^ 20 := by
    rw [Nat.floor_lt' (by norm_num)]
    exact_mod_cast hbig
  refine ⟨X', Y', hs, hYX.symm, ?_, ?_, ?_⟩
  · rintro rfl
    rw [List.length_nil] at hlen
    omega
  · rw [List.length_zip, hYX, min_self]
    omega
  · intro p hp
    obtain ⟨j, hj⟩ := List.mem_iff_getElem?.1 hp
    rw [List.getElem?_zip_eq_some] at hj
    have hjl : j < X'.length := (List.getElem?_eq_some_iff.1 hj.1).1
    obtain ⟨_, e1, e2⟩ := hpair j (idx[j]) (List.getElem?_eq_getElem (by omega))
    exact ⟨hm.2.1 _ (List.mem_iff_getElem?.2 ⟨_, e1.symm.trans hj.1⟩),
      hm.2.2 _ (List.mem_iff_getElem?.2 ⟨_, e2.symm.trans hj.2⟩)⟩

/-- C143: on moderate data nothing overflows. `get_generic_trees` returns the trees it returns
without an upper bound on doubles (the trees of C137 and C138), and every prediction from them is the
prediction of C139, finite. -/
theorem C143_agrees (h : Nearest fl) (ho : SumsAll o) {rnd : ForestRnd d} {replace : Bool}
    (hr : ForestRndOk rnd replace) {X : List (Point d)} {Y : List ℝ} (hl : X.length = Y.length)
    (hX : X ≠ []) (hm : Moderate X Y) {ratio : ℝ} (h0 : 0 < ratio) (h1 : replace = false → ratio ≤ 1)
    (hbig : X.length * ratio < 2 ^ 20) (hk : 1 ≤ X.length * ratio) {nf : ℤ} (hn1 : 1 ≤ nf)
    (hnd : nf ≤ d) {num : ℕ} (hnum : 1 ≤ num) (hnum' : num ≤ 2 ^ 20) (dm sm : ℤ) (rl : Bool) :
    ∃ trees, RoundedTrees.getGenericTrees fl o rnd X Y num dm sm ratio replace nf rl = .ok trees ∧
      getGenericTrees fl o rnd X (Y.map .fin) num dm sm ratio replace nf rl =
        .ok (trees.map asFloats) ∧
      ∀ Xq : List (Point d), ∃ mu sigma : List ℝ,
        RoundedTrees.predictByTrees fl o Xq trees = .ok (mu, sigma) ∧
        predictByTrees fl o Xq (trees.map asFloats) = .ok (mu.map .fin, sigma.map .fin) := by
  obtain ⟨trees, ht, hlen, hsound, hleaf⟩ := C137_generic_trees (fl := fl) h ho hr hl hX h0 h1
    (hm.1.trans_lt (by norm_num)) (hbig.trans (by norm_num)) hk hn1 hnd num dm sm rl
  have hf : ⌊X.length * ratio⌋₊ < 2 ^ 20 := by
    rw [Nat.floor_lt' (by norm_num)]
    exact_mod_cast hbig
  refine ⟨trees, ht, ?_, ?_⟩
  · have hmap := mapM_map asFloats (fun k => do
        let (X_, Y_) ← RoundedTrees.subsample fl (rnd.sample k) X Y ratio replace
        RoundedTrees.growTree fl o (rnd.tree k) X_ Y_ dm sm nf rl) (fun k => do
        let (X_, Y_) ← subsample fl (rnd.sample k) X (Y.map .fin) ratio replace
        growTree fl o (rnd.tree k) X_ Y_ dm sm nf rl) (List.range num) (by
      intro k _
      obtain ⟨X', Y', hs, hl', hX', hsm⟩ := sample_small h (hr.sample k) hl hX hm h0 h1 hbig hk
      simp only [subsample_agrees h _ X Y h0 hbig replace, hs, Except.map, bind, Except.bind]
      have := growTree_agrees h ho (hr.tree k) hl' hX' hsm dm sm (by omega) hnd rl
      rw [this]
      rfl)
    cases replace
    · have := h1 rfl
      simp only [RoundedTrees.getGenericTrees, getGenericTrees, pyAssert, hl, if_true, h0, this,
        and_self, Bool.false_eq_true, if_false, Int.toNat_natCast, List.length_map, bind,
        Except.bind] at ht hmap ⊢
      rw [hmap, ht]
      rfl
    · simp only [RoundedTrees.getGenericTrees, getGenericTrees, pyAssert, hl, if_true, h0, gt_iff_lt,
        Int.toNat_natCast, List.length_map, bind, Except.bind] at ht hmap ⊢
      rw [hmap, ht]
      rfl
  · have hne : trees ≠ [] := by
      rintro rfl
      rw [List.length_nil] at hlen
      omega
    have hone := fun x => predictByTreesOne_agrees h ho x hne (hlen ▸ hnum') (fun t htm => by
      refine ⟨smallTree_of t fun L hL => ⟨hsound.leaves_ne t htm L hL, ?_, ?_⟩, ?_⟩
      · have := hleaf t htm L hL
        omega
      · intro p hp
        have := List.of_mem_zip (hsound.from_data t htm L hL p hp)
        exact ⟨hm.2.1 _ this.1, hm.2.2 _ this.2⟩
      · rintro rows rfl
        obtain ⟨f, v, l, r, he⟩ := hsound.root _ htm
        cases he)
    choose p p1 p2 using hone
    have u1 : ∀ Xq, RoundedTrees.unitPredictByTrees fl o Xq trees =
        .ok (Xq.map fun x => (p x).1, Xq.map fun x => (p x).2) := by
      intro Xq
      simp only [RoundedTrees.unitPredictByTrees, mapM_total _ p p1, bind, Except.bind, pure,
        Except.pure, List.map_map, Function.comp_def]
    have u2 : ∀ Xq, unitPredictByTrees fl o Xq (trees.map asFloats) =
        .ok (Xq.map fun x => .fin (p x).1, Xq.map fun x => .fin (p x).2) := by
      intro Xq
      simp only [unitPredictByTrees, mapM_total _ _ p2, bind, Except.bind, pure,
        Except.pure, List.map_map, Function.comp_def, liftPair]
    intro Xq
    unfold RoundedTrees.predictByTrees predictByTrees
    by_cases hc : Xq.length ≤ Constants.NUM_DATA_PER_SPLIT_TREES
    · exact ⟨_, _, by simp only [hc, if_true]; exact u1 Xq, by
        simp only [hc, if_true, u2, List.map_map, Function.comp_def]⟩
    · refine ⟨_, _, by
        simp only [hc, if_false, mapM_total _ _ u1, bind, Except.bind, pure, Except.pure]
        rfl, ?_⟩
      simp only [hc, if_false, mapM_total _ _ u2, bind, Except.bind, pure, Except.pure, List.map_map,
        List.map_flatten, Function.comp_def]

/-- Ten trees of samples of two out of three rows. -/
example : ∃ trees : List (Tree 1), getGenericTrees (d := 1) roundUp ⟨inTurn, inTurn⟩
    ⟨fun _ _ k => List.range k, fun _ _ => firstRnd 1⟩
    [fun _ => 0, fun _ => 1, fun _ => 5] [.fin 3, .fin 4, .fin 9] (10 : ℕ) 5 1 (3 / 4) false 1 false =
      .ok (trees.map asFloats) ∧
    ∃ mu sigma : List ℝ, predictByTrees roundUp ⟨inTurn, inTurn⟩ [fun _ => 2] (trees.map asFloats) =
      .ok (mu.map .fin, sigma.map .fin) := by
  have hok : ForestRndOk (d := 1) ⟨fun _ _ k => List.range k, fun _ _ => firstRnd 1⟩ false :=
    ⟨fun _ => ⟨by simp, fun n k _ hk i hi => by
      have := List.mem_range.1 hi
      have := hk rfl
      omega, fun _ _ _ _ _ => List.nodup_range⟩, fun _ _ => firstRnd_ok 1⟩
  have small : ∀ x : ℝ, 0 ≤ x → x ≤ 2 ^ (4 : ℤ) → ∀ m : ℤ, 4 ≤ m → |x| ≤ (2 : ℝ) ^ m := by
    intro x h0 h1 m hm
    rw [abs_of_nonneg h0]
    exact h1.trans (zpow_le_zpow_right₀ (by norm_num) hm)
  have hm : Moderate ([fun _ => 0, fun _ => 1, fun _ => 5] : List (Point 1)) [3, 4, 9] := by
    refine ⟨by simp, ?_, ?_⟩
    · intro x hx f
      simp only [List.mem_cons, List.not_mem_nil, or_false] at hx
      rcases hx with rfl | rfl | rfl <;> exact small _ (by norm_num) (by norm_num) _ (by norm_num)
    · intro y hy
      simp only [List.mem_cons, List.not_mem_nil, or_false] at hy
      rcases hy with rfl | rfl | rfl <;> exact small _ (by norm_num) (by norm_num) _ (by norm_num)
  obtain ⟨t, -, h, hp⟩ := C143_agrees (fl := roundUp) roundUp_nearest inTurn_sumsAll hok
    (X := [fun _ => 0, fun _ => 1, fun _ => 5]) (Y := [3, 4, 9]) rfl (by simp) hm (ratio := 3 / 4)
    (by norm_num) (by norm_num) (by norm_num) (by norm_num) (nf := 1) le_rfl le_rfl (num := 10)
    (by norm_num) (by norm_num) 5 1 false
  obtain ⟨mu, sigma, -, hp⟩ := hp [fun _ => 2]
  exact ⟨t, h, mu, sigma, hp⟩

/-- C143: `get_random_forest` is `get_generic_trees` with the ratio 1, with replacement and without
random locations, also when numbers overflow. -/
theorem C143_random_forest (rnd : ForestRnd d) (X : List (Point d)) (Y : List Flt)
    (num dm sm nf : ℤ) :
    getRandomForest fl o rnd X Y num dm sm nf = getGenericTrees fl o rnd X Y num dm sm 1 true nf false := by
  simp [getRandomForest, getGenericTrees, pyAssert, bind, Except.bind]

/-! ### Failure -/

/-- C143: a sample with an infinite or undefined response cannot be split: every cost is infinite or
NaN, no split is better than none, and `split` raises a `TypeError`. -/
theorem C143_nonfinite (ho : SumsAll o) {rnd : TreeRnd d} (hr : TreeRndOk rnd) {X : List (Point d)}
    {Y : List Flt} (hl : X.length = Y.length) (hY : ∃ y ∈ Y, ¬ Overflow.IsFinite y) (rl : Bool)
    (hw : rl = true → ∀ x ∈ X, ∀ y ∈ X, ∀ f, Overflow.IsFinite (Overflow.round fl (y f - x f)))
    (dm sm : ℤ) {nf : ℤ} (h0 : 0 ≤ nf) (hd : nf ≤ d) :
    growTree fl o rnd X Y dm sm nf rl = .error .type := by
  obtain ⟨y, hy, hf⟩ := hY
  refine growTree_hopeless ho hr hl ?_ (hopeless_nonfinite ho hl hy hf) rl hw dm sm h0 hd
  rintro rfl
  exact absurd (hl ▸ List.length_pos_of_mem hy) (by simp)

/-- Two rows, one without a response. -/
example : growTree (d := 1) roundUp ⟨inTurn, inTurn⟩ (fun _ => firstRnd 1) [fun _ => 0, fun _ => 1]
    [.fin 3, .nan] 5 1 1 false = .error .type :=
  C143_nonfinite inTurn_sumsAll (fun _ => firstRnd_ok 1) rfl ⟨.nan, by simp, id⟩ false (by simp) 5 1
    (by norm_num) (by norm_num)

/-- C143: finite responses are not safe either. If no split keeps apart all responses that differ by
`2^513` (about 2.7e154) or more, the squares overflow on one side of every split, and growing a tree is
a `TypeError`. -/
theorem C143_far (h : Nearest fl) (ho : SumsAll o) {rnd : TreeRnd d} (hr : TreeRndOk rnd)
    {X : List (Point d)} {Y : List ℝ} (hl : X.length = Y.length) (hX : X ≠ [])
    (hfar : ∀ (f : Fin d) (v : ℝ), ∃ p ∈ X.zip Y, ∃ q ∈ X.zip Y, (2 : ℝ) ^ (513 : ℤ) ≤ |p.2 - q.2| ∧
      (p.1 f < v ↔ q.1 f < v)) (rl : Bool)
    (hw : rl = true → ∀ x ∈ X, ∀ y ∈ X, ∀ f, Overflow.IsFinite (Overflow.round fl (y f - x f)))
    (dm sm : ℤ) {nf : ℤ} (h0 : 0 ≤ nf) (hd : nf ≤ d) :
    growTree fl o rnd X (Y.map .fin) dm sm nf rl = .error .type :=
  growTree_hopeless ho hr (by simpa using hl) hX (hopeless_far h ho hl hfar) rl hw dm sm h0 hd

/-- Three rows with the responses `-2^600`, 0 and `2^600`. -/
example : growTree (d := 1) roundUp ⟨inTurn, inTurn⟩ (fun _ => firstRnd 1)
    [fun _ => 0, fun _ => 1, fun _ => 2] [.fin (-2 ^ (600 : ℤ)), .fin 0, .fin (2 ^ (600 : ℤ))] 5 1 1
    false = .error .type := by
  refine C143_far roundUp_nearest inTurn_sumsAll (fun _ => firstRnd_ok 1)
    (X := [fun _ => 0, fun _ => 1, fun _ => 2]) (Y := [-2 ^ (600 : ℤ), 0, 2 ^ (600 : ℤ)]) rfl (by simp)
    ?_ false (by simp) 5 1 (by norm_num) (by norm_num)
  intro f v
  have h6 : (2 : ℝ) ^ (513 : ℤ) ≤ (2 : ℝ) ^ (600 : ℤ) := zpow_le_zpow_right₀ (by norm_num) (by norm_num)
  have h0 : (0 : ℝ) ≤ (2 : ℝ) ^ (600 : ℤ) := by positivity
  generalize (2 : ℝ) ^ (600 : ℤ) = c at h6 h0 ⊢
  have far1 : (2 : ℝ) ^ (513 : ℤ) ≤ |-c - 0| := by rwa [sub_zero, abs_neg, abs_of_nonneg h0]
  have far2 : (2 : ℝ) ^ (513 : ℤ) ≤ |0 - c| := by rwa [zero_sub, abs_neg, abs_of_nonneg h0]
  have far3 : (2 : ℝ) ^ (513 : ℤ) ≤ |-c - c| := by
    rw [← neg_add', abs_neg, abs_of_nonneg (by linarith only [h0])]
    exact h6.trans (by linarith only [h0])
  by_cases h1 : (0 : ℝ) < v ↔ (1 : ℝ) < v
  · exact ⟨(fun _ => 0, -c), by simp, (fun _ => 1, 0), by simp, far1, h1⟩
  by_cases h2 : (1 : ℝ) < v ↔ (2 : ℝ) < v
  · exact ⟨(fun _ => 1, 0), by simp, (fun _ => 2, c), by simp, far2, h2⟩
  · exact ⟨(fun _ => 0, -c), by simp, (fun _ => 2, c), by simp, far3, by tauto⟩

/-- C143: `split_random_location` draws between the least and the greatest value of a feature; numpy
raises an `OverflowError` if their distance is beyond the doubles, so no tree is grown as soon as such a
feature is drawn. -/
theorem C143_width (ho : SumsAll o) {rnd : TreeRnd d} {X : List (Point d)}
    {Y : List Flt} (hl : X.length = Y.length) {nf : ℤ} (h0 : 0 ≤ nf) (hd : nf ≤ d) {f : Fin d}
    (hf : f ∈ (rnd []).features nf) {x y : Point d} (hx : x ∈ X) (hy : y ∈ X) (hle : ∀ z ∈ X, x f ≤ z f)
    (hge : ∀ z ∈ X, z f ≤ y f) (hw : 2 ^ 1024 ≤ fl (y f - x f)) (hxy : x f ≠ y f) (dm sm : ℤ) :
    growTree fl o rnd X Y dm sm nf true = .error .overflow := by
  have hX : X ≠ [] := List.ne_nil_of_mem hx
  have hp : X.length > 0 := List.length_pos_iff.2 hX
  have hn : ¬ (nf < 0 ∨ nf > d) := by omega
  have step : ∀ (cur : BestF d) (q : Fin d × ℕ),
      tryFeature fl o (rnd []) X Y true cur q = .error .overflow ∨
        (q.1 ≠ f ∧ ∃ b, tryFeature fl o (rnd []) X Y true cur q = .ok b) := by
    rintro cur ⟨g, k⟩
    by_cases hg : g = f
    · subst hg
      left
      have hmin : npMin (X.map fun x => x g) = .ok (x g) := by
        rw [npMin_ok]
        refine ⟨List.mem_map_of_mem hx, ?_⟩
        intro a ha
        obtain ⟨z, hz, rfl⟩ := List.mem_map.1 ha
        exact hle z hz
      have hmax : npMax (X.map fun x => x g) = .ok (y g) := by
        rw [npMax_ok]
        refine ⟨List.mem_map_of_mem hy, ?_⟩
        intro a ha
        obtain ⟨z, hz, rfl⟩ := List.mem_map.1 ha
        exact hge z hz
      have hc : (Trees.candidatesLoc X g).length > 1 := by
        by_contra hc
        have hc' : (levels X g).length ≤ 1 := not_lt.1 hc
        have h1 : x g ∈ levels X g := mem_levels.2 ⟨x, hx, rfl⟩
        have h2 : y g ∈ levels X g := mem_levels.2 ⟨y, hy, rfl⟩
        match hL : levels X g with
        | [] => rw [hL] at h1; cases h1
        | [a] =>
          rw [hL, List.mem_singleton] at h1 h2
          exact hxy (h1.trans h2.symm)
        | a :: b :: t => rw [hL] at hc'; simp at hc'
      have hr : Overflow.sub fl (.fin (y g)) (.fin (x g)) = .pinf := by
        rw [sub_fin, Overflow.round, if_pos hw]
      simp only [tryFeature, splitFeature, if_true, splitRandom, randomValToSplit, hc, hmin, hmax, hr,
        bind, Except.bind]
    · rcases randomValToSplit_ok (fl := fl) hX g ((rnd []).unif k) with ⟨v, hv, hvn⟩ | ⟨he, -⟩
      · right
        refine ⟨hg, ?_⟩
        obtain ⟨l, r, hlr, -⟩ := splitLeftRight_mem hl g hvn
        simp only [tryFeature, splitFeature, if_true, splitRandom, hv, hlr, bind, Except.bind, pure,
          Except.pure]
        split_ifs
        · exact ⟨_, rfl⟩
        · exact ⟨_, rfl⟩
      · left
        simp only [tryFeature, splitFeature, if_true, splitRandom, he, bind, Except.bind]
  have fold : ∀ (l : List (Fin d × ℕ)) (cur : BestF d), f ∈ l.map (·.1) →
      l.foldlM (tryFeature fl o (rnd []) X Y true) cur = .error .overflow := by
    intro l
    induction l with
    | nil => intro cur h; simp at h
    | cons q t ih =>
      intro cur hm
      rw [List.foldlM_cons]
      rcases step cur q with he | ⟨hq, b, he⟩
      · rw [he]
        rfl
      · rw [he]
        rw [List.map_cons, List.mem_cons] at hm
        exact ih b (hm.resolve_left fun e => hq e.symm)
  have hs : splitNode fl o (rnd []) X Y nf true = .error .overflow := by
    simp only [splitNode, pyAssert, hl, if_true, hl ▸ hp, hn, if_false, bind, Except.bind]
    exact fold _ _ (by rw [List.zipIdx_map_fst]; exact hf)
  unfold growTree
  rw [hs]
  rfl

/-- One feature with the values `-2^1023` and `2^1023`. -/
example : growTree (d := 1) roundUp ⟨inTurn, inTurn⟩ (fun _ => firstRnd 1)
    [fun _ => -2 ^ (1023 : ℤ), fun _ => 2 ^ (1023 : ℤ)] [.fin 3, .fin 4] 5 1 1 true =
      .error .overflow := by
  have hc : (0 : ℝ) < (2 : ℝ) ^ (1023 : ℤ) := by positivity
  have h2 : (2 : ℝ) ^ (1023 : ℤ) - -(2 : ℝ) ^ (1023 : ℤ) = 2 ^ 1024 := by
    rw [← zpow_natCast, sub_neg_eq_add, ← two_mul, show ((1024 : ℕ) : ℤ) = 1 + 1023 by norm_num,
      zpow_add₀ (by norm_num), zpow_one]
  have hD : (2 : ℝ) ^ (1024 : ℤ) ∈ Double := double_half (by norm_num)
  rw [show (2 : ℝ) ^ (1024 : ℤ) = 2 ^ 1024 from zpow_natCast 2 1024] at hD
  generalize (2 : ℝ) ^ (1023 : ℤ) = c at hc h2 ⊢
  refine C143_width (x := fun _ => -c) (y := fun _ => c) (f := 0) inTurn_sumsAll rfl (by norm_num)
    (by norm_num) (by simp [firstRnd, List.finRange_succ]) (by simp) (by simp) ?_ ?_ ?_ ?_ 5 1
  · intro z hz
    rcases List.mem_pair.1 hz with rfl | rfl
    · exact le_rfl
    · show -c ≤ c
      linarith only [hc]
  · intro z hz
    rcases List.mem_pair.1 hz with rfl | rfl
    · show -c ≤ c
      linarith only [hc]
    · exact le_rfl
  · show 2 ^ 1024 ≤ roundUp (c - -c)
    rw [h2, fl_of_mem roundUp_nearest hD]
  · show -c ≠ c
    intro he
    linarith only [he, hc]

private theorem levels_pair {x y : Point d} {f : Fin d} (hxy : x f < y f) :
    Trees.candidatesLoc [x, y] f = [x f, y f] := by
  have h : levels [x, y] f = [x f, y f] := by
    refine List.Perm.eq_of_pairwise (le := (· < ·)) (fun a b _ _ h1 h2 => absurd h1 (lt_asymm h2))
      (Trees.levels_sorted _ f) (by simpa using hxy) ?_
    refine (List.perm_ext_iff_of_nodup ((Trees.levels_sorted [x, y] f).imp fun h => h.ne)
      (by simpa using hxy.ne)).2 fun a => ?_
    rw [mem_levels]
    simp [eq_comm]
  exact h

/-- C143: inputs can overflow as well. The midpoint of two values whose sum is beyond the doubles is an
infinity: one side of the split is empty, so that both leaves hold both rows although the values
differ. -/
theorem C143_midpoint (h : Nearest fl) (ho : SumsAll o) {rnd : TreeRnd 1} (hr : TreeRndOk rnd)
    {x y : Point 1} (hxy : x 0 < y 0) (hs : 2 ^ 1024 ≤ fl (x 0 + y 0)) {a b : ℝ}
    (ha : |a| ≤ (2 : ℝ) ^ (500 : ℤ)) (hb : |b| ≤ (2 : ℝ) ^ (500 : ℤ)) (dm sm : ℤ) :
    growTree fl o rnd [x, y] [.fin a, .fin b] dm sm 1 false =
      .ok (.node 0 .pinf (.leaf [(x, .fin a), (y, .fin b)]) (.leaf [(x, .fin a), (y, .fin b)])) := by
  have hfeat : (rnd []).features 1 = [0] := by
    have := (hr []).features_length 1 (by norm_num) (by norm_num)
    obtain ⟨f, hf⟩ := List.length_eq_one_iff.1 (by exact_mod_cast this)
    rw [hf, Subsingleton.elim f 0]
  have hlocs : (rnd []).locs 0 1 1 = [0] := by
    have h1 := (hr []).locs_length 0 1 1 le_rfl
    have h2 := (hr []).locs_lt 0 1 1 le_rfl
    obtain ⟨i, hi⟩ := List.length_eq_one_iff.1 h1
    rw [hi] at h2 ⊢
    rw [Nat.lt_one_iff.1 (h2 i (by simp))]
  have hsum : npMean fl o.flat [.fin (x 0), .fin (y 0)] = .pinf := by
    rw [npMean, if_neg (by simp), Overflow.meanF]
    have := sum_two (fl := fl) (ho 2 (by norm_num)).2 (x 0) (y 0)
    simp only [List.length_cons, List.length_nil, Nat.zero_add, Nat.reduceAdd]
    rw [this, Overflow.round, if_pos hs]
    rfl
  have hval : valToSplit fl o [x, y] 0 0 = .ok .pinf := by
    simp only [valToSplit, levels_pair hxy, List.length_cons, List.length_nil, Nat.zero_add,
      Nat.reduceAdd, Nat.one_lt_ofNat, gt_iff_lt, if_true, List.drop_zero, List.take_succ_cons, List.take_zero,
      List.map_cons, List.map_nil, hsum, pure, Except.pure]
  have hlt : ∀ z : ℝ, Flt.fin z < Flt.pinf := fun z => trivial
  have hle : ∀ z : ℝ, ¬ Flt.pinf ≤ Flt.fin z := fun z => id
  have hsplit : splitLeftRight [x, y] [.fin a, .fin b] 0 .pinf =
      .ok ([(x, .fin a), (y, .fin b)], []) := by
    simp [splitLeftRight, pyAssert, Trees.maskSelect, hlt, hle, bind, Except.bind, pure, Except.pure]
  obtain ⟨c, hc⟩ : ∃ c : ℝ, mse fl o ([(x, .fin a), (y, .fin b)], []) = .fin c := by
    obtain ⟨e1, e2⟩ := mse1_agrees h ho (l := [a, b]) (by simp) (by
      intro z hz
      rcases List.mem_pair.1 hz with rfl | rfl
      · exact ha
      · exact hb)
    obtain ⟨g1, g2⟩ := mse1_agrees h ho (l := []) (by simp) (by simp)
    refine ⟨fl (RoundedTrees.sideCostF fl o [a, b] + RoundedTrees.sideCostF fl o []), ?_⟩
    simp only [mse, List.map_cons, List.map_nil] at e1 g1 ⊢
    rw [e1, g1]
    exact (add_agrees h (by norm_num) (by norm_num) e2 g2).1
  have hd : splitDeterministic fl o ((rnd []).locs 0) [x, y] [.fin a, .fin b] 0 =
      .ok ⟨.fin c, some (0, .pinf, [(x, .fin a), (y, .fin b)], [])⟩ := by
    have : Flt.fin c < (BestF.init (d := 1)).score := hlt c
    simp only [splitDeterministic, levels_pair hxy, List.length_cons, List.length_nil, Nat.zero_add,
      Nat.reduceAdd, gt_iff_lt, Nat.one_lt_ofNat, if_true, Nat.add_one_sub_one, Nat.reduceSub,
      show min 20 1 = 1 from rfl, hlocs, List.foldlM_cons, List.foldlM_nil, tryLoc, hval, hsplit, hc, this,
      bind, Except.bind, pure, Except.pure]
  have hn : splitNode fl o (rnd []) [x, y] [.fin a, .fin b] 1 false =
      .ok ⟨.fin c, some (0, .pinf, [(x, .fin a), (y, .fin b)], [])⟩ := by
    have : Flt.fin c < (BestF.init (d := 1)).score := hlt c
    simp [splitNode, pyAssert, hfeat, tryFeature, splitFeature, hd, this, bind, Except.bind, pure,
      Except.pure]
  unfold growTree
  rw [hn]
  simp only [bind, Except.bind]
  rw [split]
  simp [pyAssert, bind, Except.bind, pure, Except.pure]

example : growTree (d := 1) roundUp ⟨inTurn, inTurn⟩ (fun _ => firstRnd 1)
    [fun _ => 2 ^ (1023 : ℤ), fun _ => 3 * 2 ^ (1022 : ℤ)] [.fin 3, .fin 4] 5 1 1 false =
      .ok (.node 0 .pinf
        (.leaf [(fun _ => 2 ^ (1023 : ℤ), .fin 3), (fun _ => 3 * 2 ^ (1022 : ℤ), .fin 4)])
        (.leaf [(fun _ => 2 ^ (1023 : ℤ), .fin 3), (fun _ => 3 * 2 ^ (1022 : ℤ), .fin 4)])) := by
  have hc : (0 : ℝ) < (2 : ℝ) ^ (1022 : ℤ) := by positivity
  have h1 : (2 : ℝ) ^ (1023 : ℤ) = 2 * (2 : ℝ) ^ (1022 : ℤ) := by
    rw [show (1023 : ℤ) = 1 + 1022 by norm_num, zpow_add₀ (by norm_num), zpow_one]
  have h2 : (2 : ℝ) ^ 1024 = 4 * (2 : ℝ) ^ (1022 : ℤ) := by
    rw [← zpow_natCast, show ((1024 : ℕ) : ℤ) = 2 + 1022 by norm_num, zpow_add₀ (by norm_num)]
    norm_num
  have hD : (2 : ℝ) ^ (1024 : ℤ) ∈ Double := double_half (by norm_num)
  rw [show (2 : ℝ) ^ (1024 : ℤ) = 2 ^ 1024 from zpow_natCast 2 1024] at hD
  have small : ∀ x : ℝ, 0 ≤ x → x ≤ 2 ^ (4 : ℤ) → |x| ≤ (2 : ℝ) ^ (500 : ℤ) := by
    intro x h0 h1
    rw [abs_of_nonneg h0]
    exact h1.trans (zpow_le_zpow_right₀ (by norm_num) (by norm_num))
  rw [h1]
  refine C143_midpoint roundUp_nearest inTurn_sumsAll (fun _ => firstRnd_ok 1) ?_ ?_
    (small 3 (by norm_num) (by norm_num)) (small 4 (by norm_num) (by norm_num)) 5 1
  · generalize (2 : ℝ) ^ (1022 : ℤ) = c at hc ⊢
    show 2 * c < 3 * c
    linarith only [hc]
  · refine le_fl_of_le roundUp_nearest hD ?_
    rw [h2]
    generalize (2 : ℝ) ^ (1022 : ℤ) = c at hc ⊢
    show 4 * c ≤ 2 * c + 3 * c
    linarith only [hc]

/-! ### Predictions -/

private theorem mean_big (h : Nearest fl) {order : ℕ → SumOrder} {l : List ℝ} (hl : l ≠ [])
    (hn : l.length ≤ 2 ^ 20) (ho : (order l.length).Covers l.length) {a K : ℝ} (ha : 1 ≤ a) (hK1 : 1 ≤ K)
    (hK : K ≤ 2 ^ 25) (hb : ∀ x ∈ l, x ∈ Double ∧ a ≤ x ∧ x ≤ K * a) :
    a / 2 ≤ meanOf fl order l ∧ meanOf fl order l ≤ 2 * K * a := by
  have hN : (l.length : ℝ) ≤ 2 ^ 20 := by exact_mod_cast hn
  have he := RoundedTrees.meanOf_error h ho (fun x hx => (hb x hx).1) (by
    have : 2 * (l.length : ℝ) * (1 / 2 ^ 53) ≤ 2 * 2 ^ 20 * (1 / 2 ^ 53) := by gcongr
    exact this.trans (by norm_num))
  have h1 : a ≤ avg l := by
    have := RoundedTrees.avg_mono (l := l) (f := fun _ => a) (g := id) fun x hx => (hb x hx).2.1
    rwa [RoundedTrees.avg_const hl, List.map_id] at this
  have h1' : avg l ≤ K * a := by
    have := RoundedTrees.avg_le hl (f := id) fun x hx => (hb x hx).2.2
    rwa [List.map_id] at this
  have h2 : avg (l.map abs) ≤ K * a := by
    refine RoundedTrees.avg_abs_le hl fun x hx => ?_
    obtain ⟨-, b1, b2⟩ := hb x hx
    rw [abs_of_nonneg (by linarith)]
    exact b2
  have h6 : K * a ≤ 2 ^ 25 * a := by gcongr
  have h7 : a ≤ K * a := le_mul_of_one_le_left (by linarith) hK1
  have h3 : 2 * (l.length : ℝ) * (1 / 2 ^ 53) * avg (l.map abs) ≤
      2 * 2 ^ 20 * (1 / 2 ^ 53) * (2 ^ 25 * a) := by
    refine mul_le_mul (by gcongr) (h2.trans h6) ?_ (by positivity)
    exact RoundedTrees.avg_nonneg fun x _ => abs_nonneg x
  have h4 : (2 : ℝ) ^ (-1075 : ℤ) ≤ 1 / 4 := by
    calc (2 : ℝ) ^ (-1075 : ℤ) ≤ (2 : ℝ) ^ (-2 : ℤ) := zpow_le_zpow_right₀ (by norm_num) (by norm_num)
      _ = 1 / 4 := by norm_num
  obtain ⟨h5, h5'⟩ := abs_le.1 he
  generalize (2 : ℝ) ^ (-1075 : ℤ) = e at h4 h5 h5'
  constructor
  · linarith only [h1, h3, h4, h5, ha]
  · linarith only [h1', h3, h4, h5', ha, h7]

private theorem square_big (h : Nearest fl) {x : ℝ} (hx : (2 : ℝ) ^ (512 : ℤ) ≤ x) :
    square fl (.fin x) = .pinf := by
  rw [square, mul_fin, Overflow.round, if_pos]
  have hD : (2 : ℝ) ^ (1024 : ℤ) ∈ Double := double_half (by norm_num)
  have h1 : (2 : ℝ) ^ (1024 : ℤ) ≤ x * x := by
    rw [show (1024 : ℤ) = 512 + 512 by norm_num, zpow_add₀ (by norm_num)]
    exact mul_le_mul hx hx (by positivity) ((by positivity : (0 : ℝ) ≤ (2 : ℝ) ^ (512 : ℤ)).trans hx)
  have := le_fl_of_le h hD h1
  rwa [show (2 : ℝ) ^ (1024 : ℤ) = 2 ^ 1024 from zpow_natCast 2 1024] at this

/-- Trees whose leaves hold large responses. -/
private def Large (a : ℝ) : Tree d → Prop
  | .leaf rows => rows ≠ [] ∧ rows.length ≤ 2 ^ 20 ∧ ∀ p ∈ rows, p.2 ∈ Double ∧ a ≤ p.2 ∧ p.2 ≤ 2 ^ 20 * a
  | .node _ _ l r => Large a l ∧ Large a r

private theorem large_of {a : ℝ} : ∀ t : Tree d, (∀ L ∈ leaves t, L ≠ [] ∧ L.length ≤ 2 ^ 20 ∧
    ∀ p ∈ L, p.2 ∈ Double ∧ a ≤ p.2 ∧ p.2 ≤ 2 ^ 20 * a) → Large a t
  | .leaf rows, h => h rows (by simp [leaves])
  | .node _ _ l r, h => ⟨large_of l fun L hL => h L (by simp [leaves, hL]),
      large_of r fun L hL => h L (by simp [leaves, hL])⟩

private theorem leaf_large (h : Nearest fl) (ho : SumsAll o) {a : ℝ} (ha : (2 : ℝ) ^ (514 : ℤ) ≤ a)
    (ha' : a ≤ (2 : ℝ) ^ (900 : ℤ)) {rows : List (Row d)} (hr : Large a (.leaf rows)) :
    ∃ m : ℝ, (leafPrediction fl o (rows.map liftRow)).1 = .fin m ∧ m ∈ Double ∧ a / 2 ≤ m ∧
      m ≤ 2 ^ 21 * a := by
  obtain ⟨hne, hn, hb⟩ := hr
  have hne' : rows.map (·.2) ≠ [] := by simpa using hne
  have hp := List.length_pos_iff.2 hne'
  have hn' : (rows.map (·.2)).length ≤ 2 ^ 20 := by simpa using hn
  have h1a : 1 ≤ a := le_trans (one_le_zpow₀ (by norm_num) (by norm_num)) ha
  have hb' : ∀ y ∈ rows.map (·.2), y ∈ Double ∧ a ≤ y ∧ y ≤ 2 ^ 20 * a := by
    intro y hy
    obtain ⟨q, hq, rfl⟩ := List.mem_map.1 hy
    exact hb q hq
  obtain ⟨m1, -⟩ := npMean_agrees h hne' (order := o.flat) (ho _ hp).2 (m := 920) (by norm_num)
    (by norm_num) hn' (by
      intro y hy
      obtain ⟨-, b1, b2⟩ := hb' y hy
      rw [abs_of_nonneg (by linarith only [b1, h1a])]
      refine b2.trans ?_
      rw [show (920 : ℤ) = 20 + 900 by norm_num, zpow_add₀ (by norm_num),
        show (2 : ℝ) ^ (20 : ℤ) = 2 ^ 20 from zpow_natCast 2 20]
      gcongr)
  obtain ⟨b1, b2⟩ := mean_big h hne' hn' (order := o.flat) (ho _ hp).2 h1a (K := 2 ^ 20) (by norm_num)
    (by norm_num) hb'
  refine ⟨meanOf fl o.flat (rows.map (·.2)), ?_, RoundedTrees.meanOf_mem h _ _, b1,
    b2.trans (by linarith only [h1a])⟩
  rw [leafPrediction, map_outputs, m1]

private theorem predictByTree_large (h : Nearest fl) (ho : SumsAll o) {a : ℝ}
    (ha : (2 : ℝ) ^ (514 : ℤ) ≤ a) (ha' : a ≤ (2 : ℝ) ^ (900 : ℤ)) (x : Point d) :
    ∀ t : Tree d, Large a t → (∃ rows, t = .leaf rows) ∨ ∃ (m : ℝ) (s : Flt),
      predictByTree fl o x (asFloats t) = .ok (.fin m, s) ∧ m ∈ Double ∧ a / 2 ≤ m ∧ m ≤ 2 ^ 21 * a
  | .leaf rows, _ => .inl ⟨rows, rfl⟩
  | .node i v l r, ht => by
    right
    have ihl := predictByTree_large h ho ha ha' x l ht.1
    have ihr := predictByTree_large h ho ha ha' x r ht.2
    have leaf : ∀ rows : List (Row d), Large a (.leaf rows) → ∃ (m : ℝ) (s : Flt),
        (Except.ok (leafPrediction fl o (rows.map liftRow)) : Py (Flt × Flt)) = .ok (.fin m, s) ∧
          m ∈ Double ∧ a / 2 ≤ m ∧ m ≤ 2 ^ 21 * a := by
      intro rows hr
      obtain ⟨m, h1, h2⟩ := leaf_large h ho ha ha' hr
      exact ⟨m, _, congrArg Except.ok (Prod.ext h1 rfl), h2⟩
    rw [asFloats, predictByTree.eq_def]
    simp only []
    split_ifs
    · cases l with
      | leaf rows => exact leaf rows ht.1
      | node =>
        rcases ihl with ⟨_, h⟩ | h
        · cases h
        · exact h
    · cases r with
      | leaf rows => exact leaf rows ht.2
      | node =>
        rcases ihr with ⟨_, h⟩ | h
        · cases h
        · exact h

/-- C143: with responses of `2^514` (about 5.4e154) or more the predicted mean is a number, but the
square of it is not: `compute_sigma` subtracts infinity from infinity, and every predicted deviation is
NaN. -/
theorem C143_nan_deviation (h : Nearest fl) (ho : SumsAll o) {trees : List (Tree d)} (hne : trees ≠ [])
    (hn : trees.length ≤ 2 ^ 20) (hroot : ∀ t ∈ trees, ∃ f v l r, t = .node f v l r) {a : ℝ}
    (ha : (2 : ℝ) ^ (514 : ℤ) ≤ a) (ha' : a ≤ (2 : ℝ) ^ (900 : ℤ))
    (hleaf : ∀ t ∈ trees, ∀ L ∈ leaves t, L ≠ [] ∧ L.length ≤ 2 ^ 20 ∧
      ∀ p ∈ L, p.2 ∈ Double ∧ a ≤ p.2 ∧ p.2 ≤ 2 ^ 20 * a) (x : Point d) :
    ∃ m : ℝ, predictByTreesOne fl o x (trees.map asFloats) = .ok (.fin m, .nan) ∧ a / 4 ≤ m ∧
      m ≤ 2 ^ 26 * a := by
  have h1a : 1 ≤ a := le_trans (one_le_zpow₀ (by norm_num) (by norm_num)) ha
  have h4 : (2 : ℝ) ^ (514 : ℤ) = 4 * (2 : ℝ) ^ (512 : ℤ) := by
    rw [show (514 : ℤ) = 2 + 512 by norm_num, zpow_add₀ (by norm_num)]
    norm_num
  have h512 : (2 : ℝ) ^ (512 : ℤ) ≤ a / 4 := by
    rw [h4] at ha
    linarith only [ha]
  have hone : ∀ t ∈ trees, ∃ (m : ℝ) (s : Flt), predictByTree fl o x (asFloats t) = .ok (.fin m, s) ∧
      m ∈ Double ∧ a / 2 ≤ m ∧ m ≤ 2 ^ 21 * a := by
    intro t ht
    rcases predictByTree_large h ho ha ha' x t (large_of t (hleaf t ht)) with ⟨rows, he⟩ | hp
    · obtain ⟨f, v, l, r, he'⟩ := hroot t ht
      rw [he] at he'
      cases he'
    · exact hp
  have hall : ∀ ts : List (Tree d), (∀ t ∈ ts, ∃ (m : ℝ) (s : Flt),
      predictByTree fl o x (asFloats t) = .ok (.fin m, s) ∧ m ∈ Double ∧ a / 2 ≤ m ∧ m ≤ 2 ^ 21 * a) →
      ∃ ps : List (ℝ × Flt), (ts.map asFloats).mapM (predictByTree fl o x) =
        .ok (ps.map fun p => (.fin p.1, p.2)) ∧ ps.length = ts.length ∧
        ∀ p ∈ ps, p.1 ∈ Double ∧ a / 2 ≤ p.1 ∧ p.1 ≤ 2 ^ 21 * a := by
    intro ts
    induction ts with
    | nil => exact fun _ => ⟨[], rfl, rfl, by simp⟩
    | cons t ts ih =>
      intro ht
      obtain ⟨m, s, e1, e2⟩ := ht t (by simp)
      obtain ⟨ps, g1, g2, g3⟩ := ih fun t' h' => ht t' (by simp [h'])
      refine ⟨(m, s) :: ps, ?_, by simp [g2], ?_⟩
      · rw [List.map_cons, List.mapM_cons, e1, g1]
        rfl
      · intro p hp
        rcases List.mem_cons.1 hp with rfl | hp
        · exact e2
        · exact g3 p hp
  obtain ⟨ps, p1, p2, p3⟩ := hall trees hone
  have hps : ps ≠ [] := by
    rintro rfl
    exact hne (List.length_eq_zero_iff.1 (by simpa using p2.symm))
  have hmu : ps.map (·.1) ≠ [] := by simpa using hps
  have hpos := List.length_pos_iff.2 hmu
  have hn' : (ps.map (·.1)).length ≤ 2 ^ 20 := by simpa [p2] using hn
  have hb : ∀ y ∈ ps.map (·.1), y ∈ Double ∧ a / 2 ≤ y ∧ y ≤ 2 ^ 22 * (a / 2) := by
    intro y hy
    obtain ⟨p, hp, rfl⟩ := List.mem_map.1 hy
    obtain ⟨q1, q2, q3⟩ := p3 p hp
    exact ⟨q1, q2, q3.trans (by linarith only [h1a])⟩
  have h1a2 : 1 ≤ a / 2 := by
    have : (1 : ℝ) ≤ (2 : ℝ) ^ (512 : ℤ) := one_le_zpow₀ (by norm_num) (by norm_num)
    have := this.trans h512
    linarith only [this]
  obtain ⟨b1, b2⟩ := mean_big h hmu hn' (order := o.flat) (ho _ hpos).2 h1a2 (K := 2 ^ 22) (by norm_num)
    (by norm_num) hb
  obtain ⟨m1, -⟩ := npMean_agrees h hmu (order := o.flat) (ho _ hpos).2 (m := 930) (by norm_num)
    (by norm_num) hn' (by
      intro y hy
      obtain ⟨-, b1, b2⟩ := hb y hy
      rw [abs_of_nonneg (by linarith only [b1, h1a])]
      refine b2.trans ?_
      rw [show (930 : ℤ) = 30 + 900 by norm_num, zpow_add₀ (by norm_num),
        show (2 : ℝ) ^ (30 : ℤ) = 2 ^ 30 from zpow_natCast 2 30]
      calc (2 : ℝ) ^ 22 * (a / 2) ≤ 2 ^ 30 * a := by linarith only [h1a]
        _ ≤ _ := by gcongr)
  have hmean : square fl (.fin (meanOf fl o.flat (ps.map (·.1)))) = .pinf :=
    square_big h (h512.trans (by linarith only [b1]))
  have e1 : (ps.map fun p => ((.fin p.1, p.2) : Flt × Flt)).map (·.1) = (ps.map (·.1)).map Flt.fin := by
    simp [Function.comp_def]
  have hbad : ∀ g : Flt × Flt → Flt, Bad (npMean fl o.flat (List.zipWith
      (fun m s => Overflow.add fl (square fl m) (square fl s)) ((ps.map (·.1)).map Flt.fin)
      ((ps.map fun p => ((.fin p.1, p.2) : Flt × Flt)).map g))) := by
    intro g
    obtain ⟨p, hp⟩ := List.exists_mem_of_ne_nil ps hps
    have hz : Overflow.add fl (square fl (.fin p.1)) (square fl (g (.fin p.1, p.2))) ∈ List.zipWith
      (fun m s => Overflow.add fl (square fl m) (square fl s)) ((ps.map (·.1)).map Flt.fin)
      ((ps.map fun p => ((.fin p.1, p.2) : Flt × Flt)).map g) := by
      simp only [List.map_map, Function.comp_def, List.zipWith_map, List.zipWith_self]
      exact List.mem_map.2 ⟨p, hp, rfl⟩
    refine mean_bad ?_ hz (absorbing_bad _ _ (.inl ?_)).1
    · simp only [List.length_zipWith, List.length_map, min_self]
      exact (ho _ (List.length_pos_iff.2 hps)).2
    · exact square_big h (h512.trans (by linarith only [(p3 p hp).2.1, h1a]))
  refine ⟨meanOf fl o.flat (ps.map (·.1)), ?_, by linarith only [b1], b2.trans (by linarith only [h1a])⟩
  have hsub : ∀ b : Flt, Bad b → Overflow.sub fl b .pinf = .nan := by
    rintro b (rfl | rfl) <;> rfl
  have hmax : pyMax .nan (.fin 0) = .nan := if_neg id
  have hb2 := hbad fun q => npMaximum q.2 (Overflow.add fl (.fin 0) (.fin 0))
  simp only [List.map_map, Function.comp_def] at hb2
  simp only [predictByTreesOne, computeSigma, p1, e1, pyAssert, List.length_map, if_true, bind,
    Except.bind, pure, Except.pure, m1, hmean, List.map_map, Function.comp_def]
  simp only [List.map_map, Function.comp_def] at m1
  simp only [m1, hmean, hsub _ hb2, hmax]
  rfl

/-- A tree of two rows with the response `2^600` each. -/
example : ∃ m : ℝ, predictByTreesOne (d := 1) roundUp ⟨inTurn, inTurn⟩ (fun _ => 3)
    [.node 0 (.fin 1) (.leaf [(fun _ => 0, .fin (2 ^ (600 : ℤ)))])
      (.leaf [(fun _ => 2, .fin (2 ^ (600 : ℤ)))])] = .ok (.fin m, .nan) := by
  have hD : (2 : ℝ) ^ (600 : ℤ) ∈ Double := double_half (by norm_num)
  have h1 : (2 : ℝ) ^ (514 : ℤ) ≤ (2 : ℝ) ^ (600 : ℤ) := zpow_le_zpow_right₀ (by norm_num) (by norm_num)
  have h2 : (2 : ℝ) ^ (600 : ℤ) ≤ (2 : ℝ) ^ (900 : ℤ) := zpow_le_zpow_right₀ (by norm_num) (by norm_num)
  have h0 : (0 : ℝ) < (2 : ℝ) ^ (600 : ℤ) := by positivity
  generalize (2 : ℝ) ^ (600 : ℤ) = c at hD h1 h2 h0 ⊢
  obtain ⟨m, hm, -⟩ := C143_nan_deviation (d := 1) roundUp_nearest inTurn_sumsAll
    (trees := [.node 0 1 (.leaf [(fun _ => 0, c)]) (.leaf [(fun _ => 2, c)])]) (by simp) (by simp)
    (by simp) h1 h2 (by
      intro t ht L hL
      rw [List.mem_singleton.1 ht] at hL
      simp only [leaves, List.singleton_append, List.mem_pair] at hL
      rcases hL with rfl | rfl <;>
      · refine ⟨by simp, by simp, fun p hp => ?_⟩
        rw [List.mem_singleton.1 hp]
        exact ⟨hD, le_rfl, by linarith only [h0]⟩) (fun _ => 3)
  exact ⟨m, hm⟩

end Verif.Props
