import Verif.Lemmas.Moved
import Verif.Props.TreeUnits

/-! One step of each surrogate in another frame of the search space. -/

namespace Verif.Lemmas

open Verif.Spec Verif.Covariance Verif.UtilsCovariance Verif.UtilsBo Verif.BaseBo
open Verif.BoCommon Verif.Constants Verif.Gp Verif.WrapperClass Verif.WrappersBo

variable {d n : ℕ} {F : Frame d}

/-- `m'` changes the object as `m` does, reads the clock as often, and has the outcome of `m` up
to `f`. -/
def Echoes {σ A A' : Type} (f : A → A') (m' : OptM σ A') (m : OptM σ A) : Prop :=
  ∀ s, m' s = ((m s).1, (m s).2.map f)

theorem echoes_self {σ A : Type} (m : OptM σ A) : Echoes id m m := fun s => by
  rcases m s with ⟨_, _ | _⟩ <;> rfl

theorem echoes_bind {σ A A' B B' : Type} {f : A → A'} {g : B → B'} {m' : OptM σ A'}
    {m : OptM σ A} {k' : A' → OptM σ B'} {k : A → OptM σ B} (h : Echoes f m' m)
    (hk : ∀ a, Echoes g (k' (f a)) (k a)) : Echoes g (m' >>= k') (m >>= k) := fun s => by
  simp only [bind, h s]
  rcases m s with ⟨s', e | a⟩
  · rfl
  · exact hk a s'

theorem echoes_lift {σ A A' : Type} {f : A → A'} {p' : Py A'} {p : Py A} (h : p' = p.map f) :
    Echoes f (OptM.lift p' : OptM σ A') (OptM.lift p) := fun s => by rw [h]; rfl

theorem echoes_of_eq {σ A : Type} {m m' : OptM σ A} (h : m' = m) : Echoes id m' m := by
  rw [h]
  exact echoes_self m

theorem vec_congr {β : Sort*} (g : (k : ℕ) → Inputs k d → β) {k l : ℕ} (h : k = l)
    {A : Fin k → Point d} {B : Fin l → Point d} (hAB : ∀ i, A i = B (Fin.cast h i)) :
    g k (.vec A) = g l (.vec B) := by
  subst h
  rw [show A = B from funext hAB]

theorem vec_map {β : Sort*} (g : (k : ℕ) → Inputs k d → β) (f : Point d → Point d)
    (X : List (Point d)) :
    g (X.map f).length (.vec (X.map f).get) = g X.length (mapInputs f (.vec X.get)) :=
  vec_congr g (by rw [List.length_map]) fun i => by simp

/-- What a step of a process reports, in the new coordinates. -/
def frameInfo (F : Frame d) (i : DictInfo n d) : DictInfo n d :=
  { i with next_points := i.next_points.map F.pt }

theorem pyIndex_map {α β : Type} (f : α → β) (l : List α) (i : ℕ) :
    pyIndex (l.map f) i = (pyIndex l i).map f := by
  simp only [pyIndex, List.getElem?_map]
  rcases l[i]? with _ | a <;> rfl

theorem frame_one_inBounds (p : Point d) (B : Bounds d) :
    (do pyIndex (← checkPointsInBounds [F.pt p] (F.bounds B)) 0 : Py (Point d)) =
      (do pyIndex (← checkPointsInBounds [p] B) 0 : Py (Point d)).map F.pt := by
  have h := frame_inBounds F [p] B
  rw [List.map_cons, List.map_nil] at h
  rw [h]
  rcases checkPointsInBounds [p] B with e | pts
  · rfl
  · exact pyIndex_map F.pt pts 0

/-! ### Gaussian processes -/

/-- The object in the new coordinates. -/
noncomputable def frameGp (F : Frame d) (bo : BoWGp.BOwGP d) : BoWGp.BOwGP d :=
  { bo with range_X := F.bounds bo.range_X, prior_mu := F.prior bo.prior_mu }

theorem gp_neg_moved (hF : F.IsShift) (bo : BoWGp.BOwGP d) (X : Inputs n d) (Y : Fin n → ℝ)
    (fit : Option (Fit n)) (L : List (Point d)) :
    BoWGp.negAcquisition (frameGp F bo) (mapInputs F.pt X) Y fit (L.map F.pt) =
      BoWGp.negAcquisition bo X Y fit L := by
  rcases fit with _ | fit
  · rfl
  · simp only [BoWGp.negAcquisition]
    rw [vec_map (fun k (Z : Inputs k d) =>
      BoWGp.computeAcquisitions (frameGp F bo) Z (mapInputs F.pt X) Y fit) F.pt L]
    simp only [BoWGp.computeAcquisitions, BoWGp.computePosteriors, mapInputs_validate, frameGp,
      shift_predict hF]

theorem gp_one_moved (hF : F.IsShift) (bo : BoWGp.BOwGP d) (X : Inputs n d) (Y : Fin n → ℝ)
    (fit : Option (Fit n)) :
    (fun x => onePoint (BoWGp.negAcquisition (frameGp F bo) (mapInputs F.pt X) Y fit) (F.pt x)) =
      onePoint (BoWGp.negAcquisition bo X Y fit) := by
  funext x
  have h := gp_neg_moved hF bo X Y fit [x]
  rw [List.map_cons, List.map_nil] at h
  simp only [onePoint, h]

theorem gp_fit_moved (hF : F.IsShift) (bo : BoWGp.BOwGP d) (o : Oracles d) (X : Inputs n d)
    (Y : Fin n → ℝ) (mlm : String) :
    BoWGp.fitSurrogate (frameGp F bo) (F.oracles o) (mapInputs F.pt X) Y mlm =
      BoWGp.fitSurrogate bo o X Y mlm := by
  simp only [BoWGp.fitSurrogate, frameGp, Frame.oracles, shift_optimizedKernel hF, frame_prior,
    shift_negLogMl hF, shift_kernelInverse hF]

theorem gp_step_moved (hF : F.IsShift) (bo : BoWGp.BOwGP d) (o : Oracles d) (clock : ℕ → ℝ)
    (X : Inputs n d) (Y : List ℝ) (sm : String) (ns : ℤ) (mlm : String) :
    Echoes (fun r => (F.pt r.1, frameInfo F r.2))
      (BoWGp.optimize (frameGp F bo) (F.oracles o) clock (mapInputs F.pt X) Y sm ns mlm)
      (BoWGp.optimize bo o clock X Y sm ns mlm) := by
  unfold BoWGp.optimize
  rw [mapInputs_rank]
  refine echoes_bind (echoes_self _) fun _ => ?_
  refine echoes_bind (echoes_self _) fun _ => ?_
  refine echoes_bind (echoes_self _) fun _ => ?_
  refine echoes_bind (echoes_self _) fun _ => ?_
  refine echoes_bind (echoes_self _) fun _ => ?_
  refine echoes_bind (echoes_self _) fun t0 => ?_
  refine echoes_bind (echoes_self _) fun Yn => ?_
  refine echoes_bind (echoes_self _) fun Yt => ?_
  refine echoes_bind (echoes_self _) fun t1 => ?_
  refine echoes_bind (echoes_of_eq (gp_fit_moved hF bo o X Yt mlm)) fun fit => ?_
  refine echoes_bind (echoes_self _) fun _ => ?_
  refine echoes_bind (echoes_self _) fun t2 => ?_
  refine echoes_bind (echoes_self _) fun t3 => ?_
  refine echoes_bind (f := fun r : Point d × List (Point d) => (F.pt r.1, r.2.map F.pt))
    (echoes_lift ?_) fun r => ?_
  · exact (shift_optimizeAcq hF bo.toBaseBO o _ sm ns).trans (by
      simp only [id_eq, gp_one_moved hF])
  refine echoes_bind (f := F.pt) (echoes_lift (frame_one_inBounds r.1 bo.range_X)) fun p => ?_
  refine echoes_bind (f := List.map F.pt) (echoes_lift (frame_inBounds F r.2 bo.range_X))
    fun pts => ?_
  refine echoes_bind (echoes_self _) fun t4 => ?_
  refine echoes_bind (f := id) (echoes_of_eq ?_) fun acq => ?_
  · simp only [id_eq, gp_neg_moved hF]
  refine echoes_bind (echoes_self _) fun t5 => ?_
  exact fun s => rfl

/-! ### Student-t processes -/

/-- The object in the new coordinates. -/
noncomputable def frameTp (F : Frame d) (bo : BoWTp.BOwTP d) : BoWTp.BOwTP d :=
  { bo with range_X := F.bounds bo.range_X, prior_mu := F.prior bo.prior_mu }

theorem tp_neg_moved (hF : F.IsShift) (bo : BoWTp.BOwTP d) (X : Inputs n d) (Y : Fin n → ℝ)
    (fit : Fit n) (L : List (Point d)) :
    BoWTp.negAcquisition (frameTp F bo) (mapInputs F.pt X) Y fit (L.map F.pt) =
      BoWTp.negAcquisition bo X Y fit L := by
  simp only [BoWTp.negAcquisition]
  rw [vec_map (fun k (Z : Inputs k d) =>
    BoWTp.computeAcquisitions (frameTp F bo) Z (mapInputs F.pt X) Y fit) F.pt L]
  simp only [BoWTp.computeAcquisitions, BoWTp.computePosteriors, mapInputs_validate, frameTp,
    shift_tpPredict hF]

theorem tp_one_moved (hF : F.IsShift) (bo : BoWTp.BOwTP d) (X : Inputs n d) (Y : Fin n → ℝ)
    (fit : Fit n) :
    (fun x => onePoint (BoWTp.negAcquisition (frameTp F bo) (mapInputs F.pt X) Y fit) (F.pt x)) =
      onePoint (BoWTp.negAcquisition bo X Y fit) := by
  funext x
  have h := tp_neg_moved hF bo X Y fit [x]
  rw [List.map_cons, List.map_nil] at h
  simp only [onePoint, h]

theorem tp_step_moved (hF : F.IsShift) (bo : BoWTp.BOwTP d) (o : Oracles d) (clock : ℕ → ℝ)
    (X : Inputs n d) (Y : List ℝ) (sm : String) (ns : ℤ) :
    Echoes (fun r => (F.pt r.1, frameInfo F r.2))
      (BoWTp.optimize (frameTp F bo) (F.oracles o) clock (mapInputs F.pt X) Y sm ns)
      (BoWTp.optimize bo o clock X Y sm ns) := by
  unfold BoWTp.optimize
  rw [mapInputs_rank]
  refine echoes_bind (echoes_self _) fun _ => ?_
  refine echoes_bind (echoes_self _) fun _ => ?_
  refine echoes_bind (echoes_self _) fun _ => ?_
  refine echoes_bind (echoes_self _) fun _ => ?_
  refine echoes_bind (echoes_self _) fun t0 => ?_
  refine echoes_bind (echoes_self _) fun Yn => ?_
  refine echoes_bind (echoes_self _) fun Yt => ?_
  refine echoes_bind (echoes_self _) fun t1 => ?_
  refine echoes_bind (f := id) (echoes_of_eq ?_) fun fit => ?_
  · simp only [frameTp, Frame.oracles, shift_tpOptimizedKernel hF, id_eq]
  refine echoes_bind (echoes_self _) fun _ => ?_
  refine echoes_bind (echoes_self _) fun _ => ?_
  refine echoes_bind (echoes_self _) fun t2 => ?_
  refine echoes_bind (echoes_self _) fun t3 => ?_
  refine echoes_bind (f := fun r : Point d × List (Point d) => (F.pt r.1, r.2.map F.pt))
    (echoes_lift ?_) fun r => ?_
  · exact (shift_optimizeAcq hF bo.toBaseBO o _ sm ns).trans (by
      simp only [id_eq, tp_one_moved hF])
  refine echoes_bind (f := F.pt) (echoes_lift (frame_one_inBounds r.1 bo.range_X)) fun p => ?_
  refine echoes_bind (f := List.map F.pt) (echoes_lift (frame_inBounds F r.2 bo.range_X))
    fun pts => ?_
  refine echoes_bind (echoes_self _) fun t4 => ?_
  refine echoes_bind (f := id) (echoes_of_eq ?_) fun acq => ?_
  · simp only [id_eq, tp_neg_moved hF]
  refine echoes_bind (echoes_self _) fun t5 => ?_
  exact fun s => rfl

/-! ### Random forests -/

/-- Two forests answer alike at corresponding points, or there is none because of the same
exception. -/
theorem frame_trees (F : Frame d) (hd : 0 < d) (bo : BaseBO d) {rnd : Trees.ForestRnd d}
    (hr : ForestRndOk rnd true) (X : List (Point d)) (Y : List ℝ) :
    (∃ trees trees', BoWTrees.getTrees bo rnd X Y = .ok trees ∧
      BoWTrees.getTrees (frameBase F bo) rnd (X.map F.pt) Y = .ok trees' ∧
      ∀ L, Trees.predictByTrees (L.map F.pt) trees' = Trees.predictByTrees L trees) ∨
    ∃ e, BoWTrees.getTrees bo rnd X Y = .error e ∧
      BoWTrees.getTrees (frameBase F bo) rnd (X.map F.pt) Y = .error e := by
  by_cases hl : X.length = Y.length
  swap
  · right
    exact ⟨.assertion, by simp [BoWTrees.getTrees, pyAssert, hl, bind, Except.bind],
      by simp [BoWTrees.getTrees, pyAssert, hl, bind, Except.bind]⟩
  by_cases hs : bo.str_surrogate = "rf"
  swap
  · right
    exact ⟨.notImplemented,
      by simp [BoWTrees.getTrees, pyAssert, hl, hs, bind, Except.bind],
      by simp [BoWTrees.getTrees, pyAssert, hl, hs, bind, Except.bind, frameBase]⟩
  have e1 : BoWTrees.getTrees bo rnd X Y =
      Trees.getRandomForest rnd X Y 100 5 1 ⌊Real.sqrt d⌋ := by
    simp [BoWTrees.getTrees, pyAssert, hl, hs, bind, Except.bind]
  have e2 : BoWTrees.getTrees (frameBase F bo) rnd (X.map F.pt) Y =
      Trees.getRandomForest rnd (X.map F.pt) Y 100 5 1 ⌊Real.sqrt d⌋ := by
    simp [BoWTrees.getTrees, pyAssert, hl, hs, bind, Except.bind, frameBase]
  rw [e1, e2]
  rcases X with _ | ⟨x, X⟩
  · right
    obtain rfl : Y = [] := List.length_eq_zero_iff.1 hl.symm
    have : ∃ e, Trees.getRandomForest rnd ([] : List (Point d)) [] 100 5 1 ⌊Real.sqrt d⌋ =
        .error e := by
      have hrange : List.range ((100 : ℤ).toNat) = 0 :: (List.range' 1 99) := by rfl
      rcases h0 : rnd.sample 0 0 0 with _ | ⟨i, idx⟩
      · refine ⟨.assertion, ?_⟩
        simp only [Trees.getRandomForest, hrange, List.mapM_cons, Trees.subsample, pyAssert,
          List.length_nil, Nat.cast_zero, zero_mul, Nat.floor_zero, h0, Trees.takeRows,
          List.mapM_nil, Trees.growTree, Trees.splitNode, bind, Except.bind, pure, Except.pure,
          gt_iff_lt, lt_irrefl, and_false, Bool.true_eq_false, false_and, or_self, if_true,
          if_false, zero_lt_one]
      · refine ⟨.index, ?_⟩
        simp only [Trees.getRandomForest, hrange, List.mapM_cons, Trees.subsample, pyAssert,
          List.length_nil, Nat.cast_zero, zero_mul, Nat.floor_zero, h0, Trees.takeRows,
          pyIndex, List.getElem?_nil, bind, Except.bind, pure, Except.pure,
          gt_iff_lt, lt_irrefl, and_false, Bool.true_eq_false, false_and, or_self, if_true,
          if_false, zero_lt_one]
    obtain ⟨e, he⟩ := this
    exact ⟨e, he, he⟩
  · left
    have hd' : (1 : ℝ) ≤ d := by exact_mod_cast hd
    have hn1 : (1 : ℤ) ≤ ⌊Real.sqrt d⌋ := Int.le_floor.2 (by
      rw [Int.cast_one]; exact Real.one_le_sqrt.2 hd')
    have hnd : ⌊Real.sqrt d⌋ ≤ (d : ℤ) := by
      have h1 : Real.sqrt d ≤ d := Real.sqrt_le_iff.2 ⟨by positivity, by nlinarith⟩
      have h2 : (⌊Real.sqrt d⌋ : ℝ) ≤ (d : ℝ) := (Int.floor_le _).trans h1
      exact_mod_cast h2
    obtain ⟨trees, trees', h1, h2, h3⟩ := Props.C95_inputs hr hl (by simp) (ratio := 1) one_pos
      (by simp) (by simp) hn1 hnd (num := 100) (by norm_num) 5 1 false F.pos F.t
    rw [Props.C94_random_forest, Props.C94_random_forest]
    refine ⟨trees, trees', h1, h2, fun L => ?_⟩
    obtain ⟨mus, sds, g1, -, g2⟩ := h3 L
    rw [g1]
    simp only [List.map_id'] at g2
    exact g2

theorem trees_step_moved (F : Frame d) (hd : 0 < d) {σ : Type} (bo : BaseBO d)
    {rnd : Trees.ForestRnd d} (hr : ForestRndOk rnd true) (dr : Draws d) (clock : ℕ → ℝ)
    (X : List (Point d)) (Y : List ℝ) (sm : String) (ns : ℤ) (s : σ × ℕ) :
    let m' := BoWTrees.optimize (frameBase F bo) ⟨rnd, dr⟩ clock (X.map F.pt) Y sm ns s
    let m := BoWTrees.optimize bo ⟨rnd, dr⟩ clock X Y sm ns s
    (m'.1, m'.2.map fun a => (a.1, infoTrees a.2)) =
      (m.1, (m.2.map fun a => (a.1, infoTrees a.2)).map fun r => (F.pt r.1, F.info r.2)) := by
  have hacq : ∀ (trees trees' : List (Trees.Tree d)),
      (∀ L, Trees.predictByTrees (L.map F.pt) trees' = Trees.predictByTrees L trees) →
      ∀ (L : List (Point d)) (Yt : List ℝ),
      BoWTrees.computeAcquisitions (frameBase F bo) (L.map F.pt) (X.map F.pt) Yt trees' =
        BoWTrees.computeAcquisitions bo L X Yt trees := by
    intro trees trees' h L Yt
    simp only [BoWTrees.computeAcquisitions, BoWTrees.computePosteriors, h, List.length_map,
      frameBase]
  simp only [BoWTrees.optimize, bind, OptM.lift, OptM.now, List.length_map]
  rcases pyAssert (X.length = Y.length) with e | _
  · rfl
  simp only
  rcases pyAssert (ns > 0) with e | _
  · rfl
  simp only
  rcases pyAssert (sm ∈ ALLOWED_SAMPLING_METHOD) with e | _
  · rfl
  simp only
  have hb : (if (frameBase F bo).normalize_Y = true then normalizeMinMax Y else Except.ok Y) =
    (if bo.normalize_Y = true then normalizeMinMax Y else Except.ok Y) := rfl
  rw [hb]
  rcases (if bo.normalize_Y = true then normalizeMinMax Y else Except.ok Y) with e | Yt
  · rfl
  simp only
  rcases frame_trees F hd bo hr X Yt with ⟨trees, trees', h1, h2, h3⟩ | ⟨e, h1, h2⟩
  swap
  · rw [h1, h2]
    rfl
  rw [h1, h2]
  simp only [frameBase, frame_samples]
  rcases getSamples bo.range_X dr sm ns with e | pts
  · rfl
  simp only [Except.map, frame_inBounds]
  rcases checkPointsInBounds pts bo.range_X with e | pts
  · rfl
  simp only [Except.map]
  have h4 := hacq trees trees' h3 pts Yt
  simp only [frameBase] at h4
  rw [h4]
  rcases BoWTrees.computeAcquisitions bo pts X Yt trees with e | acq
  · rfl
  simp only
  rcases npArgmin ((acq.map (-1 * ·)).map Flt.fin) with e | k
  · rfl
  simp only [pyIndex_map]
  rcases pyIndex pts k with e | p
  · rfl
  · rfl

end Verif.Lemmas
