import Verif.Lemmas.StepPost
import Verif.Props.Trees

/-! C60: what `optimize` proposes and reports. -/

namespace Verif.Props

open Verif.BoCommon Verif.UtilsBo Verif.UtilsCovariance Verif.Constants Verif.BaseBo
open Verif.Spec Verif.Lemmas
open Verif.Covariance (Inputs)

variable {n d : ℕ}

/-- C60 for Gaussian processes. A call that returns proposes one of the candidates, all of them
inside the bounds. For some function `g` which on each candidate is minus ten times the named
acquisition function at what the fitted process predicts for that candidate, the proposal is
the first candidate with the lowest `g`, hence the largest acquisition. The reported array has one
entry per candidate; unless the prior mean mixes rows, entry `i` is `g` of candidate `i`. -/
theorem C60_gp {bo : BoWGp.BOwGP d} {o : Oracles d} {clock : ℕ → ℝ} {X : Inputs n d} {Y : List ℝ}
    {sm : String} {ns : ℤ} {mlm : String} {st : BoWGp.GpState × ℕ} {r : BoWGp.GpState × ℕ}
    {p : Point d} {info : DictInfo n d}
    (h : BoWGp.optimize bo o clock X Y sm ns mlm st = (r, .ok (p, info))) :
    ∃ (Xv : Fin n → Point d) (Yt : Fin n → ℝ) (fit : Fit n) (g : Point d → ℝ) (k : ℕ),
      X = .vec Xv ∧ List.ofFn Yt = info.Y_normalized ∧ info.fit = some fit ∧
      (∀ q ∈ info.next_points, InBox bo.range_X q) ∧
      FirstLowest g info.next_points k p ∧
      (∀ q ∈ info.next_points, ∃ mu sd S v,
        Gp.predictWithCov (.vec Xv) Yt (.vec fun _ : Fin 1 => q) fit.1 fit.2.1 fit.2.2 bo.str_cov
          bo.prior_mu = .ok (mu, sd, S) ∧
        AcqAt bo.str_acq (noiseOf fit.2.2) (mu 0) (sd 0) info.Y_normalized v ∧ g q = -10 * v) ∧
      info.acquisitions.length = info.next_points.length ∧
      (RowWise bo.prior_mu → info.acquisitions = info.next_points.map g) := by
  obtain ⟨st, t⟩ := st
  obtain ⟨h1, -, -, -, -, -, -, Yt, st1, h2, -, -, h3, -, h4, h5, -⟩ := gp_optimize_ok h
  obtain ⟨-, hY⟩ := column_ok h2
  cases X with
  | set m S => simp [Inputs.rank] at h1
  | vec Xv =>
  cases hfit : info.fit with
  | none => rw [hfit] at h5; cases h5
  | some fit =>
  rw [hfit] at h3 h5
  obtain ⟨noise, hn⟩ : ∃ noise, noiseArg fit.2.2 = .ok noise := by
    cases hn : noiseArg fit.2.2 with
    | ok noise => exact ⟨noise, rfl⟩
    | error e =>
      simp [BoWGp.negAcquisition, BoWGp.computeAcquisitions, Gp.validateCommonArgs, hn, bind,
        Except.bind] at h5
  rw [gp_negAcq bo Xv Yt fit hn] at h3 h5
  obtain ⟨hl, g, k, hk, hs, hrow⟩ := chosen (gpPost_len bo Xv Yt fit) h3 h5
  refine ⟨Xv, Yt, fit, g, k, rfl, hY, rfl, h4, hk, ?_, hl, ?_⟩
  · intro q hq
    obtain ⟨m, s, v, e1, e2, e3⟩ := hs q hq
    obtain ⟨mu, sd, S, e4, rfl, rfl⟩ := gpPost_single bo Xv Yt fit q m s e1
    exact ⟨mu, sd, S, v, e4, by rw [← noiseArg_ok hn, ← hY]; exact e2, e3⟩
  · intro hp
    exact hrow fun m s hms i q x y => gpPost_row bo hp Xv Yt fit _ m s hms i q x y

/-- C60 for Student-t processes. -/
theorem C60_tp {bo : BoWTp.BOwTP d} {o : Oracles d} {clock : ℕ → ℝ} {X : Inputs n d} {Y : List ℝ}
    {sm : String} {ns : ℤ} {st : BoWTp.TpState × ℕ} {r : BoWTp.TpState × ℕ}
    {p : Point d} {info : DictInfo n d}
    (h : BoWTp.optimize bo o clock X Y sm ns st = (r, .ok (p, info))) :
    ∃ (Xv : Fin n → Point d) (Yt : Fin n → ℝ) (fit : Fit n) (g : Point d → ℝ) (k : ℕ),
      X = .vec Xv ∧ List.ofFn Yt = info.Y_normalized ∧ info.fit = some fit ∧
      (∀ q ∈ info.next_points, InBox bo.range_X q) ∧
      FirstLowest g info.next_points k p ∧
      (∀ q ∈ info.next_points, ∃ nu mu sd S v,
        Tp.predictWithCov (.vec Xv) Yt (.vec fun _ : Fin 1 => q) fit.1 fit.2.1 fit.2.2 bo.str_cov
          bo.prior_mu = .ok (nu, mu, sd, S) ∧
        AcqAt bo.str_acq (noiseOf fit.2.2) (mu 0) (sd 0) info.Y_normalized v ∧ g q = -10 * v) ∧
      info.acquisitions.length = info.next_points.length ∧
      (RowWise bo.prior_mu → info.acquisitions = info.next_points.map g) := by
  obtain ⟨st, t⟩ := st
  obtain ⟨h1, -, -, -, -, -, Yt, fit, h2, hfit, -, -, h3, -, h4, h5, -⟩ := tp_optimize_ok h
  obtain ⟨-, hY⟩ := column_ok h2
  cases X with
  | set m S => simp [Inputs.rank] at h1
  | vec Xv =>
  obtain ⟨noise, hn⟩ : ∃ noise, noiseArg fit.2.2 = .ok noise := by
    cases hn : noiseArg fit.2.2 with
    | ok noise => exact ⟨noise, rfl⟩
    | error e =>
      simp [BoWTp.negAcquisition, BoWTp.computeAcquisitions, Gp.validateCommonArgs, hn, bind,
        Except.bind] at h5
  rw [tp_negAcq bo Xv Yt fit hn] at h3 h5
  obtain ⟨hl, g, k, hk, hs, hrow⟩ := chosen (tpPost_len bo Xv Yt fit) h3 h5
  refine ⟨Xv, Yt, fit, g, k, rfl, hY, hfit, h4, hk, ?_, hl, ?_⟩
  · intro q hq
    obtain ⟨m, s, v, e1, e2, e3⟩ := hs q hq
    obtain ⟨nu, mu, sd, S, e4, rfl, rfl⟩ := tpPost_single bo Xv Yt fit q m s e1
    exact ⟨nu, mu, sd, S, v, e4, by rw [← noiseArg_ok hn, ← hY]; exact e2, e3⟩
  · intro hp
    exact hrow fun m s hms i q x y => tpPost_row bo hp Xv Yt fit _ m s hms i q x y

/-- C60 for random forests: the same, with the prediction of the forest and the noise level
0.01; the reported array always lists `g` of the candidates. -/
theorem C60_trees {σ : Type} {bo : BaseBO d} {o : BoWTrees.TreesOracles d} {clock : ℕ → ℝ}
    {X : List (Point d)} {Y : List ℝ} {sm : String} {ns : ℤ} {st r : σ × ℕ} {p : Point d}
    {info : BoWTrees.DictInfoTrees d}
    (h : BoWTrees.optimize bo o clock X Y sm ns st = (r, .ok (p, info))) :
    ∃ (g : Point d → ℝ) (k : ℕ),
      (∀ q ∈ info.next_points, InBox bo.range_X q) ∧
      FirstLowest g info.next_points k p ∧
      (∀ q ∈ info.next_points, ∃ mu sd v, Trees.predictByTreesOne q info.trees = .ok (mu, sd) ∧
        AcqAt bo.str_acq (some 0.01) mu sd info.Y_normalized v ∧ g q = -10 * v) ∧
      info.acquisitions = info.next_points.map g := by
  obtain ⟨st, t⟩ := st
  obtain ⟨-, -, -, -, -, -, -, -, hbox, ⟨a, ha, hacq⟩, ⟨k, hk, hp⟩, -⟩ := trees_optimize_ok h
  have hb := trees_acq ha
  rw [← hacq] at hb
  have hlen : ∀ (pts : List (Point d)) m s, Trees.predictByTrees pts info.trees = .ok (m, s) →
      m.length = pts.length ∧ s.length = pts.length := fun pts m s h =>
    ⟨(treesPost_ok h).1, (treesPost_ok h).2.1⟩
  obtain ⟨hl, hrow⟩ := batchAcq_row hlen hb
  have hrow := hrow fun m s hms i q x y hq hx hy =>
    treesPost_single ((treesPost_ok hms).2.2 i q x y hq hx hy)
  have hnoise : (GP_NOISE : ℝ) = 0.01 := by norm_num [GP_NOISE]
  -- the value of a candidate is what it gives alone
  let g : Point d → ℝ := fun q =>
    match batchAcq bo.str_acq (some GP_NOISE) (fun pts => Trees.predictByTrees pts info.trees)
      info.Y_normalized [q] with
    | .ok [v] => v
    | _ => 0
  have hg : info.acquisitions = info.next_points.map g := by
    refine List.ext_getElem (by simp [hl]) fun i h1 h2 => ?_
    have hi : i < info.next_points.length := by omega
    have := hrow i _ _ (List.getElem?_eq_getElem hi) (List.getElem?_eq_getElem h1)
    simp only [List.getElem_map, g, this]
  have hidx : info.next_points[k]? = some p := by
    unfold pyIndex at hp
    split at hp
    · next hq => rw [hq]; exact congrArg some (Except.ok.inj hp)
    · cases hp
  refine ⟨g, k, hbox, ⟨hidx, ?_, ?_⟩, ?_, hg⟩
  · rcases npArgmin_spec hk with h | ⟨⟨v, hv, hmin, -⟩, -⟩
    · obtain ⟨h, -⟩ := h
      rw [List.getElem?_map, Option.map_eq_some_iff] at h
      obtain ⟨_, -, h⟩ := h
      cases h
    · intro q hq
      obtain ⟨j, hj⟩ := List.getElem?_of_mem hq
      rw [hg, List.map_map] at hv hmin
      rw [List.getElem?_map, hidx] at hv
      have := hmin j (.fin (g q)) (by rw [List.getElem?_map, hj]; rfl)
      obtain rfl := Option.some.inj hv
      exact (Flt.fin_le_fin _ _).1 this
  · rcases npArgmin_spec hk with h | ⟨⟨v, hv, -, hmin⟩, -⟩
    · obtain ⟨h, -⟩ := h
      rw [List.getElem?_map, Option.map_eq_some_iff] at h
      obtain ⟨_, -, h⟩ := h
      cases h
    · intro j q hjk hj
      rw [hg, List.map_map] at hv hmin
      rw [List.getElem?_map, hidx] at hv
      have := hmin j (.fin (g q)) hjk (by rw [List.getElem?_map, hj]; rfl)
      obtain rfl := Option.some.inj hv
      exact (Flt.fin_lt_fin _ _).1 this
  · intro q hq
    obtain ⟨i, hi, rfl⟩ := List.getElem_of_mem hq
    have h1 := hrow i _ _ (List.getElem?_eq_getElem hi)
      (List.getElem?_eq_getElem (show i < info.acquisitions.length by omega))
    have h2 : onePoint (batchAcq bo.str_acq (some GP_NOISE)
        (fun pts => Trees.predictByTrees pts info.trees) info.Y_normalized) info.next_points[i] =
        .ok (.fin (info.acquisitions[i]'(by omega))) := by
      simp [onePoint, h1, bind, Except.bind, pyIndex, pure, Except.pure]
    obtain ⟨m, s, v, e1, e2, e3, e4⟩ := batchAcq_single hlen h2
    refine ⟨m, s, v, (treesPost_ok e1).2.2 0 _ m s rfl rfl rfl, hnoise ▸ e2, ?_⟩
    simp only [g, e4]

end Verif.Props
