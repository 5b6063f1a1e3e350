import Verif.Lemmas.StepAcq
import Verif.Props.Trees

/-! The predictors of the models as functions of a list of candidates. -/

namespace Verif.Lemmas

open Verif.BoCommon Verif.UtilsBo Verif.UtilsCovariance Verif.Constants Verif.BaseBo Verif.Spec
open Verif.Covariance (Inputs)

variable {n d : ℕ}

/-- The predictor of `BOwGP` on plain inputs. -/
noncomputable def gpPost (bo : BoWGp.BOwGP d) (X : Fin n → Point d) (Y : Fin n → ℝ) (fit : Fit n)
    (pts : List (Point d)) : Py (List ℝ × List ℝ) := do
  let r ← Gp.predictWithCov (.vec X) Y (.vec pts.get) fit.1 fit.2.1 fit.2.2 bo.str_cov bo.prior_mu
  return (List.ofFn r.1, List.ofFn r.2.1)

/-- The predictor of `BOwTP` on plain inputs. -/
noncomputable def tpPost (bo : BoWTp.BOwTP d) (X : Fin n → Point d) (Y : Fin n → ℝ) (fit : Fit n)
    (pts : List (Point d)) : Py (List ℝ × List ℝ) := do
  let r ← Tp.predictWithCov (.vec X) Y (.vec pts.get) fit.1 fit.2.1 fit.2.2 bo.str_cov bo.prior_mu
  return (List.ofFn r.2.1, List.ofFn r.2.2.1)

theorem gp_negAcq (bo : BoWGp.BOwGP d) (X : Fin n → Point d) (Y : Fin n → ℝ) (fit : Fit n)
    {noise : Option ℝ} (hn : noiseArg fit.2.2 = .ok noise) :
    BoWGp.negAcquisition bo (.vec X) Y (some fit) =
      batchAcq bo.str_acq noise (gpPost bo X Y fit) (List.ofFn Y) := by
  funext pts
  simp only [BoWGp.negAcquisition, BoWGp.computeAcquisitions, BoWGp.computePosteriors,
    Gp.validateCommonArgs, hn, batchAcq, gpPost, bind, Except.bind, pure, Except.pure]
  cases chooseFunAcquisition bo.str_acq noise with
  | error e => rfl
  | ok f =>
    simp only
    cases Gp.predictWithCov (.vec X) Y (.vec pts.get) fit.1 fit.2.1 fit.2.2 bo.str_cov
      bo.prior_mu with
    | error e => rfl
    | ok r =>
      simp only
      cases f (List.ofFn r.1) (List.ofFn r.2.1) (List.ofFn Y) <;> rfl

theorem tp_negAcq (bo : BoWTp.BOwTP d) (X : Fin n → Point d) (Y : Fin n → ℝ) (fit : Fit n)
    {noise : Option ℝ} (hn : noiseArg fit.2.2 = .ok noise) :
    BoWTp.negAcquisition bo (.vec X) Y fit =
      batchAcq bo.str_acq noise (tpPost bo X Y fit) (List.ofFn Y) := by
  funext pts
  simp only [BoWTp.negAcquisition, BoWTp.computeAcquisitions, BoWTp.computePosteriors,
    Gp.validateCommonArgs, hn, batchAcq, tpPost, bind, Except.bind, pure, Except.pure]
  cases chooseFunAcquisition bo.str_acq noise with
  | error e => rfl
  | ok f =>
    simp only
    cases Tp.predictWithCov (.vec X) Y (.vec pts.get) fit.1 fit.2.1 fit.2.2 bo.str_cov
      bo.prior_mu with
    | error e => rfl
    | ok r =>
      simp only
      cases f (List.ofFn r.2.1) (List.ofFn r.2.2.1) (List.ofFn Y) <;> rfl

theorem get_single (q : Point d) : ([q] : List (Point d)).get = fun _ : Fin 1 => q := by
  funext i
  fin_cases i
  rfl

theorem gpPost_len (bo : BoWGp.BOwGP d) (X : Fin n → Point d) (Y : Fin n → ℝ)
    (fit : Fit n) (pts : List (Point d)) (m s : List ℝ) (h : gpPost bo X Y fit pts = .ok (m, s)) :
    m.length = pts.length ∧ s.length = pts.length := by
  obtain ⟨r, -, h⟩ := py_bind_ok h
  obtain ⟨rfl, rfl⟩ := Prod.mk.inj (Except.ok.inj h)
  simp

theorem tpPost_len (bo : BoWTp.BOwTP d) (X : Fin n → Point d) (Y : Fin n → ℝ)
    (fit : Fit n) (pts : List (Point d)) (m s : List ℝ) (h : tpPost bo X Y fit pts = .ok (m, s)) :
    m.length = pts.length ∧ s.length = pts.length := by
  obtain ⟨r, -, h⟩ := py_bind_ok h
  obtain ⟨rfl, rfl⟩ := Prod.mk.inj (Except.ok.inj h)
  simp

theorem gpPost_single (bo : BoWGp.BOwGP d) (X : Fin n → Point d) (Y : Fin n → ℝ)
    (fit : Fit n) (q : Point d) (m s : ℝ) (h : gpPost bo X Y fit [q] = .ok ([m], [s])) :
    ∃ mu sd S, Gp.predictWithCov (.vec X) Y (.vec fun _ : Fin 1 => q) fit.1 fit.2.1 fit.2.2
      bo.str_cov bo.prior_mu = .ok (mu, sd, S) ∧ m = mu 0 ∧ s = sd 0 := by
  obtain ⟨r, h1, h⟩ := py_bind_ok h
  obtain ⟨h2, h3⟩ := Prod.mk.inj (Except.ok.inj h)
  rw [get_single] at h1
  refine ⟨r.1, r.2.1, r.2.2, h1, ?_, ?_⟩
  · simpa using h2.symm
  · simpa using h3.symm

theorem tpPost_single (bo : BoWTp.BOwTP d) (X : Fin n → Point d) (Y : Fin n → ℝ)
    (fit : Fit n) (q : Point d) (m s : ℝ) (h : tpPost bo X Y fit [q] = .ok ([m], [s])) :
    ∃ nu mu sd S, Tp.predictWithCov (.vec X) Y (.vec fun _ : Fin 1 => q) fit.1 fit.2.1 fit.2.2
      bo.str_cov bo.prior_mu = .ok (nu, mu, sd, S) ∧ m = mu 0 ∧ s = sd 0 := by
  obtain ⟨r, h1, h⟩ := py_bind_ok h
  obtain ⟨h2, h3⟩ := Prod.mk.inj (Except.ok.inj h)
  rw [get_single] at h1
  refine ⟨r.1, r.2.1, r.2.2.1, r.2.2.2, h1, ?_, ?_⟩
  · simpa using h2.symm
  · simpa using h3.symm

theorem gpPost_row (bo : BoWGp.BOwGP d) (hp : RowWise bo.prior_mu) (X : Fin n → Point d)
    (Y : Fin n → ℝ) (fit : Fit n) (pts : List (Point d)) (m s : List ℝ)
    (h : gpPost bo X Y fit pts = .ok (m, s)) (i : ℕ) (q : Point d) (x y : ℝ)
    (hq : pts[i]? = some q) (hx : m[i]? = some x) (hy : s[i]? = some y) :
    gpPost bo X Y fit [q] = .ok ([x], [y]) := by
  obtain ⟨⟨mu, sd, S⟩, h1, h⟩ := py_bind_ok h
  obtain ⟨rfl, rfl⟩ := Prod.mk.inj (Except.ok.inj h)
  obtain ⟨hi, rfl⟩ := List.getElem?_eq_some_iff.1 hq
  have h2 := gpPredict_row hp h1 ⟨i, hi⟩
  rw [List.getElem?_ofFn, dif_pos hi, Option.some.injEq] at hx hy
  unfold gpPost
  rw [get_single]
  simp only [List.get_eq_getElem] at h2
  rw [h2]
  simp only [bind, Except.bind, pure, Except.pure, ← hx, ← hy]
  rfl

theorem tpPost_row (bo : BoWTp.BOwTP d) (hp : RowWise bo.prior_mu) (X : Fin n → Point d)
    (Y : Fin n → ℝ) (fit : Fit n) (pts : List (Point d)) (m s : List ℝ)
    (h : tpPost bo X Y fit pts = .ok (m, s)) (i : ℕ) (q : Point d) (x y : ℝ)
    (hq : pts[i]? = some q) (hx : m[i]? = some x) (hy : s[i]? = some y) :
    tpPost bo X Y fit [q] = .ok ([x], [y]) := by
  obtain ⟨⟨nu, mu, sd, S⟩, h1, h⟩ := py_bind_ok h
  obtain ⟨rfl, rfl⟩ := Prod.mk.inj (Except.ok.inj h)
  obtain ⟨hi, rfl⟩ := List.getElem?_eq_some_iff.1 hq
  have h2 := tpPredict_row hp h1 ⟨i, hi⟩
  rw [List.getElem?_ofFn, dif_pos hi, Option.some.injEq] at hx hy
  unfold tpPost
  rw [get_single]
  simp only [List.get_eq_getElem] at h2
  rw [h2]
  simp only [bind, Except.bind, pure, Except.pure, ← hx, ← hy]
  rfl

/-- From the choice to the reported numbers, for any predictor. -/
theorem chosen {name : String} {noise : Option ℝ}
    {post : List (Point d) → Py (List ℝ × List ℝ)} {Y : List ℝ}
    (hlen : ∀ pts m s, post pts = .ok (m, s) → m.length = pts.length ∧ s.length = pts.length)
    {bo : BaseBO d} {o : Oracles d} {sm : String} {ns : ℤ} {p : Point d} {pts : List (Point d)}
    (h : optimizeAcq bo o (onePoint (batchAcq name noise post Y)) sm ns = .ok (p, pts))
    {acqs : List ℝ} (ha : batchAcq name noise post Y pts = .ok acqs) :
    acqs.length = pts.length ∧ ∃ (g : Point d → ℝ) (k : ℕ), FirstLowest g pts k p ∧
      (∀ q ∈ pts, ∃ m s v, post [q] = .ok ([m], [s]) ∧ AcqAt name noise m s Y v ∧ g q = -10 * v) ∧
      ((∀ m s, post pts = .ok (m, s) → ∀ (i : ℕ) q x y, pts[i]? = some q → m[i]? = some x →
        s[i]? = some y → post [q] = .ok ([x], [y])) → acqs = pts.map g) := by
  obtain ⟨G, hG, k, hk⟩ := optimizeAcq_ok h
  obtain ⟨hl, hrow⟩ := batchAcq_row hlen ha
  have hs : ∀ q ∈ pts, ∃ m s v, post [q] = .ok ([m], [s]) ∧ AcqAt name noise m s Y v ∧
      G q = .fin (-10 * v) ∧ batchAcq name noise post Y [q] = .ok [-10 * v] := fun q hq =>
    batchAcq_single hlen (hG q hq)
  let g : Point d → ℝ := fun q => match G q with | .fin x => x | _ => 0
  have hg : ∀ q ∈ pts, G q = .fin (g q) := by
    intro q hq
    obtain ⟨m, s, v, -, -, h3, -⟩ := hs q hq
    simp only [g, h3]
  refine ⟨hl, g, k, firstLowest_of_firstBest hg hk, ?_, ?_⟩
  · intro q hq
    obtain ⟨m, s, v, h1, h2, h3, -⟩ := hs q hq
    exact ⟨m, s, v, h1, h2, by simp only [g, h3]⟩
  · intro hpost
    refine List.ext_getElem? fun i => ?_
    by_cases hi : i < pts.length
    · have h1 := hrow hpost i pts[i] acqs[i] (List.getElem?_eq_getElem hi)
        (List.getElem?_eq_getElem (by omega))
      obtain ⟨m, s, v, -, -, h3, h4⟩ := hs pts[i] (List.getElem_mem hi)
      rw [h4] at h1
      have h5 : acqs[i]'(by omega) = g pts[i] := by
        simp only [g, h3]
        simpa using h1.symm
      rw [List.getElem?_map, List.getElem?_eq_getElem hi, List.getElem?_eq_getElem (by omega), h5]
      rfl
    · rw [List.getElem?_eq_none (by omega), List.getElem?_eq_none (by simpa using hi)]

/-! ### Forests -/

theorem mapM_getElem {α β : Type} {f : α → Py β} : ∀ {l : List α} {r : List β},
    l.mapM f = .ok r → r.length = l.length ∧
      ∀ (i : ℕ) a b, l[i]? = some a → r[i]? = some b → f a = .ok b
  | [], r, h => by
    obtain rfl := Except.ok.inj h
    simp
  | x :: t, r, h => by
    rw [List.mapM_cons] at h
    obtain ⟨b, hb, h⟩ := py_bind_ok h
    obtain ⟨rs, hrs, h⟩ := py_bind_ok h
    obtain rfl := Except.ok.inj h
    obtain ⟨h1, h2⟩ := mapM_getElem hrs
    refine ⟨by simp [h1], ?_⟩
    intro i a c ha hc
    cases i with
    | zero =>
      simp only [List.getElem?_cons_zero, Option.some.injEq] at ha hc
      subst ha hc
      exact hb
    | succ i =>
      simp only [List.getElem?_cons_succ] at ha hc
      exact h2 i a c ha hc

theorem treesPost_ok {trees : List (Trees.Tree d)} {pts : List (Point d)} {m s : List ℝ}
    (h : Trees.predictByTrees pts trees = .ok (m, s)) :
    m.length = pts.length ∧ s.length = pts.length ∧
      ∀ (i : ℕ) q x y, pts[i]? = some q → m[i]? = some x → s[i]? = some y →
        Trees.predictByTreesOne q trees = .ok (x, y) := by
  rw [Props.C52_rowwise] at h
  obtain ⟨preds, hp, h⟩ := py_bind_ok h
  obtain ⟨rfl, rfl⟩ := Prod.mk.inj (Except.ok.inj h)
  obtain ⟨hl, hr⟩ := mapM_getElem hp
  refine ⟨by simp [hl], by simp [hl], ?_⟩
  intro i q x y hq hx hy
  rw [List.getElem?_map, Option.map_eq_some_iff] at hx hy
  obtain ⟨a, ha, rfl⟩ := hx
  obtain ⟨b, hb, rfl⟩ := hy
  rw [ha] at hb
  obtain rfl := Option.some.inj hb
  exact hr i q a hq ha

theorem treesPost_single {trees : List (Trees.Tree d)} {q : Point d} {x y : ℝ}
    (h : Trees.predictByTreesOne q trees = .ok (x, y)) :
    Trees.predictByTrees [q] trees = .ok ([x], [y]) := by
  rw [Props.C52_rowwise]
  simp [List.mapM_cons, h, bind, Except.bind, pure, Except.pure]

theorem trees_acq {bo : BaseBO d} {pts X : List (Point d)} {Y a : List ℝ}
    {trees : List (Trees.Tree d)}
    (h : BoWTrees.computeAcquisitions bo pts X Y trees = .ok a) :
    batchAcq bo.str_acq (some GP_NOISE) (fun pts => Trees.predictByTrees pts trees) Y pts =
      .ok (a.map (-1 * ·)) := by
  unfold BoWTrees.computeAcquisitions at h
  obtain ⟨_, -, h⟩ := py_bind_ok h
  obtain ⟨f, hf, h⟩ := py_bind_ok h
  obtain ⟨⟨m, s⟩, hp, h⟩ := py_bind_ok h
  obtain ⟨b, hb, h⟩ := py_bind_ok h
  obtain rfl := Except.ok.inj h
  unfold BoWTrees.computePosteriors at hp
  simp only [batchAcq, hf, hp, bind, Except.bind, pure, Except.pure]
  rw [hb]

end Verif.Lemmas
