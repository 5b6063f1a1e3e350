import Verif.Lemmas.EndToEnd
import Verif.Lemmas.WrapperTotal
import Verif.Props.ImproveRefit
import Verif.Props.Run
import Verif.Props.Steps
import Verif.Props.WrapperOptions

/-! # Runs find low values (C146) -/

namespace Verif.Props

open Verif.Spec Verif.Covariance Verif.UtilsCovariance Verif.Lemmas Verif.Acquisition
  Verif.Constants Verif.WrapperClass Verif.WrappersBo Verif.UtilsBo Verif.BaseBo
open Matrix hiding gram

variable {d n : ℕ}

/-- What a step with a Gaussian process minimises. -/
theorem step_scores {env : Installed} {a : Args d} {w : BayesianOptimization d} {st : ModelState}
    (hw : create env a = .ok (w, st)) (hgp : a.str_surrogate = "gp")
    (hcov : a.str_cov ∈ baseNames) {m : Point d → ℝ}
    (hm : PriorFunction a.prior_mu m) (hmc : Continuous m) {H : Set (ℝ × (Fin d → ℝ))}
    (hH : ∀ s l, (s, l) ∈ H → ∀ k, l k ≠ 0) {o : RunOracles d} {k : ℕ}
    (hfit : FitsIn H a.use_ard (o.routines k).fitHyps)
    {clock : ℕ → ℝ} (hn : n ≠ 0) {x : Fin n → Point d} {y : Fin n → ℝ} {s : ModelState × ℕ}
    (hs : a.str_mlm_method = "converged" → FitsFrom H s.1.gp) {p : Point d} {i : Info d}
    (h : (optimizeSingleIteration w o clock k (List.ofFn x) (List.ofFn y) s).2 = .ok (p, i)) :
    InBox a.range_X p ∧
    ∃ (Yt : Fin n → ℝ) (hy : HypDict) (sg : ℝ) (l : Fin d → ℝ),
      (if normalizes a = true then normalizeMinMax (List.ofFn y) else .ok (List.ofFn y)) =
        .ok (List.ofFn Yt) ∧
      (sg, l) ∈ H ∧ Describes hy (1 / 100) sg l ∧
      (optimizeSingleIteration w o clock k (List.ofFn x) (List.ofFn y) s).1.1.gp.historical_hyps = s.1.gp.historical_hyps ++ [some hy] ∧
      ∃ score, chooseFunAcquisition a.str_acq (some (1 / 100)) = .ok score ∧
      ∃ (f : Point d → Py Flt) (g : Point d → ℝ), Continuous g ∧ (∀ q, f q = .ok (.fin (g q))) ∧
        BoCommon.candidates (⟨a.range_X, a.str_surrogate, a.str_acq,
          usedOptimizer env d a.str_optimizer_method_bo, a.normalize_Y⟩ : BaseBO d) (o.routines k) f a.str_sampling_method_ao
          a.num_samples_ao = .ok i.next_points ∧ p ∈ i.next_points ∧ (∀ q ∈ i.next_points, g p ≤ g q) ∧
        ∀ q z, ∃ mu sd S v v', Gp.predictWithHyps (.vec x) Yt (.vec ![q, z]) hy
          a.str_cov a.prior_mu = .ok (mu, sd, S) ∧
          score (List.ofFn mu) (List.ofFn sd) (List.ofFn Yt) = .ok [v, v'] ∧ g q = -(10 * v) ∧
          g z = -(10 * v') := by
  obtain ⟨-, -, -, -, -, -, -, m', -, hc⟩ := create_ok hw
  obtain ⟨bo, hbo, hacq⟩ : ∃ bo, w.model_bo = .gp bo ∧ a.str_acq ∈ ALLOWED_BO_ACQ := by
    rcases hc with ⟨h, -⟩ | ⟨-, -, bo, hm, hi⟩ | ⟨h, -⟩
    · rw [hgp] at h
      exact absurd h (by decide)
    · exact ⟨bo, hm, (gp_init_ok hi).2.2.2.2.2.2.2.2.2.2.1⟩
    · rw [hgp] at h
      exact absurd h (by decide)
  obtain ⟨-, -, -, -, -, -, hcase⟩ := C77_options hw
  have hbo' : w.model_bo = .gp ⟨⟨a.range_X, a.str_surrogate, a.str_acq,
      usedOptimizer env d a.str_optimizer_method_bo, a.normalize_Y⟩, a.str_cov, a.use_ard,
      a.prior_mu, a.str_optimizer_method_gp, a.str_modelselection_method⟩ := by
    rcases hcase with ⟨h, -⟩ | ⟨-, -, h⟩ | ⟨h, -⟩
    · rw [hgp] at h
      exact absurd h (by decide)
    · exact h
    · rw [hgp] at h
      exact absurd h (by decide)
  have hst : (optimizeSingleIteration w o clock k (List.ofFn x) (List.ofFn y) s).1.1.gp =
      (BoWGp.optimize (⟨⟨a.range_X, a.str_surrogate, a.str_acq,
      usedOptimizer env d a.str_optimizer_method_bo, a.normalize_Y⟩, a.str_cov, a.use_ard,
      a.prior_mu, a.str_optimizer_method_gp, a.str_modelselection_method⟩ : BoWGp.BOwGP d) (o.routines k)
      clock (.vec (List.ofFn x).get) (List.ofFn y) a.str_sampling_method_ao a.num_samples_ao
      a.str_mlm_method (s.1.gp, s.2)).1.1 := by
    obtain ⟨-, -, e3, -, e5, e6, -⟩ := C77_options hw
    have e0 : w.str_mlm_method = some a.str_mlm_method := by
      rcases hcase with ⟨h, -⟩ | ⟨-, h, -⟩ | ⟨h, -⟩
      · rw [hgp] at h
        exact absurd h (by decide)
      · exact h
      · rw [hgp] at h
        exact absurd h (by decide)
    simp only [optimizeSingleIteration, e3, hgp, e5, e6, hbo', e0]
    rfl
  rw [C77_step hw, hbo'] at h
  generalize (optimizeSingleIteration w o clock k (List.ofFn x) (List.ofFn y) s).1.1.gp = G at hst ⊢
  obtain ⟨⟨p', i'⟩, h3, h4⟩ := map_ok h
  obtain ⟨rfl, rfl⟩ := Prod.mk.inj h4
  have key := gp_scores (bo := ⟨⟨a.range_X, a.str_surrogate, a.str_acq,
      usedOptimizer env d a.str_optimizer_method_bo, a.normalize_Y⟩, a.str_cov, a.use_ard,
      a.prior_mu, a.str_optimizer_method_gp, a.str_modelselection_method⟩) hcov hacq hm hmc
    (fun p hp => hH p.1 p.2 hp) hfit (by simpa using hn) hs (pair_eta h3)
  rw [← hst] at key
  have hn' : normalizes a = true ↔ a.normalize_Y = true ∧ a.str_mlm_method ≠ "converged" := by
    simp [normalizes]
  simp only [← hn'] at key
  obtain ⟨key1, key2⟩ := key
  refine ⟨key1, ?_⟩
  have e : (info i').next_points = i'.next_points := rfl
  rw [e]
  generalize i'.next_points = pts at key2 ⊢
  exact rows_of_ofFn (fun n x => ∃ (Yt : Fin n → ℝ) (hy : HypDict) (sg : ℝ) (l : Fin d → ℝ),
      (if normalizes a = true then normalizeMinMax (List.ofFn y) else .ok (List.ofFn y)) =
        .ok (List.ofFn Yt) ∧
      (sg, l) ∈ H ∧ Describes hy (1 / 100) sg l ∧
      G.historical_hyps = s.1.gp.historical_hyps ++ [some hy] ∧
      ∃ score, chooseFunAcquisition a.str_acq (some (1 / 100)) = .ok score ∧
      ∃ (f : Point d → Py Flt) (g : Point d → ℝ), Continuous g ∧ (∀ q, f q = .ok (.fin (g q))) ∧
        BoCommon.candidates (⟨a.range_X, a.str_surrogate, a.str_acq,
          usedOptimizer env d a.str_optimizer_method_bo, a.normalize_Y⟩ : BaseBO d) (o.routines k) f a.str_sampling_method_ao
          a.num_samples_ao = .ok pts ∧ p' ∈ pts ∧ (∀ q ∈ pts, g p' ≤ g q) ∧
        ∀ q z, ∃ mu sd S v v', Gp.predictWithHyps (.vec x) Yt (.vec ![q, z]) hy
          a.str_cov a.prior_mu = .ok (mu, sd, S) ∧
          score (List.ofFn mu) (List.ofFn sd) (List.ofFn Yt) = .ok [v, v'] ∧ g q = -(10 * v) ∧
          g z = -(10 * v')) key2 rfl

/-- C146: a step with a Gaussian process whose routines do what they are for, with any acquisition
function. The proposed point lies in the search space, and no point there has a score that is higher
by more than a tenth of `δ` (the routines minimise ten times the score, with the sign changed). Scores
are those of the acquisition function that was asked for, with the noise `0.01` of the package, for
predictions from all rows and their responses, normalised if asked for, by hyperparameters in `H`,
which the object appends to its history. -/
theorem C146_step {env : Installed} {a : Args d} {w : BayesianOptimization d} {st : ModelState}
    (hw : create env a = .ok (w, st)) (hgp : a.str_surrogate = "gp")
    (hcov : a.str_cov ∈ baseNames) {m : Point d → ℝ}
    (hm : PriorFunction a.prior_mu m) (hmc : Continuous m) {H : Set (ℝ × (Fin d → ℝ))}
    (hH : ∀ s l, (s, l) ∈ H → ∀ k, l k ≠ 0) {o : RunOracles d} {k : ℕ}
    (hfit : FitsIn H a.use_ard (o.routines k).fitHyps) {δ : ℝ}
    (ho : FindsLow (o.routines k) a.range_X a.str_sampling_method_ao a.num_samples_ao δ)
    {clock : ℕ → ℝ} (hn : n ≠ 0) {x : Fin n → Point d} {y : Fin n → ℝ} {s : ModelState × ℕ}
    (hs : a.str_mlm_method = "converged" → FitsFrom H s.1.gp) {p : Point d} {i : Info d}
    (h : (optimizeSingleIteration w o clock k (List.ofFn x) (List.ofFn y) s).2 = .ok (p, i)) :
    InBox a.range_X p ∧
    ∃ (Yt : Fin n → ℝ) (hy : HypDict) (sg : ℝ) (l : Fin d → ℝ),
      (if normalizes a = true then normalizeMinMax (List.ofFn y) else .ok (List.ofFn y)) =
        .ok (List.ofFn Yt) ∧
      (sg, l) ∈ H ∧ Describes hy (1 / 100) sg l ∧
      (optimizeSingleIteration w o clock k (List.ofFn x) (List.ofFn y) s).1.1.gp.historical_hyps =
        s.1.gp.historical_hyps ++ [some hy] ∧
      ∃ score, chooseFunAcquisition a.str_acq (some (1 / 100)) = .ok score ∧
      ∀ z, InBox a.range_X z → ∃ mu sd S v v', Gp.predictWithHyps (.vec x) Yt (.vec ![p, z]) hy
        a.str_cov a.prior_mu = .ok (mu, sd, S) ∧
        score (List.ofFn mu) (List.ofFn sd) (List.ofFn Yt) = .ok [v, v'] ∧ v' ≤ v + δ / 10 := by
  obtain ⟨hp, Yt, hy, sg, l, h1, h2, h3, h4, fa, h5, f, g, h6, h7, h8, h9, h10, h11⟩ :=
    step_scores hw hgp hcov hm hmc hH hfit hn hs h
  refine ⟨hp, Yt, hy, sg, l, h1, h2, h3, h4, fa, h5, fun z hz => ?_⟩
  obtain ⟨q, hq, hlow⟩ := candidates_low ho h6 h7 h8 (List.ne_nil_of_mem h9)
  obtain ⟨mu, sd, S, v, v', a1, a2, a3, a4⟩ := h11 p z
  refine ⟨mu, sd, S, v, v', a1, a2, ?_⟩
  linarith [hlow z hz, h10 q hq]

/-- A step of a run, in the units of its responses: from the rows `x 0`, …, `x (n - 1)` it proposed
`p`. -/
structure RunChoice (a : Args d) (m : Point d → ℝ) (B spread δ : ℝ) (H : Set (ℝ × (Fin d → ℝ)))
    (score : List ℝ → List ℝ → List ℝ → Py (List ℝ)) (f : Point d → ℝ) (x : ℕ → Point d) (n : ℕ)
    (p : Point d) (hy : HypDict) (sg : ℝ) (l : Fin d → ℝ) (lo hi : ℝ) : Prop where
  inBox : InBox a.range_X p
  mem : (sg, l) ∈ H
  describes : Describes hy (1 / 100) sg l
  least : IsLeast (Set.range fun i : Fin n => f (x i)) lo
  greatest : IsGreatest (Set.range fun i : Fin n => f (x i)) hi
  spread : hi - lo ≤ spread
  norm : NormAtMostOn {z : Point d | InBox a.range_X z} a.str_cov sg l B
    (fun z => inUnits (normalizes a) lo hi (f z) - m z)
  best : ∀ z ∈ {z : Point d | InBox a.range_X z}, ∃ mu sd S v v',
    Gp.predictWithHyps (.vec fun i : Fin n => x i)
      (fun i => inUnits (normalizes a) lo hi (f (x i))) (.vec ![p, z]) hy a.str_cov a.prior_mu =
        .ok (mu, sd, S) ∧
    score (List.ofFn mu) (List.ofFn sd)
      (List.ofFn fun i : Fin n => inUnits (normalizes a) lo hi (f (x i))) = .ok [v, v'] ∧
    v' ≤ v + δ / 10

theorem RunChoice.le {a : Args d} {m : Point d → ℝ} {B spread δ : ℝ} {H : Set (ℝ × (Fin d → ℝ))}
    {score : List ℝ → List ℝ → List ℝ → Py (List ℝ)} {f : Point d → ℝ} {x : ℕ → Point d} {p : Point d}
    {hy : HypDict} {sg : ℝ} {l : Fin d → ℝ} {lo hi : ℝ}
    (h : RunChoice a m B spread δ H score f x n p hy sg l lo hi) : lo ≤ hi := h.least.2 h.greatest.1

/-- The steps of a run from given rows and exact responses. The row evaluated is the one proposed,
unless that is a duplicate. -/
theorem run_choices {env : Installed} {a : Args d} {w : BayesianOptimization d} {st : ModelState}
    (hw : create env a = .ok (w, st)) (hcov : a.str_cov ∈ baseNames) {m : Point d → ℝ}
    {B Λ smax lmin δ spread gap : ℝ} (hΛ : 0 ≤ Λ) (hl : 0 < lmin) {H : Set (ℝ × (Fin d → ℝ))}
    {o : RunOracles d} {name : String} (hg : GoodSearch name a m Λ smax lmin δ H o)
    {score : List ℝ → List ℝ → List ℝ → Py (List ℝ)}
    (hscore : chooseFunAcquisition name (some (1 / 100)) = .ok score) {f : Point d → ℝ}
    (hf : SuitsFits a.range_X a.str_cov H (normalizes a) m B spread gap f) {clock : ℕ → ℝ}
    {target : ℕ → Point d → Py Flt} (ht : ∀ k x, InBox a.range_X x → target k x = .ok (.fin (f x)))
    {X : List (Point d)} (hX : ∀ x ∈ X, InBox a.range_X x)
    (hgap : ∃ x ∈ X, ∃ x' ∈ X, gap ≤ f x' - f x) {T : ℕ} {u u' : World d (ModelState × ℕ)}
    (hu : a.str_mlm_method = "converged" → FitsFrom H u.model.1.gp)
    {res : LoopSt d} (h : optimizeWithAllInitialInformation (runEnv w o clock target) T X
        (X.map fun x => Flt.fin (f x)) u = (u', .ok res)) :
    ∃ x : ℕ → Point d, (∀ n, InBox a.range_X (x n)) ∧
      (∀ n ≤ X.length + T, res.X.take n = List.ofFn fun i : Fin n => x i) ∧
      (∀ n < X.length + T, Flt.fin (f (x n)) ∈ res.Y) ∧
      ∀ n, X.length ≤ n → n < X.length + T → ∃ p hy sg l lo hi,
        RunChoice a m B spread δ H score f x n p hy sg l lo hi ∧
        u'.model.1.gp.historical_hyps[u.model.1.gp.historical_hyps.length + (n - X.length)]? =
          some (some hy) ∧
        (x n = p ∨ ∃ j : Fin n, √(∑ k, (p k - x j k) ^ 2) < 1e-8) := by
  have hmc : Continuous m := by
    refine (LipschitzWith.of_dist_le_mul (K := ⟨Λ, hΛ⟩) fun u v => ?_).continuous
    rw [Real.dist_eq]
    exact hg.lipschitz u v
  -- the rows and responses of the run
  obtain ⟨hbX, -⟩ := C07_object hw o clock target T X _ u u' res hX h
  obtain ⟨-, Q, S, hQ, hS, hXr, hYr, -, hval⟩ := C06_keeps_data _ T X _ u u' res h
  have hY : res.Y = res.X.map fun x => Flt.fin (f x) := by
    have : S = Q.map fun x => Flt.fin (f x) := by
      apply List.ext_getElem?
      intro i
      rw [List.getElem?_map]
      by_cases hi : i < T
      · have e1 : Q[i]? = some Q[i] := List.getElem?_eq_getElem (by omega)
        have e2 : S[i]? = some S[i] := List.getElem?_eq_getElem (by omega)
        have e3 := hval i _ _ e1 e2
        have e4 : (runEnv w o clock target).target (u.log.length + i) Q[i] = .ok (.fin (f Q[i])) :=
          ht _ _ (hbX _ (by rw [hXr]; simp))
        rw [e4, Except.ok.injEq] at e3
        rw [e1, e2, Option.map_some, e3]
      · rw [List.getElem?_eq_none (by omega), List.getElem?_eq_none (by omega)]; rfl
    rw [hXr, hYr, this, List.map_append]
  obtain ⟨x₀, hx₀, x₁, hx₁, hgap⟩ := hgap
  let x : ℕ → Point d := fun n => (res.X[n]?).getD x₀
  have hxD : ∀ n, x n ∈ {z : Point d | InBox a.range_X z} := by
    intro n
    simp only [x]
    cases hn : res.X[n]? with
    | none => exact hX _ hx₀
    | some q => exact hbX _ (List.mem_of_getElem? hn)
  have hlen : res.X.length = X.length + T := by rw [hXr, List.length_append, hQ]
  have hX0 : X.length ≠ 0 := by
    intro h0
    rw [List.length_eq_zero_iff.1 h0] at hx₀
    simp at hx₀
  have htake : ∀ n ≤ X.length + T, res.X.take n = List.ofFn fun i : Fin n => x i := by
    intro n hn
    refine List.ext_getElem (by simp [hlen, hn]) fun i h1 h2 => ?_
    simp only [List.length_ofFn] at h2
    have : res.X[i]? = some res.X[i] := List.getElem?_eq_getElem (by omega)
    simp [x, this]
  have hmem : ∀ n < X.length + T, Flt.fin (f (x n)) ∈ res.Y := by
    intro n hn
    have : res.X[n]? = some (x n) := by
      have : res.X[n]? = some res.X[n] := List.getElem?_eq_getElem (by omega)
      simp [x, this]
    rw [hY]
    exact List.mem_map.2 ⟨_, List.mem_of_getElem? this, rfl⟩
  refine ⟨x, hxD, htake, hmem, ?_⟩
  -- its iterations
  obtain ⟨-, w1, h1, rfl⟩ := run_ok _ T X _ u u' res h
  obtain ⟨ws, sts, h0, h0', hT, hT', hiter⟩ := classLoop_ok _ T _ _ _ _ h1
  have hXs := grows (g := fun i => (sts i).X) (T := T) fun i hi => by
    obtain ⟨_, _, _, q, _, _, hq⟩ := hiter i hi
    exact ⟨q, by simp only [hq.state]⟩
  have hYs := grows (g := fun i => (sts i).Y) (T := T) fun i hi => by
    obtain ⟨_, _, _, _, _, y, hq⟩ := hiter i hi
    exact ⟨y, by simp only [hq.state]⟩
  simp only [h0', hT', List.length_map] at hXs hYs
  have hstep : ∀ i < T, (a.str_mlm_method = "converged" → FitsFrom H (ws i).model.1.gp) →
      ∃ p hy sg l lo hi,
      RunChoice a m B spread δ H score f x (X.length + i) p hy sg l lo hi ∧
      (ws (i + 1)).model.1.gp.historical_hyps = (ws i).model.1.gp.historical_hyps ++ [some hy] ∧
      (x (X.length + i) = p ∨ ∃ j : Fin (X.length + i), √(∑ k, (p k - x j k) ^ 2) < 1e-8) := by
    intro i hi hready
    obtain ⟨s', t', p, q, info, y, hq⟩ := hiter i hi
    have hst := hq.step
    have e1 : (sts i).X = List.ofFn fun j : Fin (X.length + i) => x j := by
      rw [← htake (X.length + i) (by omega), ← hXs i hi.le]
    have e2 : (sts i).Y = List.ofFn fun j : Fin (X.length + i) => Flt.fin (f (x j)) := by
      rw [← hYs i hi.le, hY, ← List.map_take, htake _ (by omega), List.map_ofFn]
      rfl
    have e3 : finites (List.ofFn fun j : Fin (X.length + i) => Flt.fin (f (x j))) =
        .ok (List.ofFn fun j : Fin (X.length + i) => f (x j)) := by
      rw [← finites_map, List.map_ofFn]
      rfl
    have hn : X.length + i ≠ 0 := by omega
    rw [e1, e2] at hst
    simp only [runEnv, step, e3] at hst
    obtain ⟨hst1, hst2⟩ := Prod.mk.inj hst
    obtain ⟨hp, Yt, hy, sg, l, b1, b2, b3, b4, score', b5, b6⟩ := C146_step hw hg.surrogate hcov
      hg.prior hmc (fun s l hsl k => by
        have := (hg.hyps s l hsl).2 k
        exact abs_pos.1 (hl.trans_le this)) (hg.fits _) (hg.finds _) hn (s := ((ws i).model.1, (ws i).tick + 1))
        hready hst2
    rw [hg.acq, hscore] at b5
    obtain rfl := Except.ok.inj b5
    have hne : (Set.range fun j : Fin (X.length + i) => f (x j)).Nonempty :=
      ⟨_, ⟨0, Nat.pos_of_ne_zero hn⟩, rfl⟩
    have hfin := Set.finite_range fun j : Fin (X.length + i) => f (x j)
    have hlo := hfin.isCompact.isLeast_sInf hne
    have hhi := hfin.isCompact.isGreatest_sSup hne
    generalize sInf (Set.range fun j : Fin (X.length + i) => f (x j)) = lo at hlo
    generalize sSup (Set.range fun j : Fin (X.length + i) => f (x j)) = hi' at hhi
    have hin : ∀ q ∈ X, f q ∈ Set.range fun j : Fin (X.length + i) => f (x j) := by
      intro q hq
      obtain ⟨j, hj⟩ := List.mem_iff_getElem?.1 hq
      have hjl : j < X.length := (List.getElem?_eq_some_iff.1 hj).1
      refine ⟨⟨j, by omega⟩, ?_⟩
      have : res.X[j]? = some q := by rw [hXr, List.getElem?_append_left hjl, hj]
      simp [x, this]
    refine ⟨p, hy, sg, l, lo, hi', ⟨hp, b2, b3, hlo, hhi, ?_, ?_, ?_⟩, ?_, ?_⟩
    · obtain ⟨j, hj⟩ := hlo.1
      obtain ⟨j', hj'⟩ := hhi.1
      rw [← hj, ← hj']
      exact (le_abs_self _).trans (hf.spread _ _ (hxD j') (hxD j))
    · obtain ⟨j, hj⟩ := hlo.1
      obtain ⟨j', hj'⟩ := hhi.1
      have c1 := hlo.2 (hin _ hx₀)
      have c2 := hhi.2 (hin _ hx₁)
      have c3 := hlo.2 hhi.1
      have d1 : f (x j) = lo := hj
      have d2 : f (x j') = hi' := hj'
      have := hf.norm sg l b2 (x j) (x j') (hxD j) (hxD j') (by rw [d1, d2]; exact c3)
        (by rw [d1, d2]; linarith)
      rwa [d1, d2] at this
    · have hYt : Yt = fun j : Fin (X.length + i) => inUnits (normalizes a) lo hi' (f (x j)) :=
        funext fun j => inUnits_eq hlo hhi b1 j
      rw [hYt] at b6
      exact b6
    · rw [hq.world]
      show s'.1.gp.historical_hyps = _
      rw [← (Prod.mk.inj hst1).1]
      exact b4
    · have hc := hq.choice
      rw [e1] at hc
      unfold getNextBestSample at hc
      cases hr : isRepeated p (List.ofFn fun j : Fin (X.length + i) => x j) with
      | false =>
        left
        rw [hr] at hc
        simp only [Bool.false_eq_true, if_false, Except.ok.injEq, Option.some.injEq] at hc
        have e5 : (sts (i + 1)).X = List.ofFn fun j : Fin (X.length + (i + 1)) => x j := by
          rw [← htake (X.length + (i + 1)) (by omega), ← hXs (i + 1) hi]
        rw [hq.state, e1] at e5
        have e6 := congrArg (fun L => L[X.length + i]?) e5
        rw [← hc, List.getElem?_append_right (by simp), List.getElem?_ofFn, dif_pos (by omega)] at e6
        simpa using e6.symm
      | true =>
        right
        by_contra hno
        push Not at hno
        have : FarFrom 1e-8 (List.ofFn fun j : Fin (X.length + i) => x j) p := by
          intro e he
          obtain ⟨j, rfl⟩ := List.mem_ofFn.1 he
          exact hno j
        rw [(not_isRepeated_iff _ _).2 this] at hr
        cases hr
  have hready : ∀ i ≤ T, a.str_mlm_method = "converged" → FitsFrom H (ws i).model.1.gp := by
    intro i
    induction i with
    | zero => exact fun _ => by rw [h0]; exact hu
    | succ i ih =>
      intro hi _
      obtain ⟨_, hy, sg, l, _, _, hc, h, -⟩ := hstep i hi (ih (by omega))
      exact .inr ⟨hy, sg, l, by rw [h]; simp, hc.mem, hc.describes⟩
  replace hstep := fun i hi => hstep i hi (hready i hi.le)
  have hH := grows_get (g := fun i => (ws i).model.1.gp.historical_hyps) (T := T) fun i hi => by
    obtain ⟨_, hy, _, _, _, _, -, h, -⟩ := hstep i hi
    exact ⟨_, h⟩
  intro n hn1 hn2
  obtain ⟨i, rfl⟩ := Nat.exists_eq_add_of_le hn1
  obtain ⟨p, hy, sg, l, lo, hi, b1, b2, b3⟩ := hstep i (by omega)
  refine ⟨p, hy, sg, l, lo, hi, b1, ?_, b3⟩
  have := hH i (by omega) _ b2
  rw [h0, hT] at this
  rw [Nat.add_sub_cancel_left]
  exact this

/-- C146: a run from given rows of the search space and their exact responses. For kernels with
bounds on signals and lengthscales, functions with norms of at most `B` in the units of the fits, and
`η > 0`, there is a number `M` of iterations that depends on the search space, the kernel and these
bounds alone. Once a run of an object that was asked for expected improvement has made so many, some
response exceeds the value at every point of the search space by at most `runError` and `η`, in units
of at most a tenth of the spread of the function. -/
theorem C146_run {R : Bounds d} {base : String} (hb : base ∈ baseNames) {B Λ smax lmin η : ℝ}
    (hB : 0 ≤ B) (hΛ : 0 ≤ Λ) (hl : 0 < lmin) (hη : 0 < η) :
    ∃ M : ℕ, ∀ (env : Installed) (a : Args d) (w : BayesianOptimization d) (st : ModelState)
      (m : Point d → ℝ) (δ : ℝ) (H : Set (ℝ × (Fin d → ℝ))) (o : RunOracles d) (spread gap : ℝ)
      (f : Point d → ℝ) (clock : ℕ → ℝ) (target : ℕ → Point d → Py Flt) (X : List (Point d)) (T : ℕ)
      (u u' : World d (ModelState × ℕ)) (res : LoopSt d),
      create env a = .ok (w, st) → a.range_X = R → a.str_cov = base → 0 ≤ δ →
      GoodSearch "ei" a m Λ smax lmin δ H o →
      (a.str_mlm_method = "converged" → FitsFrom H u.model.1.gp) →
      SuitsFits R base H (normalizes a) m B spread gap f →
      (∀ k x, InBox R x → target k x = .ok (.fin (f x))) → (∀ x ∈ X, InBox R x) →
      (∃ x ∈ X, ∃ x' ∈ X, gap ≤ f x' - f x) → M ≤ T →
      optimizeWithAllInitialInformation (runEnv w o clock target) T X
        (X.map fun x => Flt.fin (f x)) u = (u', .ok res) →
      ∃ y, Flt.fin y ∈ res.Y ∧ ∀ z, InBox R z →
        y ≤ f z + max 1 (spread / 10) * (runError B Λ smax lmin (δ / 10) + η) := by
  have hbox : Bornology.IsBounded {z : Point d | InBox R z} := by
    refine (Metric.isBounded_Icc (fun i => (R i).1) (fun i => (R i).2)).subset fun z hz => ?_
    exact ⟨fun i => (hz i).1, fun i => (hz i).2⟩
  have hω : Filter.Tendsto (fun t : ℝ => Λ * t) (nhds 0) (nhds 0) := by
    have : Continuous fun t : ℝ => Λ * t := by fun_prop
    simpa using this.tendsto 0
  obtain ⟨M, hM⟩ := C145_ei hb hbox hω hB (σmax := 1 / 100) (smax := smax) hl hη
  refine ⟨M, fun env a w st m δ H o spread gap f clock target X T u u' res hw hR hcov hδ hg hu hf ht hX
    hgap hT h => ?_⟩
  subst hR hcov
  have hE := runError_nonneg (smax := smax) (lmin := lmin) hB hΛ (div_nonneg hδ (by norm_num : (0 : ℝ) ≤ 10))
  obtain ⟨x, hxD, -, hmem, hstep⟩ := run_choices hw hb hΛ hl hg (score := fun mu sd Y => ei mu sd Y) rfl hf
    ht hX hgap hu h
  by_cases hdup : ∃ n, X.length ≤ n ∧ n < X.length + M ∧ ∃ p hy sg l lo hi,
      RunChoice a m B spread δ H (fun mu sd Y => ei mu sd Y) f x n p hy sg l lo hi ∧
        ∃ j : Fin n, √(∑ k, (p k - x j k) ^ 2) < 1e-8
  · obtain ⟨n, h1, h2, p, hy, sg, l, lo, hi, hc, j, hj⟩ := hdup
    obtain ⟨c1, c2⟩ := hg.hyps sg l hc.mem
    obtain ⟨i, hi⟩ := duplicate_choice (f := fun z => inUnits (normalizes a) lo hi (f z)) hb hc.describes
      hg.prior hΛ hg.lipschitz hl c1 c2 hc.norm (fun i => hxD i) hc.inBox hj hc.best
    refine ⟨f (x i), hmem i (by omega), fun z hz => ?_⟩
    have := inUnits_le hc.le hc.spread hE (hi z hz)
    have h3 := mul_nonneg (le_trans zero_le_one (le_max_left 1 (spread / 10))) hη.le
    linarith
  · have hall : ∀ n, ∃ hy sg l lo hi, X.length ≤ n → n < X.length + M →
        RunChoice a m B spread δ H (fun mu sd Y => ei mu sd Y) f x n (x n) hy sg l lo hi := by
      intro n
      by_cases hn : X.length ≤ n ∧ n < X.length + M
      · obtain ⟨p, hy, sg, l, lo, hi, hc, -, rfl | a6⟩ := hstep n hn.1 (by omega)
        · exact ⟨hy, sg, l, lo, hi, fun _ _ => hc⟩
        · exact absurd ⟨n, hn.1, hn.2, p, hy, sg, l, lo, hi, hc, a6⟩ hdup
      · exact ⟨⟨none, none, none, none⟩, 0, 0, 0, 0, fun h1 h2 => absurd ⟨h1, h2⟩ hn⟩
    choose hy sg l lo hi hall using hall
    obtain ⟨n, h1, h2, i, hi', hle⟩ := hM hy (fun _ => 1 / 100) sg l (fun _ => a.prior_mu) (fun _ => m)
      (fun n z => inUnits (normalizes a) (lo n) (hi n) (f z)) {z | InBox a.range_X z} (δ / 10) x
      X.length le_rfl hxD fun n h1 h2 => by
        have hc := hall n h1 h2
        obtain ⟨c1, c2⟩ := hg.hyps _ _ hc.mem
        exact ⟨hc.describes, by norm_num, c1, c2, hg.prior, fun u _ v _ => hg.lipschitz u v,
          hc.norm, hxD n, hc.best⟩
    have hc := hall n h1 h2
    refine ⟨f (x i), hmem i (by omega), fun z hz => ?_⟩
    refine inUnits_le (b := (normalizes a)) hc.le hc.spread (by linarith) ?_
    have := hle z hz
    have h3 := runError_ge (B := B) (Λ := Λ) (smax := smax) (lmin := lmin) (δ := δ / 10) hB hΛ
    linarith

/-- Initial rows in the search space and their responses. -/
private theorem initial_values {σ : Type} {env : Env d σ} {R : Bounds d} {f : Point d → ℝ}
    (ht : ∀ k x, InBox R x → env.target k x = .ok (.fin (f x))) :
    ∀ (X : List (Point d)) (w : World d σ), (∀ x ∈ X, InBox R x) →
      ∃ w' ts, classInitials env X w = (w', .ok (X.map fun x => Flt.fin (f x), ts)) ∧
        w'.model = w.model := by
  intro X
  induction X with
  | nil => exact fun w _ => ⟨w, [], rfl, rfl⟩
  | cons x X ih =>
    intro w hX
    have hy := ht w.log.length x (hX x (by simp))
    obtain ⟨w', ts, h1, h2⟩ := ih ⟨w.model, w.tick + 1 + 1, w.log ++ [x]⟩
      fun q hq => hX q (by simp [hq])
    refine ⟨w', (env.clock (w.tick + 1) - env.clock w.tick) :: ts, ?_, h2⟩
    simp [classInitials, bind_apply, now, callTarget, hy, h1, pure_apply]

/-- A run from initial rows that the object draws itself is one from these rows. -/
theorem optimize_run {env : Installed} {a : Args d} {w : BayesianOptimization d} {st : ModelState}
    (hw : create env a = .ok (w, st)) {o : RunOracles d} {f : Point d → ℝ} {clock : ℕ → ℝ}
    {target : ℕ → Point d → Py Flt} (ht : ∀ k x, InBox a.range_X x → target k x = .ok (.fin (f x)))
    {r : Draws d} (hr : UnitDraws r) {num_init : ℤ} {X : List (Point d)}
    (hX : getInitials a.range_X r a.str_initial_method_bo num_init = .ok X)
    {u u' : World d (ModelState × ℕ)} {res : LoopSt d}
    (h : optimize w o clock target r num_init u = (u', .ok res)) :
    (∀ x ∈ X, InBox a.range_X x) ∧ ∃ u1 u3 r2, optimizeWithAllInitialInformation
      (runEnv w o clock target) a.num_iter.toNat X (X.map fun x => Flt.fin (f x)) u1 = (u3, .ok r2) ∧
      res.X = r2.X ∧ res.Y = r2.Y ∧ u1.model = u.model ∧ u'.model = u3.model := by
  obtain ⟨hck, -, e1, -, e3, -⟩ := create_ok hw
  obtain ⟨-, -, -, -, -, c6⟩ := own_checked hck
  have hbox : ∀ x ∈ X, InBox a.range_X x := by
    rw [C13_initials] at hX
    split_ifs at hX
    exact C13_in_box a.range_X c6 r hr _ _ _ hX
  refine ⟨hbox, ?_⟩
  unfold optimize classOptimize at h
  rw [bind_apply] at h
  by_cases hn : num_init > 0
  · simp only [RunM.lift, pyAssert, hn, if_true, bind_apply, now, pure_apply, e3, range_created hw, hX]
      at h
    obtain ⟨u1, ts, hi, hm⟩ := initial_values (env := runEnv w o clock target) ht X
      { u with tick := u.tick + 1 } hbox
    simp only [optimizeWithInitialInputs, bind_apply, hi] at h
    rcases ho : optimizeWithAllInitialInformation (runEnv w o clock target) w.num_iter.toNat X
      (X.map fun x => Flt.fin (f x)) u1 with ⟨u3, e | r2⟩
    · rw [ho] at h
      cases (Prod.mk.inj h).2
    · rw [ho] at h
      simp only [pure_apply, Prod.mk.injEq, Except.ok.injEq] at h
      obtain ⟨rfl, rfl⟩ := h
      rw [e1] at ho
      exact ⟨u1, u3, r2, ho, rfl, rfl, hm, rfl⟩
  · simp only [RunM.lift, pyAssert, hn, if_false] at h
    cases (Prod.mk.inj h).2

/-- C146: a run from initial rows that the object draws itself. -/
theorem C146_optimize {R : Bounds d} {base : String} (hb : base ∈ baseNames) {B Λ smax lmin η : ℝ}
    (hB : 0 ≤ B) (hΛ : 0 ≤ Λ) (hl : 0 < lmin) (hη : 0 < η) :
    ∃ M : ℕ, ∀ (env : Installed) (a : Args d) (w : BayesianOptimization d) (st : ModelState)
      (m : Point d → ℝ) (δ : ℝ) (H : Set (ℝ × (Fin d → ℝ))) (o : RunOracles d) (spread gap : ℝ)
      (f : Point d → ℝ) (clock : ℕ → ℝ) (target : ℕ → Point d → Py Flt) (r : Draws d) (num_init : ℤ)
      (X : List (Point d)) (u u' : World d (ModelState × ℕ)) (res : LoopSt d),
      create env a = .ok (w, st) → a.range_X = R → a.str_cov = base → 0 ≤ δ →
      GoodSearch "ei" a m Λ smax lmin δ H o →
      (a.str_mlm_method = "converged" → FitsFrom H u.model.1.gp) →
      SuitsFits R base H (normalizes a) m B spread gap f →
      (∀ k x, InBox R x → target k x = .ok (.fin (f x))) → UnitDraws r →
      getInitials R r a.str_initial_method_bo num_init = .ok X →
      (∃ x ∈ X, ∃ x' ∈ X, gap ≤ f x' - f x) → M ≤ a.num_iter →
      optimize w o clock target r num_init u = (u', .ok res) →
      ∃ y, Flt.fin y ∈ res.Y ∧ ∀ z, InBox R z →
        y ≤ f z + max 1 (spread / 10) * (runError B Λ smax lmin (δ / 10) + η) := by
  obtain ⟨M, hM⟩ := C146_run (d := d) (R := R) hb hB hΛ (smax := smax) hl hη
  refine ⟨M, fun env a w st m δ H o spread gap f clock target r num_init X u u' res hw hR hcov hδ hg hu hf
    ht hr hX hgap hT h => ?_⟩
  subst hR
  obtain ⟨hbox, u1, u3, r2, h1, -, h2, hu1, -⟩ := optimize_run hw ht hr hX h
  rw [h2]
  exact hM env a w st m δ H o spread gap f clock target X _ u1 u3 r2 hw rfl hcov hδ hg (hu1 ▸ hu) hf ht hbox
    hgap (by omega) h1

/-! ### An example: `exp (-|z|² / 2)` on `[0, 10]²` -/

/-- A lowest point of a function in the box, if there is one. -/
noncomputable def lowestIn (f : Point 2 → Py Flt) (B : Bounds 2) : Point 2 :=
  open Classical in
  if h : ∃ q, InBox B q ∧ ∀ z, InBox B z → ∃ a b, f q = .ok (.fin a) ∧ f z = .ok (.fin b) ∧ a ≤ b
  then h.choose else fun i => (B i).1

noncomputable def lowRoutines : BoCommon.Oracles 2 where
  fitHyps _ _ _ _ _ := .ok [.fin 1, .fin 1, .fin 1]
  lbfgsb f _ B := .ok (lowestIn f B)
  direct f B := .ok (lowestIn f B)
  cma f _ _ B := .ok (lowestIn f B)
  draws := ⟨fun _ => 1 / 2, fun k => 100 * k, fun k _ => if k = 0 then 0 else 1, fun _ _ => 1⟩

theorem lowest_inBox (f : Point 2 → Py Flt) : InBox exBox (lowestIn f exBox) := by
  unfold lowestIn
  split_ifs with h
  · exact h.choose_spec.1
  · exact fun i => ⟨le_rfl, exBox_le i⟩

theorem lowest_low {f : Point 2 → Py Flt} {g : Point 2 → ℝ} (hg : Continuous g)
    (hf : ∀ q, f q = .ok (.fin (g q))) : LowWithin exBox 0 g (lowestIn f exBox) := by
  have hc : IsCompact {z : Point 2 | InBox exBox z} := by
    have : {z : Point 2 | InBox exBox z} = Set.Icc (fun i => (exBox i).1) (fun i => (exBox i).2) :=
      Set.ext fun z => ⟨fun h => ⟨fun i => (h i).1, fun i => (h i).2⟩, fun h i => ⟨h.1 i, h.2 i⟩⟩
    rw [this]
    exact isCompact_Icc
  obtain ⟨q, hq, hmin⟩ := hc.exists_isMinOn ⟨fun i => (exBox i).1, fun i => ⟨le_rfl, exBox_le i⟩⟩
    hg.continuousOn
  have h : ∃ q, InBox exBox q ∧
      ∀ z, InBox exBox z → ∃ a b, f q = .ok (.fin a) ∧ f z = .ok (.fin b) ∧ a ≤ b :=
    ⟨q, hq, fun z hz => ⟨_, _, hf q, hf z, hmin hz⟩⟩
  intro z hz
  unfold lowestIn
  rw [dif_pos h]
  obtain ⟨a, b, h1, h2, h3⟩ := h.choose_spec.2 z hz
  rw [hf] at h1 h2
  obtain rfl := Flt.fin.inj (Except.ok.inj h1)
  obtain rfl := Flt.fin.inj (Except.ok.inj h2)
  linarith

noncomputable def bump (z : Point 2) : ℝ := Real.exp (-((z 0 ^ 2 + z 1 ^ 2) / 2))

theorem kernel_bump (z : Point 2) : kernel "se" 1 (fun _ => 1) (fun _ => 0) z = bump z := by
  have h1 : ¬ ("se" : String) = "matern32" := by decide
  have h2 : ¬ ("se" : String) = "matern52" := by decide
  have h3 : scaledDistance (fun _ => 1) (fun _ => 0) z ^ 2 = z 0 ^ 2 + z 1 ^ 2 := by
    rw [scaledDistance, Real.sq_sqrt (by positivity)]
    simp [Fin.sum_univ_two]
  simp only [kernel, profile, h1, h2, if_false, seProfile, h3, bump]
  norm_num

/-- The prior mean at which normalised responses of `bump` have the norm of a kernel function. -/
noncomputable def lowLevel : ℝ := -(10 * Real.exp (-100) / (1 - Real.exp (-100)))

noncomputable def searchArgs (acq : String) (T : ℕ) : Args 2 where
  range_X := exBox
  str_acq := acq
  num_iter := T + 1
  str_cov := "se"
  prior_mu := some fun n _ => .ok (List.replicate n lowLevel)

theorem prior_level : PriorFunction (some fun n _ => .ok (List.replicate n lowLevel) :
    Gp.PriorMu 2) fun _ => lowLevel := by
  intro n X
  simp [Gp.getPriorMu, bind, Except.bind, pure, Except.pure]

/-- The object of the example, for each of the acquisition functions. -/
theorem search_object {acq : String} (hacq : acq ∈ ALLOWED_BO_ACQ) (T : ℕ) :
    UnitDraws lowRoutines.draws ∧ (∃ w, create ⟨false, false⟩ (searchArgs acq T) = .ok (w, {})) ∧
    Runnable (searchArgs acq T) ∧
    RunsWell (searchArgs acq T) ⟨fun _ => lowRoutines, fun _ => exForest.forest⟩ := by
  have hdraws : UnitDraws lowRoutines.draws := by
    refine ⟨fun k => by norm_num [lowRoutines], fun k j => ?_, fun k j => by norm_num [lowRoutines]⟩
    simp only [lowRoutines]
    split_ifs <;> norm_num
  have hw : ∃ w, create ⟨false, false⟩ (searchArgs acq T) = .ok (w, {}) := by
    have h3 : (0 : ℤ) < NUM_SAMPLES_AO := by norm_num [NUM_SAMPLES_AO]
    have h4 : (T : ℤ) + 1 > 0 := by omega
    simp only [create, ownChecks, searchArgs, getModelBo, BoWGp.init, initBase,
      checkOptimizerMethodBo, pyAssert, exBox_le, hacq, h3, h4, implies_true, if_true, bind,
      Except.bind, pure, Except.pure]
    exact ⟨_, rfl⟩
  have hrun : Runnable (searchArgs acq T) := by
    refine ⟨by norm_num, fun _ => ?_, fun _ n X => ⟨_, prior_level n X⟩, fun _ => .inl rfl⟩
    show "se" ∈ _
    decide
  have hwell : RunsWell (searchArgs acq T) ⟨fun _ => lowRoutines, fun _ => exForest.forest⟩ := by
    refine ⟨fun _ k => ?_, fun h => absurd (show ("gp" : String) = "tp" from h) (by decide), fun k => ?_,
      fun _ => exForest_ok⟩
    · intro method f x0 bounds jac _ _
      refine ⟨_, ⟨1, [1, 1], rfl, rfl, one_ne_zero, by simp⟩, rfl⟩
    · exact ⟨fun f _ _ _ => ⟨_, lowest_inBox f, rfl⟩, fun f _ => ⟨_, lowest_inBox f, rfl⟩,
        fun f _ _ _ _ => ⟨_, lowest_inBox f, rfl⟩, hdraws⟩
  exact ⟨hdraws, hw, hrun, hwell⟩

/-- A search of the example, for each of the acquisition functions: what the optimisers of the
acquisition function return is a lowest point, and fits return the signal 1 and the lengthscales 1.
The run starts at the corners `(0, 0)` and `(10, 10)`. -/
theorem search_runs {acq : String} (hacq : acq ∈ ALLOWED_BO_ACQ) (T : ℕ) : ∃ w u res,
    create ⟨false, false⟩ (searchArgs acq T) = .ok (w, {}) ∧
    optimize w ⟨fun _ => lowRoutines, fun _ => exForest.forest⟩ (fun k => k)
      (fun _ x => .ok (.fin (bump x))) lowRoutines.draws 2 ⟨({}, 0), 0, []⟩ = (u, .ok res) ∧
    GoodSearch acq (searchArgs acq T) (fun _ => lowLevel) 0 1 1 0 {(1, fun _ => 1)}
      ⟨fun _ => lowRoutines, fun _ => exForest.forest⟩ ∧
    SuitsFits exBox "se" {(1, fun _ => 1)} true (fun _ => lowLevel) (10 / (1 - Real.exp (-100)))
      (1 - Real.exp (-100)) (1 - Real.exp (-100)) bump ∧ UnitDraws lowRoutines.draws ∧
    getInitials exBox lowRoutines.draws (searchArgs acq T).str_initial_method_bo 2 =
      .ok [fun _ => 0, fun _ => 10] ∧ bump (fun _ => 0) - bump (fun _ => 10) = 1 - Real.exp (-100) := by
  have he : Real.exp (-100) < 1 := Real.exp_lt_one_iff.2 (by norm_num)
  have hpos : 0 < 1 - Real.exp (-100) := by linarith
  obtain ⟨hdraws, ⟨w, hw⟩, hrun, hwell⟩ := search_object hacq T
  have hgood : GoodSearch acq (searchArgs acq T) (fun _ => lowLevel) 0 1 1 0 {(1, fun _ => 1)}
      ⟨fun _ => lowRoutines, fun _ => exForest.forest⟩ := by
    refine ⟨rfl, rfl, prior_level, by simp, ?_, fun k => ?_, fun k => ?_⟩
    · rintro s l h
      obtain ⟨rfl, rfl⟩ := Prod.mk.inj h
      simp
    · intro method f x0 bounds jac v hv
      obtain rfl := Except.ok.inj hv
      exact ⟨1, fun _ => 1, rfl, .inl ⟨rfl, rfl⟩⟩
    · refine ⟨fun f g hg hf starts hs => ?_, fun f g hg hf q hq => ?_, fun f g hg hf _ _ q hq => ?_⟩
      · have : starts ≠ [] := by
          rintro rfl
          have := (C14_count_partial _ _ _ (show ("sobol" : String) ≠ "grid" by decide) _ _ hs).1
          simp [searchArgs, NUM_SAMPLES_AO] at this
        obtain ⟨x0, hx0⟩ := List.exists_mem_of_ne_nil _ this
        refine ⟨x0, hx0, fun q hq => ?_⟩
        obtain rfl := Except.ok.inj hq
        exact lowest_low hg hf
      · obtain rfl := Except.ok.inj hq
        exact lowest_low hg hf
      · obtain rfl := Except.ok.inj hq
        exact lowest_low hg hf
  have hsuits : SuitsFits exBox "se" {(1, fun _ => 1)} true (fun _ => lowLevel)
      (10 / (1 - Real.exp (-100))) (1 - Real.exp (-100)) (1 - Real.exp (-100)) bump := by
    have hb : ∀ z, InBox exBox z → Real.exp (-100) ≤ bump z ∧ bump z ≤ 1 := by
      intro z hz
      have h0 : 0 ≤ z 0 ∧ z 0 ≤ 10 := hz 0
      have h1 : 0 ≤ z 1 ∧ z 1 ≤ 10 := hz 1
      constructor
      · exact Real.exp_le_exp.2 (by nlinarith)
      · exact Real.exp_le_one_iff.2 (by nlinarith)
    refine ⟨fun u v hu hv => ?_, ?_⟩
    · rw [abs_le]
      constructor <;> linarith [hb u hu, hb v hv]
    · rintro s l h u v hu hv - hgap
      obtain ⟨rfl, rfl⟩ := Prod.mk.inj h
      have e1 : bump u = Real.exp (-100) := by linarith [hb u hu, hb v hv]
      have e2 : bump v = 1 := by linarith [hb u hu, hb v hv]
      rw [e1, e2]
      have hn := normAtMost_expansion (base := "se") (s := 1) (l := fun _ => 1) (d := 2)
        (fun _ : Fin 1 => fun _ => 0) (fun _ => 10 / (1 - Real.exp (-100)))
      simp only [Finset.univ_unique, Finset.sum_singleton, kernel_bump] at hn
      have e3 : bump (fun _ => 0) = 1 := by norm_num [bump]
      rw [e3, mul_one, Real.sqrt_mul_self (by positivity)] at hn
      have e4 : (fun z => inUnits true (Real.exp (-100)) 1 (bump z) - lowLevel) =
          fun z => 10 / (1 - Real.exp (-100)) * bump z := by
        funext z
        simp only [inUnits, minMaxImage, lowLevel, if_true]
        rw [if_neg (by linarith)]
        field_simp
        ring
      rw [e4]
      exact ⟨hn.1, fun n z _ c => hn.2 n z c⟩
  obtain ⟨u, res, hres, -⟩ := C72_run hw hrun hwell hdraws (fun k => k)
    (target := fun _ x => .ok (.fin (bump x))) (fun _ x _ => ⟨_, rfl⟩) (num_init := 2)
    (by norm_num) 0 0 []
  refine ⟨w, u, res, hw, hres, hgood, hsuits, hdraws, ?_, ?_⟩
  · have hm : "sobol" ∈ ALLOWED_SAMPLING_METHOD := by decide
    have hm' : "sobol" ∈ ALLOWED_INITIALIZING_METHOD_BO := by decide
    simp [searchArgs, STR_INITIALIZING_METHOD_BO, getInitials, getSamples, pyAssert, hm, hm', bind,
      Except.bind, getSamplesQmc, lowRoutines, exBox, List.range_succ]
  · norm_num [bump]

/-- C146 at work. -/
example {η : ℝ} (hη : 0 < η) : ∃ T w u res,
    create ⟨false, false⟩ (searchArgs "ei" T) = .ok (w, {}) ∧
    optimize w ⟨fun _ => lowRoutines, fun _ => exForest.forest⟩ (fun k => k)
      (fun _ x => .ok (.fin (bump x))) lowRoutines.draws 2 ⟨({}, 0), 0, []⟩ = (u, .ok res) ∧
    ∃ y, Flt.fin y ∈ res.Y ∧ ∀ z, InBox exBox z → y ≤ bump z +
      max 1 ((1 - Real.exp (-100)) / 10) * (runError (10 / (1 - Real.exp (-100))) 0 1 1 (0 / 10) + η) := by
  have he : Real.exp (-100) < 1 := Real.exp_lt_one_iff.2 (by norm_num)
  have hpos : 0 < 1 - Real.exp (-100) := by linarith
  obtain ⟨T, hT⟩ := C146_optimize (d := 2) (R := exBox) (base := "se") (by simp [baseNames])
    (B := 10 / (1 - Real.exp (-100))) (Λ := 0) (smax := 1) (lmin := 1) (by positivity) le_rfl
    one_pos hη
  obtain ⟨w, u, res, hw, hres, hgood, hsuits, hdraws, hX, hgap⟩ := search_runs (acq := "ei") (by decide) T
  refine ⟨T, w, u, res, hw, hres, ?_⟩
  refine hT _ _ _ _ _ _ _ _ _ _ _ _ _ _ _ [fun _ => 0, fun _ => 10] _ _ _ hw rfl rfl le_rfl hgood
    (fun _ => .inl rfl) hsuits (fun _ _ _ => rfl) hdraws hX ⟨fun _ => 10, by simp, fun _ => 0, by simp, hgap.ge⟩ ?_ hres
  show (T : ℤ) ≤ T + 1
  omega

/-- The search of the example with hyperparameters that are fitted until they have converged. -/
noncomputable def convergedArgs (T : ℕ) : Args 2 where
  range_X := exBox
  str_acq := "ei"
  num_iter := T + 1
  str_cov := "se"
  str_mlm_method := "converged"

/-- C146 at work when hyperparameters are fitted until they have converged. Responses are not
normalised then, so that the norm of the function is 1. -/
example {η : ℝ} (hη : 0 < η) : ∃ T w u res,
    create ⟨false, false⟩ (convergedArgs T) = .ok (w, {}) ∧
    optimize w ⟨fun _ => lowRoutines, fun _ => exForest.forest⟩ (fun k => k)
      (fun _ x => .ok (.fin (bump x))) lowRoutines.draws 2 ⟨({}, 0), 0, []⟩ = (u, .ok res) ∧
    ∃ y, Flt.fin y ∈ res.Y ∧ ∀ z, InBox exBox z →
      y ≤ bump z + max 1 (1 / 10) * (runError 1 0 1 1 (0 / 10) + η) := by
  obtain ⟨T, hT⟩ := C146_optimize (d := 2) (R := exBox) (base := "se") (by simp [baseNames])
    (B := 1) (Λ := 0) (smax := 1) (lmin := 1) zero_le_one le_rfl one_pos hη
  obtain ⟨hdraws, -, -, -⟩ := search_object (acq := "ei") (by decide) T
  obtain ⟨-, -, -, -, -, hgood, -, -, hX, -⟩ := search_runs (acq := "ei") (by decide) T
  obtain ⟨w, hw⟩ : ∃ w, create ⟨false, false⟩ (convergedArgs T) = .ok (w, {}) := by
    have h3 : (0 : ℤ) < NUM_SAMPLES_AO := by norm_num [NUM_SAMPLES_AO]
    have h4 : (T : ℤ) + 1 > 0 := by omega
    have h5 : "ei" ∈ ALLOWED_BO_ACQ := by decide
    simp only [create, ownChecks, convergedArgs, getModelBo, BoWGp.init, initBase,
      checkOptimizerMethodBo, pyAssert, exBox_le, h3, h4, h5, implies_true, if_true, bind,
      Except.bind, pure, Except.pure]
    exact ⟨_, rfl⟩
  have hm : PriorFunction (convergedArgs T).prior_mu fun _ => 0 := fun n X => rfl
  have hrun : Runnable (convergedArgs T) := by
    refine ⟨by norm_num, fun _ => ?_, fun _ n X => ⟨_, hm n X⟩, fun _ => .inl rfl⟩
    show "se" ∈ _
    decide
  have hwell : RunsWell (convergedArgs T) ⟨fun _ => lowRoutines, fun _ => exForest.forest⟩ := by
    refine ⟨fun _ k => ?_, fun h => absurd (show ("gp" : String) = "tp" from h) (by decide), fun k => ?_,
      fun _ => exForest_ok⟩
    · intro method f x0 bounds jac _ _
      refine ⟨_, ⟨1, [1, 1], rfl, rfl, one_ne_zero, by simp⟩, rfl⟩
    · exact ⟨fun f _ _ _ => ⟨_, lowest_inBox f, rfl⟩, fun f _ => ⟨_, lowest_inBox f, rfl⟩,
        fun f _ _ _ _ => ⟨_, lowest_inBox f, rfl⟩, hdraws⟩
  obtain ⟨u, res, hres, -⟩ := C72_run hw hrun hwell hdraws (fun k => k)
    (target := fun _ x => .ok (.fin (bump x))) (fun _ x _ => ⟨_, rfl⟩) (num_init := 2)
    (by norm_num) 0 0 []
  refine ⟨T, w, u, res, hw, hres, ?_⟩
  refine hT _ _ _ _ (fun _ => 0) _ {(1, fun _ => 1)} ⟨fun _ => lowRoutines, fun _ => exForest.forest⟩
    1 0 _ _ _ _ _ [fun _ => 0, fun _ => 10] _ _ _ hw rfl rfl le_rfl
    ⟨rfl, rfl, hm, by simp, hgood.hyps, hgood.fits, hgood.finds⟩ (fun _ => .inl rfl) ?_
    (fun _ _ _ => rfl) hdraws hX ⟨fun _ => 10, by simp, fun _ => 10, by simp, by simp⟩ ?_ hres
  · refine ⟨fun u v _ _ => ?_, ?_⟩
    · have h1 := Real.exp_pos (-((u 0 ^ 2 + u 1 ^ 2) / 2))
      have h2 := Real.exp_pos (-((v 0 ^ 2 + v 1 ^ 2) / 2))
      have h3 : bump u ≤ 1 := Real.exp_le_one_iff.2 (by nlinarith [sq_nonneg (u 0), sq_nonneg (u 1)])
      have h4 : bump v ≤ 1 := Real.exp_le_one_iff.2 (by nlinarith [sq_nonneg (v 0), sq_nonneg (v 1)])
      rw [abs_le]
      constructor <;> unfold bump at * <;> linarith
    · rintro s l h u v - - - -
      obtain ⟨rfl, rfl⟩ := Prod.mk.inj h
      have hn := normAtMost_expansion (base := "se") (s := 1) (l := fun _ => 1) (d := 2)
        (fun _ : Fin 1 => fun _ => 0) (fun _ => 1)
      simp only [Finset.univ_unique, Finset.sum_singleton, kernel_bump] at hn
      have e3 : bump (fun _ => 0) = 1 := by norm_num [bump]
      rw [e3, mul_one, mul_one, Real.sqrt_one] at hn
      have e4 : (fun z => inUnits (normalizes (convergedArgs T)) (bump u) (bump v) (bump z) - 0) =
          fun z => 1 * bump z := by
        funext z
        simp [inUnits, normalizes, convergedArgs]
      rw [e4]
      exact ⟨hn.1, fun n z _ c => hn.2 n z c⟩
  · show (T : ℤ) ≤ T + 1
    omega

end Verif.Props
