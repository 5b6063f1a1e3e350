import Verif.Lemmas.StudentRuns
import Verif.Lemmas.EndToEndMore
import Verif.Props.EndToEnd
import Verif.Props.ImprovementChance
import Verif.Props.OtherRuns

/-! # Runs with the Student-t process (C152) -/

namespace Verif.Props

open Verif.Spec Verif.Covariance Verif.UtilsCovariance Verif.Lemmas Verif.Acquisition
  Verif.Constants Verif.WrapperClass Verif.WrappersBo Verif.UtilsBo Verif.BaseBo
open Matrix hiding gram

variable {d n : ℕ}

/-- What a step with a Student-t process minimises. -/
theorem student_step_scores {env : Installed} {a : Args d} {w : BayesianOptimization d} {st : ModelState}
    (hw : create env a = .ok (w, st)) (htp : a.str_surrogate = "tp")
    (hcov : a.str_cov ∈ baseNames) {m : Point d → ℝ}
    (hm : PriorFunction a.prior_mu m) (hmc : Continuous m) {H : Set (ℝ × ℝ × (Fin d → ℝ))}
    (hH : ∀ ν s l, (ν, s, l) ∈ H → 2 < ν ∧ ∀ k, l k ≠ 0) {o : RunOracles d} {k : ℕ}
    (hfit : FitsInStudent H a.use_ard (o.routines k).fitHyps)
    {clock : ℕ → ℝ} (hn : n ≠ 0) {x : Fin n → Point d} {y : Fin n → ℝ} {s : ModelState × ℕ}
    {p : Point d} {i : Info d}
    (h : (optimizeSingleIteration w o clock k (List.ofFn x) (List.ofFn y) s).2 = .ok (p, i)) :
    InBox a.range_X p ∧
    ∃ (Yt : Fin n → ℝ) (hy : HypDict) (ν sg : ℝ) (l : Fin d → ℝ),
      (if a.normalize_Y = true then normalizeMinMax (List.ofFn y) else .ok (List.ofFn y)) =
        .ok (List.ofFn Yt) ∧
      (ν, sg, l) ∈ H ∧ DescribesStudent hy ν (1 / 100) sg l ∧
      (optimizeSingleIteration w o clock k (List.ofFn x) (List.ofFn y) s).1.1.tp.historical_hyps =
        s.1.tp.historical_hyps ++ [hy] ∧
      ∃ score, chooseFunAcquisition a.str_acq (some (1 / 100)) = .ok score ∧
      ∃ (f : Point d → Py Flt) (g : Point d → ℝ), Continuous g ∧ (∀ q, f q = .ok (.fin (g q))) ∧
        BoCommon.candidates (⟨a.range_X, a.str_surrogate, a.str_acq,
          usedOptimizer env d a.str_optimizer_method_bo, a.normalize_Y⟩ : BaseBO d) (o.routines k) f a.str_sampling_method_ao
          a.num_samples_ao = .ok i.next_points ∧ p ∈ i.next_points ∧ (∀ q ∈ i.next_points, g p ≤ g q) ∧
        ∀ q z, ∃ ν' mu sd S v v', Tp.predictWithHyps (.vec x) Yt (.vec ![q, z]) hy
          a.str_cov a.prior_mu = .ok (ν', mu, sd, S) ∧
          score (List.ofFn mu) (List.ofFn sd) (List.ofFn Yt) = .ok [v, v'] ∧ g q = -(10 * v) ∧
          g z = -(10 * v') := by
  obtain ⟨-, -, -, -, -, -, -, m', -, hc⟩ := create_ok hw
  have hacq : a.str_acq ∈ ALLOWED_BO_ACQ := by
    rcases hc with ⟨h, -⟩ | ⟨h, -⟩ | ⟨-, -, bo, hm, hi⟩
    · rw [htp] at h
      exact absurd h (by decide)
    · rw [htp] at h
      exact absurd h (by decide)
    · exact (tp_init_ok hi).2.2.2.2.2.2.2.2.1
  obtain ⟨-, -, e3, -, e5, e6, hcase⟩ := C77_options hw
  have hbo : w.model_bo = .tp ⟨⟨a.range_X, a.str_surrogate, a.str_acq,
      usedOptimizer env d a.str_optimizer_method_bo, a.normalize_Y⟩, a.str_cov, a.use_ard,
      a.prior_mu, a.str_optimizer_method_tp⟩ := by
    rcases hcase with ⟨h, -⟩ | ⟨h, -⟩ | ⟨-, h⟩
    · rw [htp] at h
      exact absurd h (by decide)
    · rw [htp] at h
      exact absurd h (by decide)
    · exact h
  have hst : (optimizeSingleIteration w o clock k (List.ofFn x) (List.ofFn y) s).1.1.tp =
      (BoWTp.optimize (⟨⟨a.range_X, a.str_surrogate, a.str_acq,
      usedOptimizer env d a.str_optimizer_method_bo, a.normalize_Y⟩, a.str_cov, a.use_ard,
      a.prior_mu, a.str_optimizer_method_tp⟩ : BoWTp.BOwTP d) (o.routines k)
      clock (.vec (List.ofFn x).get) (List.ofFn y) a.str_sampling_method_ao a.num_samples_ao
      (s.1.tp, s.2)).1.1 := by
    simp only [optimizeSingleIteration, e3, htp, e5, e6, hbo]
    rfl
  rw [C77_step hw, hbo] at h
  generalize (optimizeSingleIteration w o clock k (List.ofFn x) (List.ofFn y) s).1.1.tp = G at hst ⊢
  obtain ⟨⟨p', i'⟩, h3, h4⟩ := map_ok h
  obtain ⟨rfl, rfl⟩ := Prod.mk.inj h4
  have key := tp_scores (bo := ⟨⟨a.range_X, a.str_surrogate, a.str_acq,
      usedOptimizer env d a.str_optimizer_method_bo, a.normalize_Y⟩, a.str_cov, a.use_ard,
      a.prior_mu, a.str_optimizer_method_tp⟩) hcov hacq hm hmc hH hfit (by simpa using hn) (pair_eta h3)
  rw [← hst] at key
  obtain ⟨key1, key2⟩ := key
  refine ⟨key1, ?_⟩
  have e : (info i').next_points = i'.next_points := rfl
  rw [e]
  generalize i'.next_points = pts at key2 ⊢
  exact rows_of_ofFn (fun n x => ∃ (Yt : Fin n → ℝ) (hy : HypDict) (ν sg : ℝ) (l : Fin d → ℝ),
      (if a.normalize_Y = true then normalizeMinMax (List.ofFn y) else .ok (List.ofFn y)) =
        .ok (List.ofFn Yt) ∧
      (ν, sg, l) ∈ H ∧ DescribesStudent hy ν (1 / 100) sg l ∧
      G.historical_hyps = s.1.tp.historical_hyps ++ [hy] ∧
      ∃ score, chooseFunAcquisition a.str_acq (some (1 / 100)) = .ok score ∧
      ∃ (f : Point d → Py Flt) (g : Point d → ℝ), Continuous g ∧ (∀ q, f q = .ok (.fin (g q))) ∧
        BoCommon.candidates (⟨a.range_X, a.str_surrogate, a.str_acq,
          usedOptimizer env d a.str_optimizer_method_bo, a.normalize_Y⟩ : BaseBO d) (o.routines k) f a.str_sampling_method_ao
          a.num_samples_ao = .ok pts ∧ p' ∈ pts ∧ (∀ q ∈ pts, g p' ≤ g q) ∧
        ∀ q z, ∃ ν' mu sd S v v', Tp.predictWithHyps (.vec x) Yt (.vec ![q, z]) hy
          a.str_cov a.prior_mu = .ok (ν', mu, sd, S) ∧
          score (List.ofFn mu) (List.ofFn sd) (List.ofFn Yt) = .ok [v, v'] ∧ g q = -(10 * v) ∧
          g z = -(10 * v')) key2 rfl

/-- C152: a step with a Student-t process whose routines do what they are for, with any acquisition
function. The proposed point lies in the search space, and no point there has a score that is higher
by more than a tenth of `δ`. Scores are those of the acquisition function that was asked for, for
predictions of the Student-t process from all rows and their responses, normalised if asked for
(whatever the fitting mode, other than with a Gaussian process), by hyperparameters in `H` with the
noise `0.01`, which the object appends to its history. -/
theorem C152_step {env : Installed} {a : Args d} {w : BayesianOptimization d} {st : ModelState}
    (hw : create env a = .ok (w, st)) (htp : a.str_surrogate = "tp")
    (hcov : a.str_cov ∈ baseNames) {m : Point d → ℝ}
    (hm : PriorFunction a.prior_mu m) (hmc : Continuous m) {H : Set (ℝ × ℝ × (Fin d → ℝ))}
    (hH : ∀ ν s l, (ν, s, l) ∈ H → 2 < ν ∧ ∀ k, l k ≠ 0) {o : RunOracles d} {k : ℕ}
    (hfit : FitsInStudent H a.use_ard (o.routines k).fitHyps) {δ : ℝ}
    (ho : FindsLow (o.routines k) a.range_X a.str_sampling_method_ao a.num_samples_ao δ)
    {clock : ℕ → ℝ} (hn : n ≠ 0) {x : Fin n → Point d} {y : Fin n → ℝ} {s : ModelState × ℕ}
    {p : Point d} {i : Info d}
    (h : (optimizeSingleIteration w o clock k (List.ofFn x) (List.ofFn y) s).2 = .ok (p, i)) :
    InBox a.range_X p ∧
    ∃ (Yt : Fin n → ℝ) (hy : HypDict) (ν sg : ℝ) (l : Fin d → ℝ),
      (if a.normalize_Y = true then normalizeMinMax (List.ofFn y) else .ok (List.ofFn y)) =
        .ok (List.ofFn Yt) ∧
      (ν, sg, l) ∈ H ∧ DescribesStudent hy ν (1 / 100) sg l ∧
      (optimizeSingleIteration w o clock k (List.ofFn x) (List.ofFn y) s).1.1.tp.historical_hyps =
        s.1.tp.historical_hyps ++ [hy] ∧
      ∃ score, chooseFunAcquisition a.str_acq (some (1 / 100)) = .ok score ∧
      ∀ z, InBox a.range_X z → ∃ ν' mu sd S v v', Tp.predictWithHyps (.vec x) Yt (.vec ![p, z]) hy
        a.str_cov a.prior_mu = .ok (ν', mu, sd, S) ∧
        score (List.ofFn mu) (List.ofFn sd) (List.ofFn Yt) = .ok [v, v'] ∧ v' ≤ v + δ / 10 := by
  obtain ⟨hp, Yt, hy, ν, sg, l, h1, h2, h3, h4, fa, h5, f, g, h6, h7, h8, h9, h10, h11⟩ :=
    student_step_scores hw htp hcov hm hmc hH hfit hn h
  refine ⟨hp, Yt, hy, ν, sg, l, h1, h2, h3, h4, fa, h5, fun z hz => ?_⟩
  obtain ⟨q, hq, hlow⟩ := candidates_low ho h6 h7 h8 (List.ne_nil_of_mem h9)
  obtain ⟨ν', mu, sd, S, v, v', a1, a2, a3, a4⟩ := h11 p z
  refine ⟨ν', mu, sd, S, v, v', a1, a2, ?_⟩
  linarith [hlow z hz, h10 q hq]

/-- A step of a run with the Student-t process, in the units of its responses: from the rows `x 0`, …,
`x (n - 1)` it proposed `p`. -/
structure StudentChoice (a : Args d) (m : Point d → ℝ) (B spread δ : ℝ) (H : Set (ℝ × ℝ × (Fin d → ℝ)))
    (score : List ℝ → List ℝ → List ℝ → Py (List ℝ)) (f : Point d → ℝ) (x : ℕ → Point d) (n : ℕ)
    (p : Point d) (hy : HypDict) (ν sg : ℝ) (l : Fin d → ℝ) (lo hi : ℝ) : Prop where
  inBox : InBox a.range_X p
  mem : (ν, sg, l) ∈ H
  describes : DescribesStudent hy ν (1 / 100) sg l
  least : IsLeast (Set.range fun i : Fin n => f (x i)) lo
  greatest : IsGreatest (Set.range fun i : Fin n => f (x i)) hi
  spread : hi - lo ≤ spread
  norm : NormAtMostOn {z : Point d | InBox a.range_X z} a.str_cov sg l B
    (fun z => inUnits a.normalize_Y lo hi (f z) - m z)
  best : ∀ z ∈ {z : Point d | InBox a.range_X z}, ∃ ν' mu sd S v v',
    Tp.predictWithHyps (.vec fun i : Fin n => x i)
      (fun i => inUnits a.normalize_Y lo hi (f (x i))) (.vec ![p, z]) hy a.str_cov a.prior_mu =
        .ok (ν', mu, sd, S) ∧
    score (List.ofFn mu) (List.ofFn sd)
      (List.ofFn fun i : Fin n => inUnits a.normalize_Y lo hi (f (x i))) = .ok [v, v'] ∧
    v' ≤ v + δ / 10

/-- The steps of a run from given rows and exact responses. The row evaluated is the one proposed,
unless that is a duplicate. -/
theorem student_choices {env : Installed} {a : Args d} {w : BayesianOptimization d} {st : ModelState}
    (hw : create env a = .ok (w, st)) (hcov : a.str_cov ∈ baseNames) {m : Point d → ℝ}
    {B Λ smax lmin δ spread gap : ℝ} (hΛ : 0 ≤ Λ) (hl : 0 < lmin) {H : Set (ℝ × ℝ × (Fin d → ℝ))}
    {o : RunOracles d} {name : String} (hg : GoodStudentSearch name a m Λ smax lmin δ H o)
    {score : List ℝ → List ℝ → List ℝ → Py (List ℝ)}
    (hscore : chooseFunAcquisition name (some (1 / 100)) = .ok score) {f : Point d → ℝ}
    (hf : SuitsFits a.range_X a.str_cov (Prod.snd '' H) a.normalize_Y m B spread gap f) {clock : ℕ → ℝ}
    {target : ℕ → Point d → Py Flt} (ht : ∀ k x, InBox a.range_X x → target k x = .ok (.fin (f x)))
    {X : List (Point d)} (hX : ∀ x ∈ X, InBox a.range_X x)
    (hgap : ∃ x ∈ X, ∃ x' ∈ X, gap ≤ f x' - f x) {T : ℕ} {u u' : World d (ModelState × ℕ)}
    {res : LoopSt d} (h : optimizeWithAllInitialInformation (runEnv w o clock target) T X
        (X.map fun x => Flt.fin (f x)) u = (u', .ok res)) :
    ∃ x : ℕ → Point d, (∀ n, InBox a.range_X (x n)) ∧
      (∀ n ≤ X.length + T, res.X.take n = List.ofFn fun i : Fin n => x i) ∧
      (∀ n < X.length + T, Flt.fin (f (x n)) ∈ res.Y) ∧
      ∀ n, X.length ≤ n → n < X.length + T → ∃ p hy ν sg l lo hi,
        StudentChoice a m B spread δ H score f x n p hy ν sg l lo hi ∧
        u'.model.1.tp.historical_hyps[u.model.1.tp.historical_hyps.length + (n - X.length)]? =
          some hy ∧
        (x n = p ∨ ∃ j : Fin n, √(∑ k, (p k - x j k) ^ 2) < 1e-8) := by
  have hmc : Continuous m := by
    refine (LipschitzWith.of_dist_le_mul (K := ⟨Λ, hΛ⟩) fun u v => ?_).continuous
    rw [Real.dist_eq]
    exact hg.lipschitz u v
  -- the rows and responses of the run
  obtain ⟨hbX, -⟩ := C07_object hw o clock target T X _ u u' res hX h
  obtain ⟨-, Q, S, hQ, hS, hXr, hYr, -, hval⟩ := C06_keeps_data _ T X _ u u' res h
  have hY : res.Y = res.X.map fun x => Flt.fin (f x) := by
    have : S = Q.map fun x => Flt.fin (f x) := by
      apply List.ext_getElem?
      intro i
      rw [List.getElem?_map]
      by_cases hi : i < T
      · have e1 : Q[i]? = some Q[i] := List.getElem?_eq_getElem (by omega)
        have e2 : S[i]? = some S[i] := List.getElem?_eq_getElem (by omega)
        have e3 := hval i _ _ e1 e2
        have e4 : (runEnv w o clock target).target (u.log.length + i) Q[i] = .ok (.fin (f Q[i])) :=
          ht _ _ (hbX _ (by rw [hXr]; simp))
        rw [e4, Except.ok.injEq] at e3
        rw [e1, e2, Option.map_some, e3]
      · rw [List.getElem?_eq_none (by omega), List.getElem?_eq_none (by omega)]; rfl
    rw [hXr, hYr, this, List.map_append]
  obtain ⟨x₀, hx₀, x₁, hx₁, hgap⟩ := hgap
  let x : ℕ → Point d := fun n => (res.X[n]?).getD x₀
  have hxD : ∀ n, x n ∈ {z : Point d | InBox a.range_X z} := by
    intro n
    simp only [x]
    cases hn : res.X[n]? with
    | none => exact hX _ hx₀
    | some q => exact hbX _ (List.mem_of_getElem? hn)
  have hlen : res.X.length = X.length + T := by rw [hXr, List.length_append, hQ]
  have hX0 : X.length ≠ 0 := by
    intro h0
    rw [List.length_eq_zero_iff.1 h0] at hx₀
    simp at hx₀
  have htake : ∀ n ≤ X.length + T, res.X.take n = List.ofFn fun i : Fin n => x i := by
    intro n hn
    refine List.ext_getElem (by simp [hlen, hn]) fun i h1 h2 => ?_
    simp only [List.length_ofFn] at h2
    have : res.X[i]? = some res.X[i] := List.getElem?_eq_getElem (by omega)
    simp [x, this]
  have hmem : ∀ n < X.length + T, Flt.fin (f (x n)) ∈ res.Y := by
    intro n hn
    have : res.X[n]? = some (x n) := by
      have : res.X[n]? = some res.X[n] := List.getElem?_eq_getElem (by omega)
      simp [x, this]
    rw [hY]
    exact List.mem_map.2 ⟨_, List.mem_of_getElem? this, rfl⟩
  refine ⟨x, hxD, htake, hmem, ?_⟩
  -- its iterations
  obtain ⟨-, w1, h1, rfl⟩ := run_ok _ T X _ u u' res h
  obtain ⟨ws, sts, h0, h0', hT, hT', hiter⟩ := classLoop_ok _ T _ _ _ _ h1
  have hXs := grows (g := fun i => (sts i).X) (T := T) fun i hi => by
    obtain ⟨_, _, _, q, _, _, hq⟩ := hiter i hi
    exact ⟨q, by simp only [hq.state]⟩
  have hYs := grows (g := fun i => (sts i).Y) (T := T) fun i hi => by
    obtain ⟨_, _, _, _, _, y, hq⟩ := hiter i hi
    exact ⟨y, by simp only [hq.state]⟩
  simp only [h0', hT', List.length_map] at hXs hYs
  have hstep : ∀ i < T, ∃ p hy ν sg l lo hi,
      StudentChoice a m B spread δ H score f x (X.length + i) p hy ν sg l lo hi ∧
      (ws (i + 1)).model.1.tp.historical_hyps = (ws i).model.1.tp.historical_hyps ++ [hy] ∧
      (x (X.length + i) = p ∨ ∃ j : Fin (X.length + i), √(∑ k, (p k - x j k) ^ 2) < 1e-8) := by
    intro i hi
    obtain ⟨s', t', p, q, info, y, hq⟩ := hiter i hi
    have hst := hq.step
    have e1 : (sts i).X = List.ofFn fun j : Fin (X.length + i) => x j := by
      rw [← htake (X.length + i) (by omega), ← hXs i hi.le]
    have e2 : (sts i).Y = List.ofFn fun j : Fin (X.length + i) => Flt.fin (f (x j)) := by
      rw [← hYs i hi.le, hY, ← List.map_take, htake _ (by omega), List.map_ofFn]
      rfl
    have e3 : finites (List.ofFn fun j : Fin (X.length + i) => Flt.fin (f (x j))) =
        .ok (List.ofFn fun j : Fin (X.length + i) => f (x j)) := by
      rw [← finites_map, List.map_ofFn]
      rfl
    have hn : X.length + i ≠ 0 := by omega
    rw [e1, e2] at hst
    simp only [runEnv, step, e3] at hst
    obtain ⟨hst1, hst2⟩ := Prod.mk.inj hst
    obtain ⟨hp, Yt, hy, ν, sg, l, b1, b2, b3, b4, score', b5, b6⟩ := C152_step hw hg.surrogate hcov
      hg.prior hmc (fun ν s l hsl => ⟨(hg.hyps ν s l hsl).1, fun k =>
        abs_pos.1 (hl.trans_le ((hg.hyps ν s l hsl).2.2 k))⟩) (hg.fits _) (hg.finds _) hn (s := ((ws i).model.1, (ws i).tick + 1))
        hst2
    rw [hg.acq, hscore] at b5
    obtain rfl := Except.ok.inj b5
    have hne : (Set.range fun j : Fin (X.length + i) => f (x j)).Nonempty :=
      ⟨_, ⟨0, Nat.pos_of_ne_zero hn⟩, rfl⟩
    have hfin := Set.finite_range fun j : Fin (X.length + i) => f (x j)
    have hlo := hfin.isCompact.isLeast_sInf hne
    have hhi := hfin.isCompact.isGreatest_sSup hne
    generalize sInf (Set.range fun j : Fin (X.length + i) => f (x j)) = lo at hlo
    generalize sSup (Set.range fun j : Fin (X.length + i) => f (x j)) = hi' at hhi
    have hin : ∀ q ∈ X, f q ∈ Set.range fun j : Fin (X.length + i) => f (x j) := by
      intro q hq
      obtain ⟨j, hj⟩ := List.mem_iff_getElem?.1 hq
      have hjl : j < X.length := (List.getElem?_eq_some_iff.1 hj).1
      refine ⟨⟨j, by omega⟩, ?_⟩
      have : res.X[j]? = some q := by rw [hXr, List.getElem?_append_left hjl, hj]
      simp [x, this]
    refine ⟨p, hy, ν, sg, l, lo, hi', ⟨hp, b2, b3, hlo, hhi, ?_, ?_, ?_⟩, ?_, ?_⟩
    · obtain ⟨j, hj⟩ := hlo.1
      obtain ⟨j', hj'⟩ := hhi.1
      rw [← hj, ← hj']
      exact (le_abs_self _).trans (hf.spread _ _ (hxD j') (hxD j))
    · obtain ⟨j, hj⟩ := hlo.1
      obtain ⟨j', hj'⟩ := hhi.1
      have c1 := hlo.2 (hin _ hx₀)
      have c2 := hhi.2 (hin _ hx₁)
      have c3 := hlo.2 hhi.1
      have d1 : f (x j) = lo := hj
      have d2 : f (x j') = hi' := hj'
      have := hf.norm sg l ⟨_, b2, rfl⟩ (x j) (x j') (hxD j) (hxD j') (by rw [d1, d2]; exact c3)
        (by rw [d1, d2]; linarith)
      rwa [d1, d2] at this
    · have hYt : Yt = fun j : Fin (X.length + i) => inUnits a.normalize_Y lo hi' (f (x j)) :=
        funext fun j => inUnits_eq hlo hhi b1 j
      rw [hYt] at b6
      exact b6
    · rw [hq.world]
      show s'.1.tp.historical_hyps = _
      rw [← (Prod.mk.inj hst1).1]
      exact b4
    · have hc := hq.choice
      rw [e1] at hc
      unfold getNextBestSample at hc
      cases hr : isRepeated p (List.ofFn fun j : Fin (X.length + i) => x j) with
      | false =>
        left
        rw [hr] at hc
        simp only [Bool.false_eq_true, if_false, Except.ok.injEq, Option.some.injEq] at hc
        have e5 : (sts (i + 1)).X = List.ofFn fun j : Fin (X.length + (i + 1)) => x j := by
          rw [← htake (X.length + (i + 1)) (by omega), ← hXs (i + 1) hi]
        rw [hq.state, e1] at e5
        have e6 := congrArg (fun L => L[X.length + i]?) e5
        rw [← hc, List.getElem?_append_right (by simp), List.getElem?_ofFn, dif_pos (by omega)] at e6
        simpa using e6.symm
      | true =>
        right
        by_contra hno
        push Not at hno
        have : FarFrom 1e-8 (List.ofFn fun j : Fin (X.length + i) => x j) p := by
          intro e he
          obtain ⟨j, rfl⟩ := List.mem_ofFn.1 he
          exact hno j
        rw [(not_isRepeated_iff _ _).2 this] at hr
        cases hr
  have hH := grows_get (g := fun i => (ws i).model.1.tp.historical_hyps) (T := T) fun i hi => by
    obtain ⟨_, hy, _, _, _, _, _, -, h, -⟩ := hstep i hi
    exact ⟨_, h⟩
  intro n hn1 hn2
  obtain ⟨i, rfl⟩ := Nat.exists_eq_add_of_le hn1
  obtain ⟨p, hy, ν, sg, l, lo, hi, b1, b2, b3⟩ := hstep i (by omega)
  refine ⟨p, hy, ν, sg, l, lo, hi, b1, ?_, b3⟩
  have := hH i (by omega) _ b2
  rw [h0, hT] at this
  rw [Nat.add_sub_cancel_left]
  exact this

private theorem student_box_bounded (R : Bounds d) : Bornology.IsBounded {z : Point d | InBox R z} := by
  refine (Metric.isBounded_Icc (fun i => (R i).1) (fun i => (R i).2)).subset fun z hz => ?_
  exact ⟨fun i => (hz i).1, fun i => (hz i).2⟩

/-- C152: a run by pure exploration with the Student-t process from given rows of the search space and
their exact responses. The number `M` depends on the search space, the kernel and the bounds alone.
Once a run has made so many iterations, with the hyperparameters recorded in one of them, after `n`
responses, deviations were small in the whole search space, by a factor that falls like the inverse
root of `n` below those of C147, and the predicted means were close to the function. -/
theorem C152_explore_run {R : Bounds d} {base : String} (hb : base ∈ baseNames)
    {B Λ smax lmin η : ℝ} (hΛ : 0 ≤ Λ) (hl : 0 < lmin) (hη : 0 < η) :
    ∃ M : ℕ, ∀ (env : Installed) (a : Args d) (w : BayesianOptimization d) (st : ModelState)
      (m : Point d → ℝ) (δ : ℝ) (H : Set (ℝ × ℝ × (Fin d → ℝ))) (o : RunOracles d) (spread gap : ℝ)
      (f : Point d → ℝ) (clock : ℕ → ℝ) (target : ℕ → Point d → Py Flt) (X : List (Point d)) (T : ℕ)
      (u u' : World d (ModelState × ℕ)) (res : LoopSt d),
      create env a = .ok (w, st) → a.range_X = R → a.str_cov = base → 0 ≤ δ →
      GoodStudentSearch "pure_explore" a m Λ smax lmin δ H o →
      SuitsFits R base (Prod.snd '' H) a.normalize_Y m B spread gap f →
      (∀ k x, InBox R x → target k x = .ok (.fin (f x))) → (∀ x ∈ X, InBox R x) →
      (∃ x ∈ X, ∃ x' ∈ X, gap ≤ f x' - f x) → M ≤ T →
      optimizeWithAllInitialInformation (runEnv w o clock target) T X
        (X.map fun x => Flt.fin (f x)) u = (u', .ok res) →
      ∃ (i n : ℕ) (x : Fin n → Point d) (hy : HypDict) (ν lo hi : ℝ), i < M ∧ n = X.length + i ∧
        res.X.take n = List.ofFn x ∧
        u'.model.1.tp.historical_hyps[u.model.1.tp.historical_hyps.length + i]? = some hy ∧
        hy.dof = some (.flt (.fin ν)) ∧ 2 < ν ∧
        IsLeast (Set.range fun j => f (x j)) lo ∧ IsGreatest (Set.range fun j => f (x j)) hi ∧
        ∀ z, InBox R z → ∃ ν' mu sd S, Tp.predictWithHyps (.vec x)
          (fun j => inUnits a.normalize_Y lo hi (f (x j))) (.vec fun _ : Fin 1 => z) hy base a.prior_mu =
            .ok (ν', mu, sd, S) ∧
          sd 0 ≤ √((ν - 2 + B ^ 2) / (ν - 2 + n)) * (exploredDeviation smax lmin 0 + η) + δ / 10 ∧
          |inUnits a.normalize_Y lo hi (f z) - mu 0| ≤
            B * √((exploredDeviation smax lmin 0 + η + δ / 10 * √((ν - 2 + n) / (ν - 2))) ^ 2 -
              1 / 100000) := by
  obtain ⟨M, hM⟩ := exists_small_near base (student_box_bounded R) (σmax := 1 / 100) (smax := smax) hl
    (η := η ^ 2) (by positivity) one_pos
  refine ⟨M, fun env a w st m δ H o spread gap f clock target X T u u' res hw hR hcov hδ hg hf ht hX
    hgap hT h => ?_⟩
  subst hR hcov
  obtain ⟨x, hxD, htake, -, hstep⟩ := student_choices hw hb hΛ hl hg
    (score := fun _ sd _ => pureExplore sd) rfl hf ht hX hgap h
  have hW : exploredDeviation smax lmin 0 = √(1 / 100000 + duplicateDeviation smax lmin ^ 2) := by
    rw [exploredDeviation, add_zero]
  rw [hW]
  have hfin : ∀ i < M, ∀ {p hy ν sg l lo hi}, StudentChoice a m B spread δ H
        (fun _ sd _ => pureExplore sd) f x (X.length + i) p hy ν sg l lo hi →
      u'.model.1.tp.historical_hyps[u.model.1.tp.historical_hyps.length + i]? = some hy →
      ∀ {V : ℝ}, postCov a.str_cov (1 / 100) sg l (.vec fun j : Fin (X.length + i) => x j)
        (.vec fun _ : Fin 1 => p) 0 0 ≤ V →
      √V ≤ √(1 / 100000 + duplicateDeviation smax lmin ^ 2) + η → _ := fun i hi p hy ν sg l lo hi' hc hh V
      hV hVW => (⟨i, _, fun j : Fin (X.length + i) => x j, hy, ν, lo, hi', hi, rfl, htake _ (by omega), hh,
        hc.describes.dof, hc.describes.more, hc.least, hc.greatest, fun z hz => by
      obtain ⟨ν', mu, sd, S, v, v', e1, e2, e3⟩ := hc.best z hz
      exact student_explored (f := fun z => inUnits a.normalize_Y lo hi' (f z)) hb hc.describes
        (by positivity) hg.prior hc.norm (fun i => hxD i) hz hV hVW e1 e2 e3⟩ :
      ∃ (i n : ℕ) (x : Fin n → Point d) (hy : HypDict) (ν lo hi : ℝ), i < M ∧ n = X.length + i ∧
        res.X.take n = List.ofFn x ∧
        u'.model.1.tp.historical_hyps[u.model.1.tp.historical_hyps.length + i]? = some hy ∧
        hy.dof = some (.flt (.fin ν)) ∧ 2 < ν ∧
        IsLeast (Set.range fun j => f (x j)) lo ∧ IsGreatest (Set.range fun j => f (x j)) hi ∧
        ∀ z, InBox a.range_X z → ∃ ν' mu sd S, Tp.predictWithHyps (.vec x)
          (fun j => inUnits a.normalize_Y lo hi (f (x j))) (.vec fun _ : Fin 1 => z) hy a.str_cov
            a.prior_mu = .ok (ν', mu, sd, S) ∧
          sd 0 ≤ √((ν - 2 + B ^ 2) / (ν - 2 + n)) *
            (√(1 / 100000 + duplicateDeviation smax lmin ^ 2) + η) + δ / 10 ∧
          |inUnits a.normalize_Y lo hi (f z) - mu 0| ≤
            B * √((√(1 / 100000 + duplicateDeviation smax lmin ^ 2) + η +
              δ / 10 * √((ν - 2 + n) / (ν - 2))) ^ 2 - 1 / 100000))
  by_cases hdup : ∃ i < M, ∃ p hy ν sg l lo hi,
      StudentChoice a m B spread δ H (fun _ sd _ => pureExplore sd) f x (X.length + i) p hy ν sg l lo hi ∧
      u'.model.1.tp.historical_hyps[u.model.1.tp.historical_hyps.length + i]? = some hy ∧
        ∃ j : Fin (X.length + i), √(∑ k, (p k - x j k) ^ 2) < 1e-8
  · obtain ⟨i, hi, p, hy, ν, sg, l, lo, hi', hc, hh, j, hj⟩ := hdup
    obtain ⟨-, c1, c2⟩ := hg.hyps ν sg l hc.mem
    exact hfin i hi hc hh (duplicate_postCov hl c1 c2 (x := fun j : Fin (X.length + i) => x j) hj)
      (by linarith)
  · have hall : ∀ n, ∃ hy ν sg l lo hi, X.length ≤ n → n < X.length + M →
        StudentChoice a m B spread δ H (fun _ sd _ => pureExplore sd) f x n (x n) hy ν sg l lo hi ∧
        u'.model.1.tp.historical_hyps[u.model.1.tp.historical_hyps.length + (n - X.length)]? =
          some hy := by
      intro n
      by_cases hn : X.length ≤ n ∧ n < X.length + M
      · obtain ⟨p, hy, ν, sg, l, lo, hi, hc, hh, rfl | a6⟩ := hstep n hn.1 (by omega)
        · exact ⟨hy, ν, sg, l, lo, hi, fun _ _ => ⟨hc, hh⟩⟩
        · obtain ⟨i, rfl⟩ := Nat.exists_eq_add_of_le hn.1
          rw [Nat.add_sub_cancel_left] at hh
          exact absurd ⟨i, by omega, p, hy, ν, sg, l, lo, hi, hc, hh, a6⟩ hdup
      · exact ⟨⟨none, none, none, none⟩, 0, 0, 0, 0, 0, fun h1 h2 => absurd ⟨h1, h2⟩ hn⟩
    choose hy ν sg l lo hi hall using hall
    obtain ⟨n, h1, h2, -, hV⟩ := hM (fun _ => 1 / 100) sg l x X.length fun n h1 h2 => by
      obtain ⟨hc, -⟩ := hall n h1 h2
      obtain ⟨-, c1, c2⟩ := hg.hyps _ _ _ hc.mem
      exact ⟨by norm_num, c1, c2, hxD n⟩
    obtain ⟨hc, hh⟩ := hall n h1 h2
    obtain ⟨i, rfl⟩ := Nat.exists_eq_add_of_le h1
    rw [Nat.add_sub_cancel_left] at hh
    refine hfin i (by omega) hc hh hV ?_
    have e1 : √(1 / 100000 + η ^ 2) ≤ √(1 / 100000) + η := by
      rw [Real.sqrt_le_left (by positivity), add_sq, Real.sq_sqrt (by norm_num)]
      have := mul_nonneg (mul_nonneg zero_le_two (Real.sqrt_nonneg (1 / 100000))) hη.le
      linarith
    have e2 : √(1 / 100000) ≤ √(1 / 100000 + duplicateDeviation smax lmin ^ 2) :=
      Real.sqrt_le_sqrt (by linarith [sq_nonneg (duplicateDeviation smax lmin)])
    linarith

/-- C152: the same from initial rows that the object draws itself. -/
theorem C152_explore {R : Bounds d} {base : String} (hb : base ∈ baseNames)
    {B Λ smax lmin η : ℝ} (hΛ : 0 ≤ Λ) (hl : 0 < lmin) (hη : 0 < η) :
    ∃ M : ℕ, ∀ (env : Installed) (a : Args d) (w : BayesianOptimization d) (st : ModelState)
      (m : Point d → ℝ) (δ : ℝ) (H : Set (ℝ × ℝ × (Fin d → ℝ))) (o : RunOracles d) (spread gap : ℝ)
      (f : Point d → ℝ) (clock : ℕ → ℝ) (target : ℕ → Point d → Py Flt) (r : Draws d) (num_init : ℤ)
      (X : List (Point d)) (u u' : World d (ModelState × ℕ)) (res : LoopSt d),
      create env a = .ok (w, st) → a.range_X = R → a.str_cov = base → 0 ≤ δ →
      GoodStudentSearch "pure_explore" a m Λ smax lmin δ H o →
      SuitsFits R base (Prod.snd '' H) a.normalize_Y m B spread gap f →
      (∀ k x, InBox R x → target k x = .ok (.fin (f x))) → UnitDraws r →
      getInitials R r a.str_initial_method_bo num_init = .ok X →
      (∃ x ∈ X, ∃ x' ∈ X, gap ≤ f x' - f x) → M ≤ a.num_iter →
      optimize w o clock target r num_init u = (u', .ok res) →
      ∃ (i n : ℕ) (x : Fin n → Point d) (hy : HypDict) (ν lo hi : ℝ), i < M ∧ n = X.length + i ∧
        res.X.take n = List.ofFn x ∧
        u'.model.1.tp.historical_hyps[u.model.1.tp.historical_hyps.length + i]? = some hy ∧
        hy.dof = some (.flt (.fin ν)) ∧ 2 < ν ∧
        IsLeast (Set.range fun j => f (x j)) lo ∧ IsGreatest (Set.range fun j => f (x j)) hi ∧
        ∀ z, InBox R z → ∃ ν' mu sd S, Tp.predictWithHyps (.vec x)
          (fun j => inUnits a.normalize_Y lo hi (f (x j))) (.vec fun _ : Fin 1 => z) hy base a.prior_mu =
            .ok (ν', mu, sd, S) ∧
          sd 0 ≤ √((ν - 2 + B ^ 2) / (ν - 2 + n)) * (exploredDeviation smax lmin 0 + η) + δ / 10 ∧
          |inUnits a.normalize_Y lo hi (f z) - mu 0| ≤
            B * √((exploredDeviation smax lmin 0 + η + δ / 10 * √((ν - 2 + n) / (ν - 2))) ^ 2 -
              1 / 100000) := by
  obtain ⟨M, hM⟩ := C152_explore_run (d := d) (R := R) (B := B) hb hΛ (smax := smax) hl hη
  refine ⟨M, fun env a w st m δ H o spread gap f clock target r num_init X u u' res hw hR hcov hδ hg hf
    ht hr hX hgap hT h => ?_⟩
  subst hR
  obtain ⟨hbox, u1, u3, r2, h1, h2, -, h3, h4⟩ := optimize_run hw ht hr hX h
  rw [h2, ← h3, h4]
  exact hM env a w st m δ H o spread gap f clock target X _ u1 u3 r2 hw rfl hcov hδ hg hf ht hbox
    hgap (by omega) h1

/-- A run from rows that are all the same evaluates nothing but this row when its score is always the
highest one. -/
theorem student_stuck_run {env : Installed} {a : Args d} {w : BayesianOptimization d} {st : ModelState}
    (hw : create env a = .ok (w, st)) (htp : a.str_surrogate = "tp")
    (hcov : a.str_cov ∈ baseNames) {m : Point d → ℝ} (hm : PriorFunction a.prior_mu m)
    (hmc : Continuous m) {H : Set (ℝ × ℝ × (Fin d → ℝ))}
    (hH : ∀ ν s l, (ν, s, l) ∈ H → 2 < ν ∧ ∀ k, l k ≠ 0) {o : RunOracles d}
    (hfit : ∀ k, FitsInStudent H a.use_ard (o.routines k).fitHyps)
    (ho : ∀ k, FindsLowest (o.routines k) a.range_X) {clock : ℕ → ℝ}
    {target : ℕ → Point d → Py Flt} {x : Point d} (hx : InBox a.range_X x) {y : ℝ}
    (ht : ∀ k, target k x = .ok (.fin y)) {score : List ℝ → List ℝ → List ℝ → Py (List ℝ)}
    (hscore : chooseFunAcquisition a.str_acq (some (1 / 100)) = .ok score) {n T : ℕ} (hn : 1 ≤ n)
    (hbest : ∀ k ≥ n, ∀ hy ν sg l, (ν, sg, l) ∈ H → DescribesStudent hy ν (1 / 100) sg l → ∀ r ≠ x,
      ∃ ν' mu sd S v v', Tp.predictWithHyps (.vec fun _ : Fin k => x) (fun _ => y) (.vec ![x, r]) hy
        a.str_cov a.prior_mu = .ok (ν', mu, sd, S) ∧
        score (List.ofFn mu) (List.ofFn sd) (List.ofFn fun _ : Fin k => y) = .ok [v, v'] ∧ v' < v)
    {u u' : World d (ModelState × ℕ)}
    {res : LoopSt d} (h : optimizeWithAllInitialInformation (runEnv w o clock target) T (List.replicate n x)
      (List.replicate n (.fin y)) u = (u', .ok res)) :
    res.X = List.replicate (n + T) x ∧ res.Y = List.replicate (n + T) (.fin y) := by
  obtain ⟨-, w1, h1, rfl⟩ := run_ok _ T _ _ u u' res h
  obtain ⟨ws, sts, h0, h0', hT, hT', hiter⟩ := classLoop_ok _ T _ _ _ _ h1
  have key : ∀ i ≤ T, (sts i).X = List.replicate (n + i) x ∧
      (sts i).Y = List.replicate (n + i) (.fin y) := by
    intro i
    induction i with
    | zero => exact fun _ => by rw [h0']; exact ⟨rfl, rfl⟩
    | succ i ih =>
      intro hi
      obtain ⟨eX, eY⟩ := ih (by omega)
      obtain ⟨s', t', p, q, info, v, hq⟩ := hiter i hi
      have hst := hq.step
      have hc := hq.choice
      rw [eX, eY] at hst
      rw [eX] at hc
      have e1 : List.replicate (n + i) x = List.ofFn fun _ : Fin (n + i) => x := by simp
      have e2 : finites (List.replicate (n + i) (Flt.fin y)) = .ok (List.ofFn fun _ : Fin (n + i) => y) := by
        rw [← finites_map]
        simp
      simp only [runEnv, step, e2] at hst
      obtain ⟨-, hst2⟩ := Prod.mk.inj hst
      rw [e1] at hst2
      obtain ⟨-, Yt, hy', ν, sg, l, b1, b2, b3, -, score', b5, f, g, b6, b7, b8, b9, b10, b11⟩ :=
        student_step_scores hw htp hcov hm hmc hH (hfit _)
          (by omega) (s := ((ws i).model.1, (ws i).tick + 1)) hst2
      have hlow := candidates_lowest (ho _) b6 b7 b8
      rw [hscore] at b5
      obtain rfl := Except.ok.inj b5
      have hYt : Yt = fun _ => y := by
        funext j
        have hr : Set.range (fun _ : Fin (n + i) => y) = {y} := by
          have : Nonempty (Fin (n + i)) := ⟨j⟩
          exact Set.range_const
        rw [inUnits_eq (lo := y) (hi := y) (by rw [hr]; exact isLeast_singleton)
          (by rw [hr]; exact isGreatest_singleton) b1 j]
        simp [inUnits, minMaxImage]
      subst hYt
      have hall : ∀ r ∈ info.next_points, r = x := by
        intro r hr
        by_contra hne
        obtain ⟨ν1, mu, sd, S, v, v', c1, c2, c3⟩ := hbest (n + i) (by omega) _ _ _ _ b2 b3 r hne
        obtain ⟨ν1', mu', sd', S', v1, v1', d1, d2, d3, d4⟩ := b11 x r
        rw [c1] at d1
        simp only [Except.ok.injEq, Prod.mk.injEq] at d1
        obtain ⟨rfl, rfl, rfl, rfl⟩ := d1
        rw [c2] at d2
        simp only [Except.ok.injEq, List.cons.injEq, and_true] at d2
        obtain ⟨rfl, rfl⟩ := d2
        have := hlow r hr x hx
        linarith
      have hqx : q = x := by
        unfold getNextBestSample at hc
        split at hc
        · rcases C05_result_origin _ _ _ _ hc with ⟨h2, -⟩ | ⟨-, h2⟩
          · exact hall q h2
          · exact List.eq_of_mem_replicate (List.mem_of_getLast? h2)
        · have := Option.some.inj (Except.ok.inj hc)
          exact this ▸ hall p b9
      subst hqx
      have hv : v = .fin y := by
        have := hq.target
        simp only [runEnv, ht] at this
        exact (Except.ok.inj this).symm
      rw [hq.state, eX, eY, hv]
      exact ⟨List.replicate_succ'.symm, List.replicate_succ'.symm⟩
  have := key T le_rfl
  rwa [hT'] at this

/-- C152: runs by `pi` and by `pure_exploit` with the Student-t process and a constant prior mean are
stuck as those with a Gaussian process (C148, C150): from rows that are all the same and whose response
is below the prior mean they evaluate nothing but this row. -/
theorem C152_stuck_run {env : Installed} {a : Args d} {w : BayesianOptimization d} {st : ModelState}
    (hw : create env a = .ok (w, st)) (htp : a.str_surrogate = "tp")
    (hacq : a.str_acq = "pi" ∨ a.str_acq = "pure_exploit")
    (hcov : a.str_cov ∈ baseNames) {c : ℝ}
    (hm : PriorFunction a.prior_mu fun _ => c) {H : Set (ℝ × ℝ × (Fin d → ℝ))}
    (hH : ∀ ν s l, (ν, s, l) ∈ H → 2 < ν ∧ s ≠ 0 ∧ ∀ k, l k ≠ 0) {o : RunOracles d}
    (hfit : ∀ k, FitsInStudent H a.use_ard (o.routines k).fitHyps)
    (ho : ∀ k, FindsLowest (o.routines k) a.range_X) {clock : ℕ → ℝ}
    {target : ℕ → Point d → Py Flt} {x : Point d} (hx : InBox a.range_X x) {y : ℝ}
    (ht : ∀ k, target k x = .ok (.fin y)) (hy : y < c) {n T : ℕ} (hn : 1 ≤ n)
    {u u' : World d (ModelState × ℕ)}
    {res : LoopSt d} (h : optimizeWithAllInitialInformation (runEnv w o clock target) T (List.replicate n x)
      (List.replicate n (.fin y)) u = (u', .ok res)) :
    res.X = List.replicate (n + T) x ∧ res.Y = List.replicate (n + T) (.fin y) := by
  have hH' : ∀ ν s l, (ν, s, l) ∈ H → 2 < ν ∧ ∀ k, l k ≠ 0 :=
    fun ν s l h => ⟨(hH ν s l h).1, (hH ν s l h).2.2⟩
  rcases hacq with hacq | hacq
  · refine student_stuck_run hw htp hcov hm continuous_const hH' hfit ho hx ht
      (score := fun mu sd Y => pi mu sd Y) (by rw [hacq]; rfl) hn (fun k hk hy' ν sg l b2 b3 r hr => ?_) h
    exact C148_next_student hcov b3.describes (hH _ _ _ b2).2.1 b3.more b3.dof hm hy (hn.trans hk) hr
  · refine student_stuck_run hw htp hcov hm continuous_const hH' hfit ho hx ht
      (score := fun mu _ _ => pureExploit mu) (by rw [hacq]; rfl) hn (fun k hk hy' ν sg l b2 b3 r hr => ?_) h
    exact C150_next_student hcov b3.describes (hH _ _ _ b2).2.1 b3.more b3.dof hm hy (hn.trans hk) hr

/-- C152: the same for runs from initial rows that the object draws itself, for instance a single
one. -/
theorem C152_stuck {env : Installed} {a : Args d} {w : BayesianOptimization d} {st : ModelState}
    (hw : create env a = .ok (w, st)) (htp : a.str_surrogate = "tp")
    (hacq : a.str_acq = "pi" ∨ a.str_acq = "pure_exploit")
    (hcov : a.str_cov ∈ baseNames) {c : ℝ}
    (hm : PriorFunction a.prior_mu fun _ => c) {H : Set (ℝ × ℝ × (Fin d → ℝ))}
    (hH : ∀ ν s l, (ν, s, l) ∈ H → 2 < ν ∧ s ≠ 0 ∧ ∀ k, l k ≠ 0) {o : RunOracles d}
    (hfit : ∀ k, FitsInStudent H a.use_ard (o.routines k).fitHyps)
    (ho : ∀ k, FindsLowest (o.routines k) a.range_X) {clock : ℕ → ℝ}
    {target : ℕ → Point d → Py Flt} {f : Point d → ℝ}
    (ht : ∀ k x, InBox a.range_X x → target k x = .ok (.fin (f x))) {r : Draws d} (hr : UnitDraws r)
    {num_init : ℤ} {n : ℕ} (hn : 1 ≤ n) {x : Point d}
    (hX : getInitials a.range_X r a.str_initial_method_bo num_init = .ok (List.replicate n x))
    (hf : f x < c) {u u' : World d (ModelState × ℕ)} {res : LoopSt d}
    (h : optimize w o clock target r num_init u = (u', .ok res)) :
    (∀ z ∈ res.X, z = x) ∧ ∀ y ∈ res.Y, y = .fin (f x) := by
  obtain ⟨hbox, u1, u3, r2, h1, h2, h3, -, -⟩ := optimize_run hw ht hr hX h
  have hx : InBox a.range_X x := hbox x (by simp; omega)
  rw [List.map_replicate] at h1
  obtain ⟨a1, a2⟩ := C152_stuck_run hw htp hacq hcov hm hH hfit ho hx (fun k => ht k x hx) hf hn h1
  rw [h2, h3, a1, a2]
  exact ⟨fun z hz => List.eq_of_mem_replicate hz, fun y hy => List.eq_of_mem_replicate hy⟩

/-! ### Examples -/

/-- The routines of the example of C146, with fits of ten degrees of freedom. -/
noncomputable def studentRoutines : BoCommon.Oracles 2 :=
  { lowRoutines with fitHyps := fun _ _ _ _ _ => .ok [.fin 10, .fin 1, .fin 1, .fin 1] }

noncomputable def studentArgs (acq : String) (T : ℕ) : Args 2 :=
  { searchArgs acq T with str_surrogate := "tp" }

/-- The object of the examples, for each of the acquisition functions. -/
theorem student_object {acq : String} (hacq : acq ∈ ALLOWED_BO_ACQ) (T : ℕ) :
    UnitDraws studentRoutines.draws ∧ (∃ w, create ⟨false, false⟩ (studentArgs acq T) = .ok (w, {})) ∧
    Runnable (studentArgs acq T) ∧
    RunsWell (studentArgs acq T) ⟨fun _ => studentRoutines, fun _ => exForest.forest⟩ := by
  obtain ⟨hdraws, -⟩ := search_object hacq T
  refine ⟨hdraws, ?_, ?_, ?_⟩
  · have h3 : (0 : ℤ) < NUM_SAMPLES_AO := by norm_num [NUM_SAMPLES_AO]
    have h4 : (T : ℤ) + 1 > 0 := by omega
    simp only [create, ownChecks, studentArgs, searchArgs, getModelBo, BoWTp.init, initBase,
      checkOptimizerMethodBo, pyAssert, exBox_le, hacq, h3, h4, implies_true, if_true, bind,
      Except.bind, pure, Except.pure]
    exact ⟨_, rfl⟩
  · refine ⟨by norm_num, fun _ => ?_, fun _ n X => ⟨_, prior_level n X⟩, fun h => absurd (show ("tp" : String) = "gp" from h) (by decide)⟩
    show "se" ∈ _
    decide
  · refine ⟨fun h => absurd (show ("tp" : String) = "gp" from h) (by decide), fun _ k => ?_, fun _ => ?_,
      fun _ => exForest_ok⟩
    · intro method f x0 bounds jac _ _
      exact ⟨_, ⟨10, 1, [1, 1], rfl, rfl, by norm_num, one_ne_zero, by simp⟩, rfl⟩
    · exact ⟨fun f _ _ _ => ⟨_, lowest_inBox f, rfl⟩, fun f _ => ⟨_, lowest_inBox f, rfl⟩,
        fun f _ _ _ _ => ⟨_, lowest_inBox f, rfl⟩, hdraws⟩

theorem student_fits : FitsInStudent {((10 : ℝ), (1 : ℝ), fun _ : Fin 2 => (1 : ℝ))} true
    studentRoutines.fitHyps := by
  intro method f x0 bounds jac v hv
  obtain rfl := Except.ok.inj hv
  exact ⟨10, 1, fun _ => 1, _, rfl, rfl, .inl ⟨rfl, rfl⟩⟩

/-- C152 at work: pure exploration of `exp (-|z|² / 2)` on `[0, 10]²` with the Student-t process. Some
recorded hyperparameters predict with deviations of less than 1/50 everywhere. -/
example : ∃ T w u res,
    create ⟨false, false⟩ (studentArgs "pure_explore" T) = .ok (w, {}) ∧
    optimize w ⟨fun _ => studentRoutines, fun _ => exForest.forest⟩ (fun k => k)
      (fun _ x => .ok (.fin (bump x))) studentRoutines.draws 2 ⟨({}, 0), 0, []⟩ = (u, .ok res) ∧
    ∃ (i n : ℕ) (x : Fin n → Point 2) (hy : HypDict) (ν : ℝ) (Y : Fin n → ℝ), n = 2 + i ∧
      res.X.take n = List.ofFn x ∧ u.model.1.tp.historical_hyps[i]? = some hy ∧
      hy.dof = some (.flt (.fin ν)) ∧
      ∀ z, InBox exBox z → ∃ ν' mu sd S, Tp.predictWithHyps (.vec x) Y (.vec fun _ : Fin 1 => z) hy "se"
        (studentArgs "pure_explore" T).prior_mu = .ok (ν', mu, sd, S) ∧
        sd 0 < √((ν - 2 + (10 / (1 - Real.exp (-100))) ^ 2) / (ν - 2 + n)) / 50 := by
  have he : Real.exp (-100) < 1 := Real.exp_lt_one_iff.2 (by norm_num)
  have hpos : 0 < 1 - Real.exp (-100) := by linarith
  obtain ⟨T, hT⟩ := C152_explore (d := 2) (R := exBox) (base := "se") (by simp [baseNames])
    (B := 10 / (1 - Real.exp (-100))) (Λ := 0) (smax := 1) (lmin := 1) le_rfl
    one_pos (show (0 : ℝ) < 1 / 1000 by norm_num)
  obtain ⟨-, -, -, -, -, hgood, hsuits, hdraws, hX, hgap⟩ :=
    search_runs (acq := "pure_explore") (by decide) T
  obtain ⟨-, ⟨w, hw⟩, hrun, hwell⟩ := student_object (acq := "pure_explore") (by decide) T
  obtain ⟨u, res, hres, -⟩ := C72_run hw hrun hwell hdraws (fun k => k)
    (target := fun _ x => .ok (.fin (bump x))) (fun _ x _ => ⟨_, rfl⟩) (num_init := 2)
    (by norm_num) 0 0 []
  refine ⟨T, w, u, res, hw, hres, ?_⟩
  have hgood' : GoodStudentSearch "pure_explore" (studentArgs "pure_explore" T) (fun _ => lowLevel) 0 1 1 0
      {((10 : ℝ), (1 : ℝ), fun _ : Fin 2 => (1 : ℝ))}
      ⟨fun _ => studentRoutines, fun _ => exForest.forest⟩ := by
    refine ⟨rfl, rfl, hgood.prior, hgood.lipschitz, ?_, fun k => student_fits, fun k => ?_⟩
    · rintro ν s l h
      simp only [Set.mem_singleton_iff, Prod.mk.injEq] at h
      obtain ⟨rfl, rfl, rfl⟩ := h
      norm_num
    · exact ⟨(hgood.finds 0).1, (hgood.finds 0).2, (hgood.finds 0).3⟩
  obtain ⟨i, n, x, hy, ν, lo, hi, -, h1, h2, h3, h4, hν, -, -, h5⟩ := hT _ _ _ _ _ 0 _ _
    (1 - Real.exp (-100)) (1 - Real.exp (-100)) bump _ _ _ _
    [fun _ => 0, fun _ => 10] _ _ _ hw rfl rfl le_rfl hgood'
    (by rw [Set.image_singleton]; exact hsuits) (fun _ _ _ => rfl) hdraws hX
    ⟨fun _ => 10, by simp, fun _ => 0, by simp, hgap.ge⟩ (by
      show (T : ℤ) ≤ T + 1
      omega) hres
  refine ⟨i, n, x, hy, ν, fun j => inUnits true lo hi (bump (x j)), h1, h2, by simpa using h3, h4,
    fun z hz => ?_⟩
  obtain ⟨ν', mu, sd, S, e1, e2, -⟩ := h5 z hz
  refine ⟨ν', mu, sd, S, e1, e2.trans_lt ?_⟩
  have e3 : √(1 / 100000 + duplicateDeviation 1 1 ^ 2) ≤ 3 / 200 := by
    rw [Real.sqrt_le_left (by norm_num), duplicateDeviation, Real.sq_sqrt (by norm_num [duplicateGap])]
    norm_num [duplicateGap]
  have e4 : 0 < √((ν - 2 + (10 / (1 - Real.exp (-100))) ^ 2) / (ν - 2 + n)) := by
    have : (0 : ℝ) ≤ n := Nat.cast_nonneg n
    refine Real.sqrt_pos.2 (div_pos (add_pos (by linarith) (by positivity)) (by linarith))
  rw [exploredDeviation]
  have := mul_lt_mul_of_pos_left (show √(1 / 100000 + duplicateDeviation 1 1 ^ 2) + 0 + 1 / 1000 < 1 / 50 by
    linarith) e4
  linarith

/-- C152 at work: on `exp (-|z|² / 2) - 2` over `[0, 10]²`, runs by `pi` and by `pure_exploit` with the
Student-t process from `(0, 0)` evaluate nothing but `(0, 0)`, where the function is highest. -/
example {acq : String} (hacq : acq = "pi" ∨ acq = "pure_exploit") (T : ℕ) : ∃ w u res,
    create ⟨false, false⟩ (studentArgs acq T) = .ok (w, {}) ∧
    optimize w ⟨fun _ => studentRoutines, fun _ => exForest.forest⟩ (fun k => k)
      (fun _ x => .ok (.fin (bump x - 2))) studentRoutines.draws 1 ⟨({}, 0), 0, []⟩ = (u, .ok res) ∧
    res.X.length = T + 2 ∧ (∀ z ∈ res.X, z = fun _ => 0) ∧
    ∀ z : Point 2, bump z - 2 ≤ bump (fun _ => 0) - 2 := by
  have hacq' : acq ∈ ALLOWED_BO_ACQ := by rcases hacq with rfl | rfl <;> decide
  obtain ⟨hdraws, ⟨w, hw⟩, hrun, hwell⟩ := student_object hacq' T
  obtain ⟨u, res, hres, hlen, -⟩ := C72_run hw hrun hwell hdraws (fun k => k)
    (target := fun _ x => .ok (.fin (bump x - 2))) (fun _ x _ => ⟨_, rfl⟩) (num_init := 1)
    (by norm_num) 0 0 []
  have h0 : bump (fun _ => 0) = 1 := by norm_num [bump]
  refine ⟨w, u, res, hw, hres, ?_, ?_, fun z => ?_⟩
  · have : (res.X.length : ℤ) = 1 + (T + 1) := hlen
    omega
  · refine (C152_stuck (n := 1) (f := fun z => bump z - 2)
      (o := ⟨fun _ => studentRoutines, fun _ => exForest.forest⟩) hw rfl hacq
      (show "se" ∈ baseNames by simp [baseNames])
      prior_level (H := {((10 : ℝ), (1 : ℝ), fun _ : Fin 2 => (1 : ℝ))}) ?_ (fun _ => student_fits) ?_
      (fun _ _ _ => rfl) hdraws le_rfl (x := fun _ => 0) ?_ ?_ hres).1
    · rintro ν s l h
      simp only [Set.mem_singleton_iff, Prod.mk.injEq] at h
      obtain ⟨rfl, rfl, rfl⟩ := h
      norm_num
    · intro k
      refine ⟨fun f g hg hf x0 q hq => ?_, fun f g hg hf q hq => ?_, fun f g hg hf _ _ q hq => ?_⟩ <;>
      · obtain rfl := Except.ok.inj hq
        exact lowest_low hg hf
    · have hm : "sobol" ∈ ALLOWED_SAMPLING_METHOD := by decide
      have hm' : "sobol" ∈ ALLOWED_INITIALIZING_METHOD_BO := by decide
      simp [studentArgs, searchArgs, STR_INITIALIZING_METHOD_BO, getInitials, getSamples, pyAssert, hm, hm',
        bind, Except.bind, getSamplesQmc, studentRoutines, lowRoutines, exBox, List.range_succ]
    · have he : Real.exp (-100) ≤ 1 / 100 := by
        rw [Real.exp_neg, inv_le_comm₀ (Real.exp_pos _) (by norm_num)]
        have := Real.add_one_le_exp (100 : ℝ)
        linarith
      have hp := Real.exp_pos (-100)
      have : 10 * Real.exp (-100) / (1 - Real.exp (-100)) < 1 := by
        rw [div_lt_one (by linarith)]
        linarith
      simp only [h0, lowLevel]
      linarith
  · rw [h0]
    have : bump z ≤ 1 := Real.exp_le_one_iff.2 (by nlinarith [sq_nonneg (z 0), sq_nonneg (z 1)])
    linarith

end Verif.Props
