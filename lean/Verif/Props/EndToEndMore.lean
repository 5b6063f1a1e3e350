import Verif.Lemmas.EndToEndMore
import Verif.Props.EndToEnd

/-! # Runs by the augmented expected improvement and by pure exploration (C147) -/

namespace Verif.Props

open Verif.Spec Verif.Covariance Verif.UtilsCovariance Verif.Lemmas Verif.Acquisition
  Verif.Constants Verif.WrapperClass Verif.WrappersBo Verif.UtilsBo Verif.BaseBo
open Matrix hiding gram

variable {d n : ℕ}

private theorem box_bounded (R : Bounds d) : Bornology.IsBounded {z : Point d | InBox R z} := by
  refine (Metric.isBounded_Icc (fun i => (R i).1) (fun i => (R i).2)).subset fun z hz => ?_
  exact ⟨fun i => (hz i).1, fun i => (hz i).2⟩

/-- C147: a run by the augmented expected improvement from given rows of the search space and their
exact responses. As C146, with the discount at the smallest deviation in the error. -/
theorem C147_augmented_run {R : Bounds d} {base : String} (hb : base ∈ baseNames)
    {B Λ smax lmin η : ℝ} (hB : 0 ≤ B) (hΛ : 0 ≤ Λ) (hl : 0 < lmin) (hη : 0 < η) :
    ∃ M : ℕ, ∀ (env : Installed) (a : Args d) (w : BayesianOptimization d) (st : ModelState)
      (m : Point d → ℝ) (δ : ℝ) (H : Set (ℝ × (Fin d → ℝ))) (o : RunOracles d) (spread gap : ℝ)
      (f : Point d → ℝ) (clock : ℕ → ℝ) (target : ℕ → Point d → Py Flt) (X : List (Point d)) (T : ℕ)
      (u u' : World d (ModelState × ℕ)) (res : LoopSt d),
      create env a = .ok (w, st) → a.range_X = R → a.str_cov = base → 0 ≤ δ →
      GoodSearch "aei" a m Λ smax lmin δ H o →
      (a.str_mlm_method = "converged" → FitsFrom H u.model.1.gp) →
      SuitsFits R base H (normalizes a) m B spread gap f →
      (∀ k x, InBox R x → target k x = .ok (.fin (f x))) → (∀ x ∈ X, InBox R x) →
      (∃ x ∈ X, ∃ x' ∈ X, gap ≤ f x' - f x) → M ≤ T →
      optimizeWithAllInitialInformation (runEnv w o clock target) T X
        (X.map fun x => Flt.fin (f x)) u = (u', .ok res) →
      ∃ y, Flt.fin y ∈ res.Y ∧ ∀ z, InBox R z →
        y ≤ f z + max 1 (spread / 10) * (runErrorAugmented B Λ smax lmin (δ / 10) + η) := by
  have hω : Filter.Tendsto (fun t : ℝ => Λ * t) (nhds 0) (nhds 0) := by
    have : Continuous fun t : ℝ => Λ * t := by fun_prop
    simpa using this.tendsto 0
  obtain ⟨M, hM⟩ := C145_aei hb (box_bounded R) hω hB (σmax := 1 / 100) (smax := smax) (by norm_num) hl hη
  refine ⟨M, fun env a w st m δ H o spread gap f clock target X T u u' res hw hR hcov hδ hg hu hf ht hX
    hgap hT h => ?_⟩
  subst hR hcov
  have hδ' : 0 ≤ δ / 10 := div_nonneg hδ (by norm_num)
  have hE := runErrorAugmented_nonneg (smax := smax) (lmin := lmin) hB hΛ hδ'
  obtain ⟨x, hxD, -, hmem, hstep⟩ := run_choices hw hb hΛ hl hg
    (score := fun mu sd Y => aei mu sd Y (1 / 100)) rfl hf ht hX hgap hu h
  by_cases hdup : ∃ n, X.length ≤ n ∧ n < X.length + M ∧ ∃ p hy sg l lo hi,
      RunChoice a m B spread δ H (fun mu sd Y => aei mu sd Y (1 / 100)) f x n p hy sg l lo hi ∧
        ∃ j : Fin n, √(∑ k, (p k - x j k) ^ 2) < 1e-8
  · obtain ⟨n, h1, h2, p, hy, sg, l, lo, hi, hc, j, hj⟩ := hdup
    obtain ⟨c1, c2⟩ := hg.hyps sg l hc.mem
    obtain ⟨i, hi⟩ := duplicate_choice_augmented (f := fun z => inUnits (normalizes a) lo hi (f z)) hb
      hc.describes hg.prior hΛ hg.lipschitz hl hδ' c1 c2 hc.norm (fun i => hxD i) hc.inBox hj hc.best
    refine ⟨f (x i), hmem i (by omega), fun z hz => ?_⟩
    have := inUnits_le hc.le hc.spread hE (hi z hz)
    have h3 := mul_nonneg (le_trans zero_le_one (le_max_left 1 (spread / 10))) hη.le
    linarith
  · have hall : ∀ n, ∃ hy sg l lo hi, X.length ≤ n → n < X.length + M →
        RunChoice a m B spread δ H (fun mu sd Y => aei mu sd Y (1 / 100)) f x n (x n) hy sg l lo hi := by
      intro n
      by_cases hn : X.length ≤ n ∧ n < X.length + M
      · obtain ⟨p, hy, sg, l, lo, hi, hc, -, rfl | a6⟩ := hstep n hn.1 (by omega)
        · exact ⟨hy, sg, l, lo, hi, fun _ _ => hc⟩
        · exact absurd ⟨n, hn.1, hn.2, p, hy, sg, l, lo, hi, hc, a6⟩ hdup
      · exact ⟨⟨none, none, none, none⟩, 0, 0, 0, 0, fun h1 h2 => absurd ⟨h1, h2⟩ hn⟩
    choose hy sg l lo hi hall using hall
    obtain ⟨n, h1, h2, i, hi', hle⟩ := hM hy (fun _ => 1 / 100) sg l (fun _ => a.prior_mu) (fun _ => m)
      (fun n z => inUnits (normalizes a) (lo n) (hi n) (f z)) {z | InBox a.range_X z} (δ / 10) x
      X.length hδ' le_rfl hxD fun n h1 h2 => by
        have hc := hall n h1 h2
        obtain ⟨c1, c2⟩ := hg.hyps _ _ hc.mem
        exact ⟨hc.describes, by norm_num, c1, c2, hg.prior, fun u _ v _ => hg.lipschitz u v,
          hc.norm, hxD n, hc.best⟩
    have hc := hall n h1 h2
    refine ⟨f (x i), hmem i (by omega), fun z hz => ?_⟩
    refine inUnits_le (b := normalizes a) hc.le hc.spread (by linarith) ?_
    have := hle z hz
    have h3 := runErrorAugmented_ge (B := B) (Λ := Λ) (smax := smax) (lmin := lmin) (δ := δ / 10) hB hΛ
    linarith

/-- C147: the same from initial rows that the object draws itself. -/
theorem C147_augmented {R : Bounds d} {base : String} (hb : base ∈ baseNames) {B Λ smax lmin η : ℝ}
    (hB : 0 ≤ B) (hΛ : 0 ≤ Λ) (hl : 0 < lmin) (hη : 0 < η) :
    ∃ M : ℕ, ∀ (env : Installed) (a : Args d) (w : BayesianOptimization d) (st : ModelState)
      (m : Point d → ℝ) (δ : ℝ) (H : Set (ℝ × (Fin d → ℝ))) (o : RunOracles d) (spread gap : ℝ)
      (f : Point d → ℝ) (clock : ℕ → ℝ) (target : ℕ → Point d → Py Flt) (r : Draws d) (num_init : ℤ)
      (X : List (Point d)) (u u' : World d (ModelState × ℕ)) (res : LoopSt d),
      create env a = .ok (w, st) → a.range_X = R → a.str_cov = base → 0 ≤ δ →
      GoodSearch "aei" a m Λ smax lmin δ H o →
      (a.str_mlm_method = "converged" → FitsFrom H u.model.1.gp) →
      SuitsFits R base H (normalizes a) m B spread gap f →
      (∀ k x, InBox R x → target k x = .ok (.fin (f x))) → UnitDraws r →
      getInitials R r a.str_initial_method_bo num_init = .ok X →
      (∃ x ∈ X, ∃ x' ∈ X, gap ≤ f x' - f x) → M ≤ a.num_iter →
      optimize w o clock target r num_init u = (u', .ok res) →
      ∃ y, Flt.fin y ∈ res.Y ∧ ∀ z, InBox R z →
        y ≤ f z + max 1 (spread / 10) * (runErrorAugmented B Λ smax lmin (δ / 10) + η) := by
  obtain ⟨M, hM⟩ := C147_augmented_run (d := d) (R := R) hb hB hΛ (smax := smax) hl hη
  refine ⟨M, fun env a w st m δ H o spread gap f clock target r num_init X u u' res hw hR hcov hδ hg hu hf
    ht hr hX hgap hT h => ?_⟩
  subst hR
  obtain ⟨hbox, u1, u3, r2, h1, -, h2, hu1, -⟩ := optimize_run hw ht hr hX h
  rw [h2]
  exact hM env a w st m δ H o spread gap f clock target X _ u1 u3 r2 hw rfl hcov hδ hg (hu1 ▸ hu) hf ht hbox
    hgap (by omega) h1

/-- C147: a run by pure exploration from given rows of the search space and their exact responses.
Among the first `M` iterations is one whose fit is certain everywhere: with the hyperparameters that
the object recorded for it, the deviations predicted from the rows so far are at most
`exploredDeviation` and `η` at every point of the search space, and predicted means differ from the
function, in the units of the fit, by at most `B` times the deviation without its jitter. -/
theorem C147_explore_run {R : Bounds d} {base : String} (hb : base ∈ baseNames)
    {B Λ smax lmin η : ℝ} (hΛ : 0 ≤ Λ) (hl : 0 < lmin) (hη : 0 < η) :
    ∃ M : ℕ, ∀ (env : Installed) (a : Args d) (w : BayesianOptimization d) (st : ModelState)
      (m : Point d → ℝ) (δ : ℝ) (H : Set (ℝ × (Fin d → ℝ))) (o : RunOracles d) (spread gap : ℝ)
      (f : Point d → ℝ) (clock : ℕ → ℝ) (target : ℕ → Point d → Py Flt) (X : List (Point d)) (T : ℕ)
      (u u' : World d (ModelState × ℕ)) (res : LoopSt d),
      create env a = .ok (w, st) → a.range_X = R → a.str_cov = base → 0 ≤ δ →
      GoodSearch "pure_explore" a m Λ smax lmin δ H o →
      (a.str_mlm_method = "converged" → FitsFrom H u.model.1.gp) →
      SuitsFits R base H (normalizes a) m B spread gap f →
      (∀ k x, InBox R x → target k x = .ok (.fin (f x))) → (∀ x ∈ X, InBox R x) →
      (∃ x ∈ X, ∃ x' ∈ X, gap ≤ f x' - f x) → M ≤ T →
      optimizeWithAllInitialInformation (runEnv w o clock target) T X
        (X.map fun x => Flt.fin (f x)) u = (u', .ok res) →
      ∃ (i : ℕ) (x : Fin (X.length + i) → Point d) (hy : HypDict) (lo hi : ℝ), i < M ∧
        res.X.take (X.length + i) = List.ofFn x ∧
        u'.model.1.gp.historical_hyps[u.model.1.gp.historical_hyps.length + i]? = some (some hy) ∧
        IsLeast (Set.range fun j => f (x j)) lo ∧ IsGreatest (Set.range fun j => f (x j)) hi ∧
        ∀ z, InBox R z → ∃ mu sd S, Gp.predictWithHyps (.vec x)
          (fun j => inUnits (normalizes a) lo hi (f (x j))) (.vec fun _ : Fin 1 => z) hy base a.prior_mu =
            .ok (mu, sd, S) ∧
          sd 0 ≤ exploredDeviation smax lmin (δ / 10) + η ∧
          |inUnits (normalizes a) lo hi (f z) - mu 0| ≤
            B * √((exploredDeviation smax lmin (δ / 10) + η) ^ 2 - 1 / 100000) := by
  obtain ⟨M, hM⟩ := exists_small_near base (box_bounded R) (σmax := 1 / 100) (smax := smax) hl
    (η := η ^ 2) (by positivity) one_pos
  refine ⟨M, fun env a w st m δ H o spread gap f clock target X T u u' res hw hR hcov hδ hg hu hf ht hX
    hgap hT h => ?_⟩
  subst hR hcov
  obtain ⟨x, hxD, htake, -, hstep⟩ := run_choices hw hb hΛ hl hg
    (score := fun _ sd _ => pureExplore sd) rfl hf ht hX hgap hu h
  have hW : exploredDeviation smax lmin (δ / 10) + η =
      √(1 / 100000 + duplicateDeviation smax lmin ^ 2) + η + δ / 10 := by
    rw [exploredDeviation]
    ring
  rw [hW]
  have hfin : ∀ i < M, ∀ {p hy sg l lo hi}, RunChoice a m B spread δ H (fun _ sd _ => pureExplore sd) f x
        (X.length + i) p hy sg l lo hi →
      u'.model.1.gp.historical_hyps[u.model.1.gp.historical_hyps.length + i]? = some (some hy) →
      ∀ {V : ℝ}, postCov a.str_cov (1 / 100) sg l (.vec fun j : Fin (X.length + i) => x j)
        (.vec fun _ : Fin 1 => p) 0 0 ≤ V →
      √V ≤ √(1 / 100000 + duplicateDeviation smax lmin ^ 2) + η → _ := fun i hi p hy sg l lo hi' hc hh V
      hV hVW => (⟨i, fun j => x j, hy, lo, hi', hi, htake _ (by omega), hh, hc.least, hc.greatest,
    fun z hz => by
      obtain ⟨mu, sd, S, v, v', e1, e2, e3⟩ := hc.best z hz
      exact explored_of_postCov (f := fun z => inUnits (normalizes a) lo hi' (f z)) hb hc.describes
        hg.prior hc.norm (fun i => hxD i) hz hV hVW e1 e2 e3⟩ :
      ∃ (i : ℕ) (x : Fin (X.length + i) → Point d) (hy : HypDict) (lo hi : ℝ), i < M ∧
        res.X.take (X.length + i) = List.ofFn x ∧
        u'.model.1.gp.historical_hyps[u.model.1.gp.historical_hyps.length + i]? = some (some hy) ∧
        IsLeast (Set.range fun j => f (x j)) lo ∧ IsGreatest (Set.range fun j => f (x j)) hi ∧
        ∀ z, InBox a.range_X z → ∃ mu sd S, Gp.predictWithHyps (.vec x)
          (fun j => inUnits (normalizes a) lo hi (f (x j))) (.vec fun _ : Fin 1 => z) hy a.str_cov
            a.prior_mu = .ok (mu, sd, S) ∧
          sd 0 ≤ √(1 / 100000 + duplicateDeviation smax lmin ^ 2) + η + δ / 10 ∧
          |inUnits (normalizes a) lo hi (f z) - mu 0| ≤
            B * √((√(1 / 100000 + duplicateDeviation smax lmin ^ 2) + η + δ / 10) ^ 2 - 1 / 100000))
  by_cases hdup : ∃ i < M, ∃ p hy sg l lo hi,
      RunChoice a m B spread δ H (fun _ sd _ => pureExplore sd) f x (X.length + i) p hy sg l lo hi ∧
      u'.model.1.gp.historical_hyps[u.model.1.gp.historical_hyps.length + i]? = some (some hy) ∧
        ∃ j : Fin (X.length + i), √(∑ k, (p k - x j k) ^ 2) < 1e-8
  · obtain ⟨i, hi, p, hy, sg, l, lo, hi', hc, hh, j, hj⟩ := hdup
    obtain ⟨c1, c2⟩ := hg.hyps sg l hc.mem
    exact hfin i hi hc hh (duplicate_postCov hl c1 c2 (x := fun j : Fin (X.length + i) => x j) hj)
      (by linarith)
  · have hall : ∀ n, ∃ hy sg l lo hi, X.length ≤ n → n < X.length + M →
        RunChoice a m B spread δ H (fun _ sd _ => pureExplore sd) f x n (x n) hy sg l lo hi ∧
        u'.model.1.gp.historical_hyps[u.model.1.gp.historical_hyps.length + (n - X.length)]? =
          some (some hy) := by
      intro n
      by_cases hn : X.length ≤ n ∧ n < X.length + M
      · obtain ⟨p, hy, sg, l, lo, hi, hc, hh, rfl | a6⟩ := hstep n hn.1 (by omega)
        · exact ⟨hy, sg, l, lo, hi, fun _ _ => ⟨hc, hh⟩⟩
        · obtain ⟨i, rfl⟩ := Nat.exists_eq_add_of_le hn.1
          rw [Nat.add_sub_cancel_left] at hh
          exact absurd ⟨i, by omega, p, hy, sg, l, lo, hi, hc, hh, a6⟩ hdup
      · exact ⟨⟨none, none, none, none⟩, 0, 0, 0, 0, fun h1 h2 => absurd ⟨h1, h2⟩ hn⟩
    choose hy sg l lo hi hall using hall
    obtain ⟨n, h1, h2, -, hV⟩ := hM (fun _ => 1 / 100) sg l x X.length fun n h1 h2 => by
      obtain ⟨hc, -⟩ := hall n h1 h2
      obtain ⟨c1, c2⟩ := hg.hyps _ _ hc.mem
      exact ⟨by norm_num, c1, c2, hxD n⟩
    obtain ⟨hc, hh⟩ := hall n h1 h2
    obtain ⟨i, rfl⟩ := Nat.exists_eq_add_of_le h1
    rw [Nat.add_sub_cancel_left] at hh
    refine hfin i (by omega) hc hh hV ?_
    have e1 : √(1 / 100000 + η ^ 2) ≤ √(1 / 100000) + η := by
      rw [Real.sqrt_le_left (by positivity), add_sq, Real.sq_sqrt (by norm_num)]
      have := mul_nonneg (mul_nonneg zero_le_two (Real.sqrt_nonneg (1 / 100000))) hη.le
      linarith
    have e2 : √(1 / 100000) ≤ √(1 / 100000 + duplicateDeviation smax lmin ^ 2) :=
      Real.sqrt_le_sqrt (by linarith [sq_nonneg (duplicateDeviation smax lmin)])
    linarith

/-- C147: the same from initial rows that the object draws itself. -/
theorem C147_explore {R : Bounds d} {base : String} (hb : base ∈ baseNames)
    {B Λ smax lmin η : ℝ} (hΛ : 0 ≤ Λ) (hl : 0 < lmin) (hη : 0 < η) :
    ∃ M : ℕ, ∀ (env : Installed) (a : Args d) (w : BayesianOptimization d) (st : ModelState)
      (m : Point d → ℝ) (δ : ℝ) (H : Set (ℝ × (Fin d → ℝ))) (o : RunOracles d) (spread gap : ℝ)
      (f : Point d → ℝ) (clock : ℕ → ℝ) (target : ℕ → Point d → Py Flt) (r : Draws d) (num_init : ℤ)
      (X : List (Point d)) (u u' : World d (ModelState × ℕ)) (res : LoopSt d),
      create env a = .ok (w, st) → a.range_X = R → a.str_cov = base → 0 ≤ δ →
      GoodSearch "pure_explore" a m Λ smax lmin δ H o →
      (a.str_mlm_method = "converged" → FitsFrom H u.model.1.gp) →
      SuitsFits R base H (normalizes a) m B spread gap f →
      (∀ k x, InBox R x → target k x = .ok (.fin (f x))) → UnitDraws r →
      getInitials R r a.str_initial_method_bo num_init = .ok X →
      (∃ x ∈ X, ∃ x' ∈ X, gap ≤ f x' - f x) → M ≤ a.num_iter →
      optimize w o clock target r num_init u = (u', .ok res) →
      ∃ (i : ℕ) (x : Fin (X.length + i) → Point d) (hy : HypDict) (lo hi : ℝ), i < M ∧
        res.X.take (X.length + i) = List.ofFn x ∧
        u'.model.1.gp.historical_hyps[u.model.1.gp.historical_hyps.length + i]? = some (some hy) ∧
        IsLeast (Set.range fun j => f (x j)) lo ∧ IsGreatest (Set.range fun j => f (x j)) hi ∧
        ∀ z, InBox R z → ∃ mu sd S, Gp.predictWithHyps (.vec x)
          (fun j => inUnits (normalizes a) lo hi (f (x j))) (.vec fun _ : Fin 1 => z) hy base a.prior_mu =
            .ok (mu, sd, S) ∧
          sd 0 ≤ exploredDeviation smax lmin (δ / 10) + η ∧
          |inUnits (normalizes a) lo hi (f z) - mu 0| ≤
            B * √((exploredDeviation smax lmin (δ / 10) + η) ^ 2 - 1 / 100000) := by
  obtain ⟨M, hM⟩ := C147_explore_run (d := d) (R := R) (B := B) hb hΛ (smax := smax) hl hη
  refine ⟨M, fun env a w st m δ H o spread gap f clock target r num_init X u u' res hw hR hcov hδ hg hu hf
    ht hr hX hgap hT h => ?_⟩
  subst hR
  obtain ⟨hbox, u1, u3, r2, h1, h2, -, h3, h4⟩ := optimize_run hw ht hr hX h
  have hu1 := h3
  rw [h2, ← h3, h4]
  exact hM env a w st m δ H o spread gap f clock target X _ u1 u3 r2 hw rfl hcov hδ hg (hu1 ▸ hu) hf ht hbox
    hgap (by omega) h1

/-- C147 at work: the search of the example of C146, by the augmented expected improvement. -/
example {η : ℝ} (hη : 0 < η) : ∃ T w u res,
    create ⟨false, false⟩ (searchArgs "aei" T) = .ok (w, {}) ∧
    optimize w ⟨fun _ => lowRoutines, fun _ => exForest.forest⟩ (fun k => k)
      (fun _ x => .ok (.fin (bump x))) lowRoutines.draws 2 ⟨({}, 0), 0, []⟩ = (u, .ok res) ∧
    ∃ y, Flt.fin y ∈ res.Y ∧ ∀ z, InBox exBox z → y ≤ bump z + max 1 ((1 - Real.exp (-100)) / 10) *
      (runErrorAugmented (10 / (1 - Real.exp (-100))) 0 1 1 (0 / 10) + η) := by
  have he : Real.exp (-100) < 1 := Real.exp_lt_one_iff.2 (by norm_num)
  have hpos : 0 < 1 - Real.exp (-100) := by linarith
  obtain ⟨T, hT⟩ := C147_augmented (d := 2) (R := exBox) (base := "se") (by simp [baseNames])
    (B := 10 / (1 - Real.exp (-100))) (Λ := 0) (smax := 1) (lmin := 1) (by positivity) le_rfl
    one_pos hη
  obtain ⟨w, u, res, hw, hres, hgood, hsuits, hdraws, hX, hgap⟩ := search_runs (acq := "aei") (by decide) T
  refine ⟨T, w, u, res, hw, hres, ?_⟩
  refine hT _ _ _ _ _ _ _ _ _ _ _ _ _ _ _ [fun _ => 0, fun _ => 10] _ _ _ hw rfl rfl le_rfl hgood
    (fun _ => .inl rfl) hsuits (fun _ _ _ => rfl) hdraws hX ⟨fun _ => 10, by simp, fun _ => 0, by simp, hgap.ge⟩ ?_ hres
  show (T : ℤ) ≤ T + 1
  omega

/-- C147 at work: the same by pure exploration. Some recorded hyperparameters predict with deviations
of less than 1/50 everywhere. -/
example : ∃ T w u res,
    create ⟨false, false⟩ (searchArgs "pure_explore" T) = .ok (w, {}) ∧
    optimize w ⟨fun _ => lowRoutines, fun _ => exForest.forest⟩ (fun k => k)
      (fun _ x => .ok (.fin (bump x))) lowRoutines.draws 2 ⟨({}, 0), 0, []⟩ = (u, .ok res) ∧
    ∃ (i : ℕ) (x : Fin (2 + i) → Point 2) (hy : HypDict) (Y : Fin (2 + i) → ℝ),
      res.X.take (2 + i) = List.ofFn x ∧ u.model.1.gp.historical_hyps[i]? = some (some hy) ∧
      ∀ z, InBox exBox z → ∃ mu sd S, Gp.predictWithHyps (.vec x) Y (.vec fun _ : Fin 1 => z) hy "se"
        (searchArgs "pure_explore" T).prior_mu = .ok (mu, sd, S) ∧ sd 0 < 1 / 50 := by
  have he : Real.exp (-100) < 1 := Real.exp_lt_one_iff.2 (by norm_num)
  have hpos : 0 < 1 - Real.exp (-100) := by linarith
  obtain ⟨T, hT⟩ := C147_explore (d := 2) (R := exBox) (base := "se") (by simp [baseNames])
    (B := 10 / (1 - Real.exp (-100))) (Λ := 0) (smax := 1) (lmin := 1) le_rfl
    one_pos (show (0 : ℝ) < 1 / 1000 by norm_num)
  obtain ⟨w, u, res, hw, hres, hgood, hsuits, hdraws, hX, hgap⟩ :=
    search_runs (acq := "pure_explore") (by decide) T
  refine ⟨T, w, u, res, hw, hres, ?_⟩
  obtain ⟨i, x, hy, lo, hi, -, h1, h2, -, -, h3⟩ := hT _ _ _ _ _ _ _ _ _ _ _ _ _ _ _
    [fun _ => 0, fun _ => 10] _ _ _ hw rfl rfl le_rfl hgood
    (fun _ => .inl rfl) hsuits (fun _ _ _ => rfl) hdraws hX ⟨fun _ => 10, by simp, fun _ => 0, by simp, hgap.ge⟩ (by
      show (T : ℤ) ≤ T + 1
      omega) hres
  refine ⟨i, x, hy, fun j => inUnits true lo hi (bump (x j)), h1, by simpa using h2, fun z hz => ?_⟩
  obtain ⟨mu, sd, S, e1, e2, -⟩ := h3 z hz
  refine ⟨mu, sd, S, e1, ?_⟩
  have e3 : √(1 / 100000 + duplicateDeviation 1 1 ^ 2) ≤ 3 / 200 := by
    rw [Real.sqrt_le_left (by norm_num), duplicateDeviation, Real.sq_sqrt (by norm_num [duplicateGap])]
    norm_num [duplicateGap]
  rw [exploredDeviation] at e2
  linarith

end Verif.Props
