import Verif.Spec.RoundedStep
import Verif.Lemmas.RoundedStepNumbers
import Verif.Lemmas.Fit
import Verif.Props.RoundedChoice
import Verif.Props.RoundedLikelihood
import Verif.Props.Rounded
import Verif.Props.Robust
import Verif.Spec.Fit

/-! # C158: a whole step in double precision -/

namespace Verif.Props

open Verif.Spec Verif.Covariance Verif.UtilsCovariance Verif.Lemmas Verif.Rounded Verif.RoundedPredict
  Verif.Constants Verif.BoCommon Verif.BoWGp Verif.UtilsBo Verif.RoundedStep

section

variable {n d : ℕ} {lib : Library n} {bo : BOwGP d} {orc : Oracles d} {clock : ℕ → ℝ} {X : Fin n → Point d}
  {Y : List ℝ} {sm : String} {ns : ℤ} {mlm : String} {st : GpState} {t : ℕ} {r : GpState × ℕ} {p : Point d}
  {info : DictInfo n d}

/-- The objective a step hands to its optimiser. -/
noncomputable def objective (lib : Library n) (bo : BOwGP d) (X : Fin n → Point d) (Yt : Fin n → ℝ)
    (fit : Option (Fit n)) : Point d → Py Flt :=
  onePoint (RoundedChoice.negAcquisition lib.fl lib.ex lib.cdf lib.pdf lib.lg lib.o lib.mm bo X Yt fit)

/-- C158: whatever its library computes, a step that returns has fitted hyperparameters, with the default
noise unless the mode is 'converged'; it returns one of the candidates, inside the box, none of which has a
smaller computed objective; and it remembers the hyperparameters. -/
theorem C158_step
    (h : RoundedStep.optimize lib bo orc clock X Y sm ns mlm (st, t) = (r, .ok (p, info))) :
    ∃ (Yt : Fin n → ℝ) (K V : Matrix (Fin n) (Fin n) ℝ) (hyps : HypDict) (σ s : ℝ) (l : Fin d → ℝ),
      List.ofFn Yt = info.Y_normalized ∧ info.fit = some (K, V, hyps) ∧ bo.str_cov ∈ baseNames ∧
      Describes hyps σ s l ∧ (mlm ≠ "converged" → σ = 1 / 100) ∧
      RoundedKernels.kernelMatrix lib.fl lib.ex lib.o X hyps bo.str_cov = .ok K ∧ lib.inv K = .ok V ∧
      r.1.historical_hyps = st.historical_hyps ++ [some hyps] ∧ p ∈ info.next_points ∧
      (∀ q ∈ info.next_points, InBox bo.range_X q) ∧
      ∃ v : ℝ, objective lib bo X Yt info.fit p = .ok (.fin v) ∧
        ∀ q ∈ info.next_points, ∃ w : ℝ, objective lib bo X Yt info.fit q = .ok (.fin w) ∧ v ≤ w := by
  obtain ⟨-, -, -, -, -, -, Yt, st1, e1, e2, rfl, -, e4, e5, e6, e7, -⟩ := roundedStep_ok h
  obtain ⟨g, hg⟩ := evaluated_of_ok e5
  rcases hfit : info.fit with _ | ⟨K, V, hyps⟩
  · rw [hfit] at hg
    obtain ⟨q, hq⟩ := List.exists_mem_of_ne_nil _ e4
    have := hg q hq
    simp [onePoint, RoundedChoice.negAcquisition, bind, Except.bind] at this
  have e2' := e2
  rw [hfit] at e2'
  obtain ⟨k1, k2, k3⟩ := roundedFit_from e2'
  obtain ⟨hn, σ, s, l, hh⟩ := roundedKernel_describes k1
  refine ⟨Yt, K, V, hyps, σ, s, l, e1, rfl, hn, hh, fun hm => ?_, k1, k2,
    by simp [hfit, roundedFit_history e2], ?_⟩
  · obtain ⟨method, k4⟩ := k3 hm
    obtain ⟨_, _, _, _, _, _, v, _, -, -, -, -, k5, -⟩ := roundedFit_trace k4
    have k6 := restore_fixed k5
    rw [hh.noise] at k6
    have : σ = GP_NOISE := by simpa using k6
    rw [this, GP_NOISE]
    norm_num
  rcases C03_best_by_evaluation _ _ g hg with ⟨k, x, h3, h4⟩ | ⟨h3, -⟩
  · rw [e5] at h3
    obtain rfl : p = x := by simpa using h3
    obtain ⟨f1, -, -, f2, -⟩ := h4
    have hfin : ∀ q ∈ info.next_points, ∃ w : ℝ, g q = .fin w := fun q hq => by
      have := hg q hq
      unfold onePoint at this
      obtain ⟨_, -, this⟩ := py_bind_ok this
      obtain ⟨w, -, this⟩ := py_bind_ok this
      exact ⟨w, (Except.ok.inj this).symm⟩
    have hp : p ∈ info.next_points := by
      obtain ⟨y, hy, e⟩ := List.mem_map.1 (List.mem_of_getElem? f1)
      rwa [← (Prod.mk.inj e).1]
    obtain ⟨v, hv⟩ := hfin p hp
    refine ⟨hp, e7, v, ?_, fun q hq => ?_⟩
    · rw [← hfit, ← hv]
      exact hg p hp
    obtain ⟨w, hw⟩ := hfin q hq
    obtain ⟨j, hj⟩ := List.getElem?_of_mem hq
    refine ⟨w, by rw [← hfit, ← hw]; exact hg q hq, ?_⟩
    have := f2 j q (g q) (by simp [hj]) trivial
    rw [hw, hv] at this
    simpa using this
  · rw [e5] at h3
    cases h3

/-- C158: with a library that makes no errors, a step is the one of exact arithmetic. -/
theorem C158_exact {o o' : SumOrder} (h0 : n ≠ 0) (ho : o.Covers d) (ho' : o'.Covers n)
    (hn : bo.str_cov ∈ baseNames) {Y' : List ℝ} {Yt μ : Fin n → ℝ}
    (hY : (if bo.normalize_Y = true ∧ mlm ≠ "converged" then normalizeMinMax Y else .ok Y) = .ok Y')
    (hc : column n Y' = .ok Yt) (hμ : Gp.getPriorMu bo.prior_mu (.vec X) = .ok μ) :
    RoundedStep.optimize (exactLibrary n o o' (exactGrad X Yt μ bo.str_cov bo.use_ard true) fun v =>
        Gp.negLogPseudoLLoocv (.vec X) Yt v bo.str_cov μ true) bo orc clock X Y sm ns mlm =
      BoWGp.optimize bo orc clock (.vec X) Y sm ns mlm :=
  exactStep ho ho' hn orc clock X sm ns mlm hY hc hμ (fun v => exactGrad_spec h0 X Yt μ v bo.use_ard true)
    fun _ => rfl

/-- C158: a computed value of the expected improvement with the default noise, for at most ten responses in at
most two dimensions. `Z` are responses that were normalised exactly. -/
theorem C158_value (hlib : Accurate lib X bo.str_cov) (hn10 : n ≤ 10) (hd : d ≤ 2)
    (hacq : bo.str_acq = "ei") (hprior : bo.prior_mu = none) (hn : bo.str_cov ∈ baseNames)
    {P : Point d → Prop} {hyps : HypDict} {s : ℝ} {l : Fin d → ℝ} (hm : OrdinaryHyps P hyps s l)
    (hP : ∀ i, P (X i)) {K V : Matrix (Fin n) (Fin n) ℝ}
    (hK : RoundedKernels.kernelMatrix lib.fl lib.ex lib.o X hyps bo.str_cov = .ok K)
    (hV : lib.inv K = .ok V) {Yt Z : Fin n → ℝ} (hYd : ∀ i, Yt i ∈ Double)
    (hY : ∀ i, 0 ≤ Yt i ∧ Yt i ≤ 10) (hY0 : ∃ i, Yt i = 0) (hZ : ∀ i, |Yt i - Z i| ≤ 6 / 10 ^ 15)
    {x : Point d} (hx : P x) :
    ∃ m w S v, Gp.predictWithHyps (.vec X) Z (.vec fun _ : Fin 1 => x) hyps bo.str_cov bo.prior_mu =
        .ok (fun _ => m, fun _ => w, S) ∧
      objective lib bo X Yt (some (K, V, hyps)) x = .ok (.fin (-10 * v)) ∧
      |v - meanImprovement 0 m w| ≤ 13 / 100 := by
  have hn' : (n : ℝ) ≤ 10 := by exact_mod_cast hn10
  have hd' : (d : ℝ) ≤ 2 := by exact_mod_cast hd
  have hd0 : (0 : ℝ) ≤ d := Nat.cast_nonneg d
  have hp : PriorFunction (d := d) none fun _ => 0 := fun n X => rfl
  have zero : (0 : ℝ) ∈ Double := by simpa using double_nat (show 0 < 2 ^ 53 by norm_num)
  have hY10 : ∀ i, |Yt i| ≤ 10 := fun i => abs_le.2 ⟨by linarith [hY i], (hY i).2⟩
  have hQ := default_residual hn' hY10
  have hmX : OrdinaryHyps (fun x => ∃ i, x = X i) hyps s l :=
    ⟨hm.describes, hm.signal, by rintro _ ⟨i, rfl⟩; exact hm.points _ (hP i)⟩
  obtain ⟨V', hV', hVe⟩ := hlib.inverse _ _ _ _ hmX hK
  obtain rfl : V' = V := by simpa [hV] using hV'.symm
  obtain ⟨k1, k2, k3, k4⟩ := default_choice (n := n) hn' (Nat.cast_nonneg n) hd' hd0 hm.signal hQ
    (by positivity) rfl rfl rfl rfl rfl rfl rfl rfl rfl
  obtain ⟨mean, dev, h1, h2⟩ := C157_predictions (mm := lib.mm) (ps := [x]) hlib.nearest hlib.exp
    (by positivity) (by norm_num) hlib.order (hd.trans (by norm_num)) hn hm.describes
    (fun i => hm.points _ (hP i)) (fun y hy => by rw [List.mem_singleton.1 hy]; exact hm.points x hx)
    (by norm_num; linarith) (by positivity) (by norm_num; linarith) (by positivity) hlib.mul hp
    (fun _ => zero) (P := 0) (fun _ _ => by simp) hYd hK (fun i j => (hVe i j).1) (by positivity)
    (fun i j => (hVe i j).2) (u := 1 / 2 ^ 53) rfl rfl rfl k1 rfl rfl rfl rfl rfl rfl rfl rfl
  obtain ⟨hΔ, hD⟩ := default_total k2 k3 k4 hQ (by positivity) hm.signal rfl rfl rfl rfl rfl rfl rfl
  rw [← hprior] at h1
  obtain ⟨q1, q2, q3⟩ := h2 x (List.mem_singleton_self x)
  have hD0 := add_le_add q1 q3
  rw [← abs_neg (mean x), ← zero_sub (mean x)] at hD0
  obtain ⟨v, e1, e2, e3⟩ := ei_point (lg := lib.lg) hlib.nearest (by positivity) (by norm_num) hlib.cdf
    hlib.pdf hacq hm.describes h1 q2 hYd hY0 (fun i => (hY i).1) hD0 rfl
  obtain ⟨S, _, _, _, p1, -⟩ := h1 x (List.mem_singleton_self x)
  have hsuit : ∀ {p : ℕ} (Z : Fin p → Point d), Suits bo.str_cov bo.str_cov (.vec Z) :=
    fun Z => ⟨hn, .inl ⟨rfl, Z, rfl⟩⟩
  obtain ⟨mu, mu', sd, S', g1, g2, g3⟩ := C101_gp (hsuit X) (hsuit fun _ : Fin 1 => x) hm.describes
    (prior := bo.prior_mu) (by rw [hprior]; exact hp _ X) (by rw [hprior]; exact hp _ _) Yt Z
  rw [p1, Except.ok.injEq, Prod.mk.injEq, Prod.mk.injEq] at g1
  obtain ⟨rfl, rfl, rfl⟩ := g1
  have g4 : mu' = fun _ => mu' 0 := funext fun j => by rw [Subsingleton.elim j 0]
  rw [g4] at g2
  have g5 := default_shift hn' hm.signal hZ (g3 0)
  have t2 := small_zpow (k := -1075) (by norm_num)
  have f1 := fl_error hlib.nearest (v * 10)
  rw [abs_mul, abs_of_pos (by norm_num : (0 : ℝ) < 10)] at f1
  refine ⟨mu' 0, dev x, S, lib.fl (v * 10) / 10, g2, ?_, ?_⟩
  · rw [objective, e1, show -10 * (lib.fl (v * 10) / 10) = -1 * lib.fl (v * 10) by ring]
  have f2 := meanImprovement_moves (b := 0) (m := mu' 0) (m' := mean x) q2
  exact default_sum e2 (e3.trans (add_le_add hD hΔ)) hΔ f1 t2 g5 f2

/-- C158: the point a step proposes. The posterior is the exact one, given exactly normalised responses and the
hyperparameters that were fitted; `A` is the expected improvement under it. No candidate is better than the
proposed point by more than 0.26, on the scale from 0 to 10 of normalised responses. If besides the optimiser
brought one candidate within `tol` of the smallest computed objective in the box, no point of the box is better
by more than 0.26 and a tenth of `tol`. -/
theorem C158_choice {y : Fin n → ℝ}
    (h : RoundedStep.optimize lib bo orc clock X (List.ofFn y) sm ns mlm (st, t) = (r, .ok (p, info)))
    (hlib : Accurate lib X bo.str_cov) (hn10 : n ≤ 10) (hd : d ≤ 2) (hacq : bo.str_acq = "ei")
    (hprior : bo.prior_mu = none) (hnorm : bo.normalize_Y = true) (hmlm : mlm ≠ "converged")
    (hy : ∀ i, y i ∈ Double) {lo hi : ℝ} (hlo : (∃ i, y i = lo) ∧ ∀ i, lo ≤ y i)
    (hhi : (∃ i, y i = hi) ∧ ∀ i, y i ≤ hi) (hlt : lo < hi)
    (hm : ∀ K V hyps, info.fit = some (K, V, hyps) → ∃ s l,
      OrdinaryHyps (fun x => (∃ i, x = X i) ∨ InBox bo.range_X x) hyps s l) :
    ∃ (Yt : Fin n → ℝ) (K V : Matrix (Fin n) (Fin n) ℝ) (hyps : HypDict) (mean dev : Point d → ℝ),
      List.ofFn Yt = info.Y_normalized ∧ info.fit = some (K, V, hyps) ∧
      (∀ x, InBox bo.range_X x → ∃ S, Gp.predictWithHyps (.vec X)
        (fun i => 10 * ((y i - lo) / (hi - lo))) (.vec fun _ : Fin 1 => x) hyps bo.str_cov bo.prior_mu =
          .ok (fun _ => mean x, fun _ => dev x, S)) ∧
      NearBest (fun x => meanImprovement 0 (mean x) (dev x)) info.next_points (26 / 100) p ∧
      ∀ tol c vc, c ∈ info.next_points → objective lib bo X Yt info.fit c = .ok (.fin vc) →
        (∀ x v, InBox bo.range_X x → objective lib bo X Yt info.fit x = .ok (.fin v) → vc ≤ v + tol) →
        ∀ x, InBox bo.range_X x → meanImprovement 0 (mean x) (dev x) ≤
          meanImprovement 0 (mean p) (dev p) + 26 / 100 + tol / 10 := by
  obtain ⟨Yt, K, V, hyps, σ, s', l', e1, e2, hn, -, -, k1, k2, -, hp, hbox, v, e3, e4⟩ := C158_step h
  obtain ⟨-, -, -, -, -, eY, -⟩ := roundedStep_ok h
  obtain ⟨s, l, hm⟩ := hm K V hyps e2
  rw [if_pos ⟨hnorm, hmlm⟩] at eY
  obtain ⟨out, o1, o2, o3, -⟩ := C104_normalize hlib.nearest (List.ofFn y)
    (fun z hz => by obtain ⟨i, rfl⟩ := List.mem_ofFn.1 hz; exact hy i) lo hi
    ⟨List.mem_ofFn.2 hlo.1, fun z hz => by obtain ⟨i, rfl⟩ := List.mem_ofFn.1 hz; exact hlo.2 i⟩
    ⟨List.mem_ofFn.2 hhi.1, fun z hz => by obtain ⟨i, rfl⟩ := List.mem_ofFn.1 hz; exact hhi.2 i⟩ hlt
  obtain rfl : out = info.Y_normalized := by
    rw [o1] at eY
    exact Except.ok.inj eY
  have hat : ∀ i : Fin n, (List.ofFn y)[(i : ℕ)]? = some (y i) ∧ info.Y_normalized[(i : ℕ)]? = some (Yt i) :=
    fun i => by rw [← e1]; simp
  have hYt := fun i : Fin n => o3 i (y i) (Yt i) (hat i).1 (hat i).2
  have hYd : ∀ i, Yt i ∈ Double := fun i =>
    normalized_double hlib.nearest
      (fun z hz => by obtain ⟨i, rfl⟩ := List.mem_ofFn.1 hz; exact hy i) o1 _ (by rw [← e1]; exact List.mem_ofFn.2 ⟨i, rfl⟩)
  have hY0 : ∃ i, Yt i = 0 := by
    obtain ⟨i, hi⟩ := hlo.1
    exact ⟨i, (hYt i).2.2.2.1 hi⟩
  have key := fun (x : Point d) (hx : InBox bo.range_X x) =>
    C158_value hlib hn10 hd hacq hprior hn hm (fun i => .inl ⟨i, rfl⟩) k1 k2 hYd
      (fun i => ⟨(hYt i).1, (hYt i).2.1⟩) hY0 (fun i => (hYt i).2.2.1) (.inr hx)
  have key' : ∀ x, ∃ m w v, InBox bo.range_X x → (∃ S, Gp.predictWithHyps (.vec X)
        (fun i => 10 * ((y i - lo) / (hi - lo))) (.vec fun _ : Fin 1 => x) hyps bo.str_cov bo.prior_mu =
          .ok (fun _ => m, fun _ => w, S)) ∧
      objective lib bo X Yt (some (K, V, hyps)) x = .ok (.fin (-10 * v)) ∧
      |v - meanImprovement 0 m w| ≤ 13 / 100 := fun x => by
    by_cases hx : InBox bo.range_X x
    · obtain ⟨m, w, S, v, a1, a2, a3⟩ := key x hx
      exact ⟨m, w, v, fun _ => ⟨⟨S, a1⟩, a2, a3⟩⟩
    · exact ⟨0, 0, 0, fun h => absurd h hx⟩
  choose mean dev val hval using key'
  rw [e2] at e3 e4 ⊢
  have hvp : v = -10 * val p := by
    have := (hval p (hbox p hp)).2.1
    rw [e3] at this
    simpa using this
  obtain ⟨a1, a2⟩ := abs_le.1 (hval p (hbox p hp)).2.2
  refine ⟨Yt, K, V, hyps, mean, dev, e1, rfl, fun x hx => (hval x hx).1, ⟨hp, fun q hq => ?_⟩, ?_⟩
  · obtain ⟨w, f1, f2⟩ := e4 q hq
    have hw : w = -10 * val q := by
      have := (hval q (hbox q hq)).2.1
      rw [f1] at this
      simpa using this
    obtain ⟨b1, b2⟩ := abs_le.1 (hval q (hbox q hq)).2.2
    linarith
  · intro tol c vc hc f1 f2 x hx
    obtain ⟨w, f3, f4⟩ := e4 c hc
    obtain rfl : w = vc := by
      rw [f1] at f3
      simpa using f3.symm
    obtain ⟨-, g1, g2⟩ := hval x hx
    have := f2 x _ hx g1
    obtain ⟨b1, b2⟩ := abs_le.1 g2
    linarith

/-- C158: the computed likelihood, for the sum over all responses, with the default noise. -/
theorem C158_likelihood {name : String} (hlib : Accurate lib X name) (h0 : n ≠ 0) (hn10 : n ≤ 10)
    (hd : d ≤ 2) (hn : name ∈ baseNames) {hyps : HypDict} {s : ℝ} {l : Fin d → ℝ}
    (hm : OrdinaryHyps (fun x => ∃ i, x = X i) hyps s l) {v : List Flt} {ard fix : Bool}
    (hr : restoreHyps name v true ard fix = .ok hyps) {Yt : Fin n → ℝ} (hYd : ∀ i, Yt i ∈ Double)
    (hY : ∀ i, |Yt i| ≤ 10) :
    ∃ value, RoundedLikelihood.negLogMl lib.fl lib.ex lib.lg lib.o lib.o' lib.mm lib.chol lib.solve X Yt v
        name (fun _ => 0) ard fix = .ok value ∧
      |n * value + Real.log (mvnDensity (fun _ => 0) (noisyGram name (1 / 100) s l (.vec X)) Yt)| ≤
        22 / 100 := by
  have hn' : (n : ℝ) ≤ 10 := by exact_mod_cast hn10
  have hn1' : (1 : ℝ) ≤ n := by exact_mod_cast Nat.one_le_iff_ne_zero.2 h0
  have hn0 : (0 : ℝ) < n := by linarith
  have hd' : (d : ℝ) ≤ 2 := by exact_mod_cast hd
  have hd0 : (0 : ℝ) ≤ d := Nat.cast_nonneg d
  have hX : ∀ i, scaledLength l (X i) ≤ 2 := fun i => hm.points _ ⟨i, rfl⟩
  have zero : (0 : ℝ) ∈ Double := by simpa using double_nat (show 0 < 2 ^ 53 by norm_num)
  obtain ⟨K, hK, -, -⟩ := kernelMatrix_error hlib.nearest hlib.exp (by norm_num) (by norm_num) hlib.order
    (by norm_num; linarith) hn hm.describes hX (by norm_num; linarith)
  obtain ⟨L, hL, hF, hS⟩ := hlib.factor _ _ _ _ hm hK
  have hS' := hS (fun i => lib.fl (Yt i - 0)) fun i => by rw [sub_zero, fl_of_mem hlib.nearest (hYd i)]; exact hY i
  have ht2 := small_zpow (k := -1075) (by norm_num)
  have ht2' : (0 : ℝ) < (2 : ℝ) ^ (-1075 : ℤ) := by positivity
  obtain ⟨u, hu⟩ : ∃ u : ℝ, u = 1 / 2 ^ 53 := ⟨_, rfl⟩
  have hu0 : 0 ≤ u := by rw [hu]; positivity
  have hu1 : u ≤ 1 / 10 ^ 15 := by rw [hu]; norm_num
  obtain ⟨E, hE⟩ : ∃ E : ℝ, E = s ^ 2 * (2 * (1 / 2 ^ 50) + (1 + (d + 1) * 2) / 2 ^ 44) +
    ((1 / 100) ^ 2 + 1) / 2 ^ 49 := ⟨_, rfl⟩
  have hE0 : 0 ≤ E := by rw [hE]; positivity
  have hE1 : E ≤ 5 / 10 ^ 13 := by
    have hP : s ^ 2 * (2 * (1 / 2 ^ 50) + (1 + (d + 1) * 2) / 2 ^ 44) ≤ 41 / 10 ^ 14 := by
      refine (mul_le_mul_of_nonneg_right hm.signal (by positivity)).trans ?_
      norm_num
      linarith
    rw [hE]
    norm_num at hP ⊢
    linarith
  obtain ⟨τ, hτ⟩ : ∃ τ : ℝ, τ = (1 / 100) ^ 2 + 1 / 100000 := ⟨_, rfl⟩
  have hτ1 : τ = 11 / 10 ^ 5 := by rw [hτ]; norm_num
  obtain ⟨δ, hδ⟩ : ∃ δ : ℝ, δ = 1 / 10 ^ 12 := ⟨_, rfl⟩
  have hδ0 : 0 ≤ δ := by rw [hδ]; positivity
  have hκ1 : E + δ ≤ 2 / 10 ^ 12 := by rw [hδ]; norm_num at hE1 ⊢; linarith
  have hκ0 : 0 ≤ E + δ := by positivity
  have hnκ : n * (E + δ) ≤ 20 / 10 ^ 12 := by
    have := mul_le_mul hn' hκ1 hκ0 (by norm_num)
    norm_num at this ⊢
    linarith
  have hnE : n * E ≤ 5 / 10 ^ 12 := by
    have := mul_le_mul hn' hE1 hE0 (by norm_num)
    norm_num at this ⊢
    linarith
  have hgap : 10999 / 10 ^ 8 ≤ τ - n * (E + δ) := by rw [hτ1]; norm_num at hnκ ⊢; linarith
  have hroot : 1 / 100 ≤ √(τ - n * (E + δ)) := Real.le_sqrt_of_sq_le (by norm_num at hgap ⊢; linarith)
  have hρ : √(∑ i, (Yt i - 0) ^ 2) ≤ 32 := by
    refine Real.sqrt_le_iff.2 ⟨by norm_num, ?_⟩
    have h1 : ∑ i, (Yt i - 0) ^ 2 ≤ (n : ℝ) * 100 := by
      refine (Finset.sum_le_sum fun i _ => (?_ : (Yt i - 0) ^ 2 ≤ 100)).trans_eq (by simp)
      rw [sub_zero, ← sq_abs]
      have := pow_le_pow_left₀ (abs_nonneg _) (hY i) 2
      norm_num at this ⊢
      exact this
    linarith
  obtain ⟨A, hA⟩ : ∃ A : ℝ, A = (√n * (1 / 10 ^ 9) + u * 32 + n * E * (32 / τ)) / (τ - n * E) := ⟨_, rfl⟩
  obtain ⟨γ, hγ⟩ : ∃ γ : ℝ, γ = (4 * n + 1) / 2 ^ 53 := ⟨_, rfl⟩
  obtain ⟨t, ht⟩ : ∃ t : ℝ, t = 2 * n * (2 : ℝ) ^ (-1075 : ℤ) := ⟨_, rfl⟩
  have hγ0 : 0 ≤ γ := by rw [hγ]; positivity
  have hγ1 : γ ≤ 5 / 10 ^ 15 := by
    rw [hγ]
    norm_num
    linarith
  have ht3 : t ≤ 1 / 10 ^ 15 := by
    rw [ht]
    have := mul_le_mul (mul_le_mul_of_nonneg_left hn' (by norm_num : (0 : ℝ) ≤ 2)) ht2 ht2'.le
      (by norm_num)
    refine this.trans (by norm_num)
  have ht0 : 0 ≤ t := by rw [ht]; positivity
  have hmm := hlib.mul
  rw [← hγ, ← ht] at hmm
  obtain ⟨a, ha⟩ : ∃ a : ℝ, a = (1 + u) * 32 * A + u * 32 * (32 / τ) +
    γ * ((1 + u) * 32 * (32 / τ + A)) + t := ⟨_, rfl⟩
  obtain ⟨hA0, ha1⟩ := default_quadratic hn' hn0.le hτ1 hE0 hnE hu0 hu1 hγ1 ht3 hA ha
  have hΛ : Real.exp (-5) ≤ √(τ - n * (E + δ)) := by
    rw [Real.exp_neg]
    refine (inv_anti₀ (by norm_num) exp_five).trans ?_
    norm_num at hroot ⊢
    linarith
  have hΛ' : 2 * (√(s ^ 2 + τ + (E + δ)) + 1 / 10 ^ 6) ≤ Real.exp 5 := by
    have h1 : √(s ^ 2 + τ + (E + δ)) ≤ 2 := by
      refine Real.sqrt_le_iff.2 ⟨by norm_num, ?_⟩
      have := hm.signal
      rw [hτ1]
      norm_num at hκ1 ⊢
      linarith
    have := exp_five
    norm_num
    linarith
  obtain ⟨b, hb⟩ : ∃ b : ℝ, b = n * (1 / 2 ^ 50 * 5 + u + 101 / 10 ^ 9 / √(τ - n * (E + δ))) +
    2 * n * u * (n * ((1 + 1 / 2 ^ 50) * 5)) + n * √n * (E + δ) / (τ - n * (E + δ)) / 2 := ⟨_, rfl⟩
  have hb1 := default_determinant hn' hn0.le hu0 hu1 hκ0 hκ1 hgap hroot hb
  obtain ⟨M, hM⟩ : ∃ M : ℝ, M = 32 * (32 / τ) + a + 2 * n * ((1 + 1 / 2 ^ 50) * 5) + 3 * n := ⟨_, rfl⟩
  have hM1 : M ≤ 10 ^ 7 := by
    rw [hM, hτ1]
    norm_num at ha1 ⊢
    linarith
  rw [← hδ] at hF
  obtain ⟨value, h1, h2⟩ := C156_likelihood (mm := lib.mm) hlib.nearest hlib.exp (by positivity) (by norm_num)
    hlib.order (hd.trans (by norm_num)) hn hr hm.describes hX (by norm_num; linarith) h0
    (hn10.trans (by norm_num)) hlib.order' (by positivity) (by norm_num) hlib.log hγ0 hmm hYd (fun _ => zero)
    hK hL hδ0 hF (by positivity) hS' hu hτ hE (by linarith) hρ hA ha hΛ hΛ' hb hM
  refine ⟨value, h1, ?_⟩
  have e : n * value + Real.log (mvnDensity (fun _ => 0) (noisyGram name (1 / 100) s l (.vec X)) Yt) =
      n * (value - -Real.log (mvnDensity (fun _ => 0) (noisyGram name (1 / 100) s l (.vec X)) Yt) / n) := by
    field_simp
    ring
  rw [e, abs_mul, abs_of_pos hn0]
  refine (mul_le_mul_of_nonneg_left h2 hn0.le).trans ?_
  have e' : n * ((a / 2 + b + 6 * u * M) / n + 2 * (1 / 2 ^ 50) + 2 * u + 3 * (2 : ℝ) ^ (-1075 : ℤ)) =
      a / 2 + b + 6 * u * M + n * (2 * (1 / 2 ^ 50) + 2 * u + 3 * (2 : ℝ) ^ (-1075 : ℤ)) := by
    generalize (2 : ℝ) ^ (-1075 : ℤ) = w
    field_simp
    ring
  rw [e']
  have h4 : 6 * u * M ≤ 1 / 10 ^ 7 := by
    have h5 : u * M ≤ u * 10 ^ 7 := mul_le_mul_of_nonneg_left hM1 hu0
    norm_num at h5 hu1 ⊢
    linarith
  have h5 : n * (2 * (1 / 2 ^ 50) + 2 * u + 3 * (2 : ℝ) ^ (-1075 : ℤ)) ≤ 10 * (1 / 10 ^ 12) := by
    refine mul_le_mul hn' ?_ (by positivity) (by norm_num)
    refine (add_le_add (add_le_add le_rfl (mul_le_mul_of_nonneg_left hu1 (by norm_num)))
      (mul_le_mul_of_nonneg_left ht2 (by norm_num))).trans ?_
    norm_num
  norm_num at ha1 hb1 h4 h5 ⊢
  linarith

/-- C158: the hyperparameters of a step. With an optimiser that never ends with a larger value than it started
with, and likelihood as the criterion, the exact log likelihood of the responses under the fitted
hyperparameters is at most 0.44 below the one under the values the fit starts from (noise 0.01, signal and
lengthscales 1), although every value the optimiser saw was rounded. -/
theorem C158_fit (h : RoundedStep.optimize lib bo orc clock X Y sm ns mlm (st, t) = (r, .ok (p, info)))
    (hlib : Accurate lib X bo.str_cov) (h0 : n ≠ 0) (hn10 : n ≤ 10) (hd : d ≤ 2)
    (hml : bo.str_modelselection_method = "ml") (hmin : Descends orc.fitHyps) (hprior : bo.prior_mu = none)
    (hmlm : mlm ≠ "converged") (hX : ∀ i, scaledLength (fun _ => 1) (X i) ≤ 2)
    (hY : ∀ v ∈ info.Y_normalized, v ∈ Double ∧ |v| ≤ 10) {K V : Matrix (Fin n) (Fin n) ℝ} {hyps : HypDict}
    (hfit : info.fit = some (K, V, hyps)) {s : ℝ} {l : Fin d → ℝ}
    (hm : OrdinaryHyps (fun x => ∃ i, x = X i) hyps s l) :
    ∃ Yt : Fin n → ℝ, List.ofFn Yt = info.Y_normalized ∧
      Real.log (mvnDensity (fun _ => 0) (noisyGram bo.str_cov (1 / 100) 1 (fun _ => 1) (.vec X)) Yt) ≤
        Real.log (mvnDensity (fun _ => 0) (noisyGram bo.str_cov (1 / 100) s l (.vec X)) Yt) + 44 / 100 := by
  obtain ⟨-, -, -, -, -, -, Yt, st1, e1, e2, -⟩ := roundedStep_ok h
  rw [hfit] at e2
  obtain ⟨k1, -, k3⟩ := roundedFit_from e2
  obtain ⟨hn, -⟩ := roundedKernel_describes k1
  obtain ⟨method, k4⟩ := k3 hmlm
  obtain ⟨μ, hs0, v0, mt, bounds, jac, v, ug, f1, f2, f3, f4, f5, -⟩ := roundedFit_trace k4
  rw [hprior] at f1
  obtain rfl : μ = fun _ => 0 := (Except.ok.inj f1).symm
  rw [if_pos hml] at f4
  have hall : bo.str_cov ∈ ALLOWED_COV := List.mem_append_left _ hn
  have hdes := (start_describes hall f2).1
  rw [show GP_NOISE = 1 / 100 by norm_num [GP_NOISE]] at hdes
  have hstart : OrdinaryHyps (fun x => ∃ i, x = X i) hs0 1 (fun _ : Fin d => 1) :=
    ⟨hdes, by norm_num, by rintro _ ⟨i, rfl⟩; exact hX i⟩
  have hYt : ∀ i, Yt i ∈ Double ∧ |Yt i| ≤ 10 := fun i => hY _ (by rw [← e1]; exact List.mem_ofFn.2 ⟨i, rfl⟩)
  obtain ⟨a, a1, a2⟩ := C158_likelihood hlib h0 hn10 hd hn hstart (start_restore hall f2 f3)
    (fun i => (hYt i).1) fun i => (hYt i).2
  obtain ⟨b, b1, b2⟩ := C158_likelihood hlib h0 hn10 hd hn hm f5 (fun i => (hYt i).1) fun i => (hYt i).2
  obtain ⟨g0, a3⟩ : ∃ g, RoundedStep.negLogMl lib X Yt v0 bo.str_cov (fun _ => 0) bo.use_ard true ug =
      .ok (a, g) := by
    obtain ⟨g, hg⟩ := hlib.gradient _ _ _ _ _ (start_restore hall f2 f3) hstart one_ne_zero
    unfold RoundedStep.negLogMl
    rw [a1, ok_bind]
    cases ug
    · exact ⟨_, rfl⟩
    · exact ⟨some g, by simp only [if_true, hg, ok_bind]; rfl⟩
  obtain ⟨z, g, c1, c2⟩ := hmin _ _ _ _ _ _ f4 _ _ a3
  obtain rfl : b = z := by
    unfold RoundedStep.negLogMl at c1
    rw [b1, ok_bind] at c1
    cases ug
    · exact congrArg Prod.fst (Except.ok.inj c1)
    · obtain ⟨_, -, c1⟩ := py_bind_ok c1
      exact congrArg Prod.fst (Except.ok.inj c1)
  have c3 : (n : ℝ) * b ≤ n * a := mul_le_mul_of_nonneg_left c2 (Nat.cast_nonneg n)
  obtain ⟨a4, a5⟩ := abs_le.1 a2
  obtain ⟨b4, b5⟩ := abs_le.1 b2
  exact ⟨Yt, e1, by linarith⟩

end

end Verif.Props
