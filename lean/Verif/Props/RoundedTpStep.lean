import Verif.Spec.RoundedStep
import Verif.Lemmas.RoundedTpStep
import Verif.Lemmas.RoundedTpNumbers
import Verif.Lemmas.Fit
import Verif.Props.RoundedTp
import Verif.Props.Rounded
import Verif.Props.RoundedStep

/-! # C161: a whole step with the Student-t process in double precision -/

namespace Verif.Props

open Verif.Spec Verif.Covariance Verif.UtilsCovariance Verif.Lemmas Verif.Rounded Verif.RoundedPredict
  Verif.Constants Verif.BoCommon Verif.UtilsBo Verif.RoundedStep
open Verif.BoWTp (BOwTP TpState)
open scoped Matrix

section

variable {n d : ℕ} {lib : Library n} {nll : List Flt → Py ℝ} {bo : BOwTP d} {orc : Oracles d}
  {clock : ℕ → ℝ} {X : Fin n → Point d} {Y : List ℝ} {sm : String} {ns : ℤ} {st : TpState} {t : ℕ}
  {r : TpState × ℕ} {p : Point d} {info : DictInfo n d}

/-- The objective a step hands to its optimiser. -/
noncomputable def tpObjective (lib : Library n) (bo : BOwTP d) (X : Fin n → Point d) (Yt : Fin n → ℝ)
    (fit : Fit n) : Point d → Py Flt :=
  onePoint (RoundedTp.negAcquisition lib.fl lib.ex lib.cdf lib.pdf lib.lg lib.o lib.mm bo X Yt fit)

/-- C161: whatever its library computes, a step with the Student-t process that returns has fitted
hyperparameters with the default noise; it returns one of the candidates, inside the box, none of which has a
smaller computed objective; and it remembers the hyperparameters. -/
theorem C161_step
    (h : RoundedTpStep.optimize lib nll bo orc clock X Y sm ns (st, t) = (r, .ok (p, info))) :
    ∃ (Yt : Fin n → ℝ) (K V : Matrix (Fin n) (Fin n) ℝ) (hyps : HypDict) (s : ℝ) (l : Fin d → ℝ),
      List.ofFn Yt = info.Y_normalized ∧ info.fit = some (K, V, hyps) ∧ bo.str_cov ∈ baseNames ∧
      Describes hyps (1 / 100) s l ∧
      RoundedKernels.kernelMatrix lib.fl lib.ex lib.o X hyps bo.str_cov = .ok K ∧ lib.inv K = .ok V ∧
      r.1.historical_hyps = st.historical_hyps ++ [hyps] ∧ p ∈ info.next_points ∧
      (∀ q ∈ info.next_points, InBox bo.range_X q) ∧
      ∃ v : ℝ, tpObjective lib bo X Yt (K, V, hyps) p = .ok (.fin v) ∧
        ∀ q ∈ info.next_points, ∃ w : ℝ, tpObjective lib bo X Yt (K, V, hyps) q = .ok (.fin w) ∧ v ≤ w := by
  obtain ⟨-, -, -, -, -, Yt, ⟨K, V, hyps⟩, e1, e2, e3, rfl, e4, e5, -, e7, -⟩ := roundedTpStep_ok h
  obtain ⟨g, hg⟩ := evaluated_of_ok e5
  obtain ⟨_, _, _, _, _, _, v, hr, -, -, -, -, k5, k6, k1, k2⟩ := roundedTpFit_trace e3
  obtain ⟨hn, σ, s, l, hh⟩ := roundedKernel_describes k1
  have hσ : σ = 1 / 100 := by
    have k7 := restore_fixed k5
    have k8 := (validate_keeps k6).2.2.1 σ hh.noise
    rw [hh.noise, k7] at k8
    have : σ = GP_NOISE := by simpa using k8.symm
    rw [this, GP_NOISE]
    norm_num
  subst hσ
  refine ⟨Yt, K, V, hyps, s, l, e1, e2, hn, hh, k1, k2, rfl, ?_⟩
  rcases C03_best_by_evaluation _ _ g hg with ⟨k, x, h3, h4⟩ | ⟨h3, -⟩
  · rw [e5] at h3
    obtain rfl : p = x := by simpa using h3
    obtain ⟨f1, -, -, f2, -⟩ := h4
    have hfin : ∀ q ∈ info.next_points, ∃ w : ℝ, g q = .fin w := fun q hq => by
      have := hg q hq
      unfold onePoint at this
      obtain ⟨_, -, this⟩ := py_bind_ok this
      obtain ⟨w, -, this⟩ := py_bind_ok this
      exact ⟨w, (Except.ok.inj this).symm⟩
    have hp : p ∈ info.next_points := by
      obtain ⟨y, hy, e⟩ := List.mem_map.1 (List.mem_of_getElem? f1)
      rwa [← (Prod.mk.inj e).1]
    obtain ⟨v, hv⟩ := hfin p hp
    refine ⟨hp, e7, v, ?_, fun q hq => ?_⟩
    · rw [← hv]
      exact hg p hp
    obtain ⟨w, hw⟩ := hfin q hq
    obtain ⟨j, hj⟩ := List.getElem?_of_mem hq
    refine ⟨w, by rw [← hw]; exact hg q hq, ?_⟩
    have := f2 j q (g q) (by simp [hj]) trivial
    rw [hw, hv] at this
    simpa using this
  · rw [e5] at h3
    cases h3

/-- C161: with a library that makes no errors and the likelihood of the Student-t process, a step is the one of
exact arithmetic. -/
theorem C161_exact {o o' : SumOrder} {grad : List Flt → Py (List ℝ)} {loo : List Flt → Py ℝ}
    (ho : o.Covers d) (hn : bo.str_cov ∈ baseNames) {Y' : List ℝ} {Yt μ : Fin n → ℝ}
    (hY : (if bo.normalize_Y then normalizeMinMax Y else .ok Y) = .ok Y')
    (hc : column n Y' = .ok Yt) (hμ : Gp.getPriorMu bo.prior_mu (.vec X) = .ok μ) :
    RoundedTpStep.optimize (exactLibrary n o o' grad loo)
        (fun v => (Tp.negLogMl (.vec X) Yt v bo.str_cov μ bo.use_ard true false).map Prod.fst)
        bo orc clock X Y sm ns =
      BoWTp.optimize bo orc clock (.vec X) Y sm ns :=
  exactTpStep ho hn orc clock X sm ns hY hc hμ

/-- C161: predictions with the default noise, for at most ten responses in at most two dimensions, normalised so
that the smallest is 0 and the largest 10. `c` is the factor by which the Student-t process multiplies the
covariance of the Gaussian process. -/
theorem C161_predictions {name : String} (hlib : Accurate lib X name) (hn10 : n ≤ 10) (hd : d ≤ 2)
    (hn : name ∈ baseNames) {P : Point d → Prop} {hyps : HypDict} {s : ℝ} {l : Fin d → ℝ}
    (hm : OrdinaryHyps P hyps s l) (hP : ∀ i, P (X i)) {ν : ℝ} (hν : 3 ≤ ν) (hν1 : ν ≤ 10 ^ 6)
    (hνd : ν ∈ Double) (hdof : hyps.dof = some (.flt (.fin ν))) {K V : Matrix (Fin n) (Fin n) ℝ}
    (hK : RoundedKernels.kernelMatrix lib.fl lib.ex lib.o X hyps name = .ok K)
    (hV : lib.inv K = .ok V) {Yt : Fin n → ℝ} (hYd : ∀ i, Yt i ∈ Double)
    (hY : ∀ i, 0 ≤ Yt i ∧ Yt i ≤ 10) (hY10 : ∃ i, Yt i = 10) {ps : List (Point d)} (hps : ∀ x ∈ ps, P x)
    {c : ℝ} (hc : c = (ν + Yt ⬝ᵥ ((noisyGram name (1 / 100) s l (.vec X))⁻¹ *ᵥ Yt) - 2) / (ν + n - 2)) :
    0 < c ∧ ∃ mean dev : Point d → ℝ,
      TpPredictsWithin lib.fl lib.ex lib.o lib.mm X Yt K V hyps name none ps mean dev (43 / 1000)
        (147 / 1000 * √c) ∧
      ∀ x ∈ ps, |mean x| ≤ 10 ^ 6 ∧ 0 < dev x ∧ dev x ≤ 101 / 100 * √c := by
  obtain ⟨i0, hi0⟩ := hY10
  have hn1 : 1 ≤ n := Nat.one_le_iff_ne_zero.2 fun h0 => by subst h0; exact i0.elim0
  have hn' : (n : ℝ) ≤ 10 := by exact_mod_cast hn10
  have hn1' : (1 : ℝ) ≤ n := by exact_mod_cast hn1
  have hd' : (d : ℝ) ≤ 2 := by exact_mod_cast hd
  have hd0 : (0 : ℝ) ≤ d := Nat.cast_nonneg d
  have hp : PriorFunction (d := d) none fun _ => 0 := fun n X => rfl
  have zero : (0 : ℝ) ∈ Double := by simpa using double_nat (show 0 < 2 ^ 53 by norm_num)
  have hYa : ∀ i, |Yt i| ≤ 10 := fun i => abs_le.2 ⟨by linarith [hY i], (hY i).2⟩
  have hQ := default_residual hn' hYa
  have hmX : OrdinaryHyps (fun x => ∃ i, x = X i) hyps s l :=
    ⟨hm.describes, hm.signal, by rintro _ ⟨i, rfl⟩; exact hm.points _ (hP i)⟩
  obtain ⟨V', hV', hVe⟩ := hlib.inverse _ _ _ _ hmX hK
  obtain rfl : V' = V := by simpa [hV] using hV'.symm
  have hN0 : 0 ≤ ∑ i, (Yt i - (fun _ => 0 : Fin n → ℝ) i) ^ 2 := Finset.sum_nonneg fun i _ => sq_nonneg _
  obtain ⟨N, hN⟩ : ∃ N, N = √(∑ i, (Yt i - (fun _ => 0 : Fin n → ℝ) i) ^ 2) := ⟨_, rfl⟩
  have hN0' : 0 ≤ N := by rw [hN]; positivity
  have hNs : N ^ 2 = Yt ⬝ᵥ Yt := by
    rw [hN, Real.sq_sqrt hN0]
    simp [dotProduct, pow_two]
  have hNl : 99 ≤ N ^ 2 := by
    rw [hN, Real.sq_sqrt hN0]
    have := Finset.single_le_sum (f := fun i => (Yt i - (fun _ => 0 : Fin n → ℝ) i) ^ 2)
      (fun k _ => sq_nonneg _) (Finset.mem_univ i0)
    simp only [hi0] at this
    norm_num at this ⊢
    linarith
  have hNu : N ≤ 32 := by
    rw [hN]
    refine Real.sqrt_le_iff.2 ⟨by norm_num, ?_⟩
    have h1 : ∑ i, (Yt i - (fun _ => 0 : Fin n → ℝ) i) ^ 2 ≤ (n : ℝ) * 100 := by
      refine (Finset.sum_le_sum fun i _ => (?_ : _ ≤ (100 : ℝ))).trans_eq (by simp)
      have := hY i
      simp only [sub_zero]
      nlinarith
    linarith
  have hQ' : √n * N ≤ 100 := by rw [hN]; exact hQ
  obtain ⟨F, hF⟩ : ∃ F, F = _ := ⟨_, rfl⟩
  obtain ⟨k1, k2, k3, k4⟩ := default_choice (n := n) hn' (Nat.cast_nonneg n) hd' hd0 hm.signal hQ'
    (by positivity) rfl rfl rfl rfl rfl rfl rfl hF rfl
  have hY0 : Yt - (fun _ => 0 : Fin n → ℝ) = Yt := by
    funext i
    simp
  obtain ⟨β, hβ⟩ : ∃ β, β = Yt ⬝ᵥ ((noisyGram name (1 / 100) s l (.vec X))⁻¹ *ᵥ Yt) := ⟨_, rfl⟩
  rw [← hβ] at hc
  have hβ0 : 0 ≤ β := by
    rw [hβ]
    exact misfit_nonneg (noisyGram_posDef name (1 / 100) s l (.vec X)) _
  have hβN : N ^ 2 ≤ 10002 / 1000 * β := by
    have h1 := misfit_ge name (1 / 100) s l (.vec X) Yt
    rw [← hβ, ← hNs] at h1
    refine h1.trans (mul_le_mul_of_nonneg_right ?_ hβ0)
    have := mul_le_mul hn' hm.signal (sq_nonneg s) (by norm_num)
    norm_num at this ⊢
    linarith
  obtain ⟨m1, m2⟩ := default_misfit (n := n) hn' hn1' hd' hd0 hm.signal hN0' hNu hNl hQ' (by positivity) hβN
    rfl rfl rfl rfl rfl rfl rfl
  obtain ⟨k6, k7, k8, k9, k10⟩ := default_factor hn' hn1' hβ0 hν hν1 rfl m1 m2 hc rfl
  refine ⟨k8, ?_⟩
  have key : ∀ x, ∃ m w, x ∈ ps → (∃ ν₁ T ν' mu' sd' T',
      Tp.predictWithHyps (.vec X) Yt (.vec fun _ : Fin 1 => x) hyps name none =
        .ok (ν₁, fun _ => m, fun _ => w, T) ∧
      RoundedTp.predictWithCov lib.fl lib.ex lib.o lib.mm X Yt (fun _ : Fin 1 => x) K V' hyps name none =
        .ok (ν', mu', sd', T') ∧ |mu' 0 - m| ≤ 43 / 1000 ∧ |sd' 0 - w| ≤ 147 / 1000 * √c) ∧
      |m| ≤ 10 ^ 6 ∧ 0 < w ∧ w ≤ 101 / 100 * √c := by
    intro x
    by_cases hx : x ∈ ps
    swap
    · exact ⟨0, 0, fun h => absurd h hx⟩
    obtain ⟨-, mu, sd₀, S, sd, ν', mu', sd', T', e1, e2, e3, -, e4, e5, e6⟩ := C159_predictions
      (mm := lib.mm) hlib.nearest hlib.exp
      (by positivity) (by norm_num) hlib.order (hd.trans (by norm_num)) hn hm.describes
      (show 2 < ν by linarith) hνd hdof hn1
      (lt_of_le_of_lt hn10 (by norm_num)) (fun i => hm.points _ (hP i)) (Xs := fun _ : Fin 1 => x)
      (fun _ => hm.points x (hps x hx))
      (by norm_num; linarith) (by positivity) (by norm_num; linarith) (by positivity) hlib.mul (hp _ X) (hp _ _)
      (fun _ => zero) (fun _ => zero) hYd hK (fun i j => (hVe i j).1) (by positivity)
      (fun i j => (hVe i j).2) rfl rfl rfl k1 rfl rfl rfl hN rfl hF rfl
      (by rw [hY0]; exact hβ) rfl hc rfl
    obtain ⟨m, w, S₁, hS₁⟩ := predict_point hn hm.describes X Yt x (hp _ X) (hp _ fun _ : Fin 1 => x)
    have hinj := Except.ok.inj (e1.symm.trans hS₁)
    simp only [Prod.mk.injEq] at hinj
    obtain ⟨rfl, rfl, rfl⟩ := hinj
    obtain ⟨b1, b2, b3, -, b5⟩ := deviation_bounds hn hm.describes (hp _ X) (hp _ _) hS₁
    have hS0 : 0 < S 0 0 := Real.sqrt_pos.1 (b2 ▸ b1)
    rw [abs_of_pos hS0] at b3
    have hS1 : S 0 0 ≤ 1 + 1 / 100000 := b3.trans (by linarith [hm.signal])
    have hsd : sd 0 = √(c * S 0 0) := by
      rw [tp_deviation e2 0, max_eq_left]
      · rfl
      · exact mul_nonneg k8.le hS0.le
    obtain ⟨c1, c2, c3⟩ := default_tp_point rfl hS0.le hS1 (by positivity) k4 k8 k9 k10 k6 k7 hsd
    have hsd' : sd = fun _ => sd 0 := by
      funext j
      fin_cases j
      rfl
    have hm6 : |m| ≤ 10 ^ 6 := by
      have h5 := postMean_size name (1 / 100) s l X x (Yt - fun _ => 0)
      rw [hY0, ← hNs, Real.sqrt_sq hN0'] at h5
      rw [b5, add_zero, hY0]
      refine h5.trans ?_
      have f2 : √(n : ℝ) * s ^ 2 * (N / ((1 / 100) ^ 2 + 1 / 100000)) =
          s ^ 2 * (√n * N) / ((1 / 100) ^ 2 + 1 / 100000) := by ring
      rw [f2, div_le_iff₀ (by positivity)]
      have := mul_le_mul hm.signal hQ' (by positivity) (by norm_num)
      norm_num at this ⊢
      linarith
    refine ⟨m, sd 0, fun _ => ⟨⟨_, _, ν', mu', sd', T', hsd' ▸ e2, e3, (e4 0).trans ?_,
      (e6 0 _ ((e5 0 0).trans c1)).trans c3⟩, hm6, ?_, c2⟩⟩
    · clear hF c1 c3 e5 e6 k9 k10 m1 m2 k1 k4
      norm_num at k3 hm6 ⊢
      linarith
    · rw [hsd]
      exact Real.sqrt_pos.2 (mul_pos k8 hS0)
  choose mean dev hmd using key
  exact ⟨mean, dev, fun x hx => (hmd x hx).1, fun x hx => (hmd x hx).2⟩

/-- C161: a computed value of the expected improvement, under the same conditions. -/
theorem C161_value (hlib : Accurate lib X bo.str_cov) (hn10 : n ≤ 10) (hd : d ≤ 2)
    (hacq : bo.str_acq = "ei") (hprior : bo.prior_mu = none) (hn : bo.str_cov ∈ baseNames)
    {P : Point d → Prop} {hyps : HypDict} {s : ℝ} {l : Fin d → ℝ} (hm : OrdinaryHyps P hyps s l)
    (hP : ∀ i, P (X i)) {ν : ℝ} (hν : 3 ≤ ν) (hν1 : ν ≤ 10 ^ 6) (hνd : ν ∈ Double)
    (hdof : hyps.dof = some (.flt (.fin ν))) {K V : Matrix (Fin n) (Fin n) ℝ}
    (hK : RoundedKernels.kernelMatrix lib.fl lib.ex lib.o X hyps bo.str_cov = .ok K)
    (hV : lib.inv K = .ok V) {Yt : Fin n → ℝ} (hYd : ∀ i, Yt i ∈ Double)
    (hY : ∀ i, 0 ≤ Yt i ∧ Yt i ≤ 10) (hY0 : ∃ i, Yt i = 0) (hY10 : ∃ i, Yt i = 10) {x : Point d} (hx : P x)
    {c : ℝ}
    (hc : c = (ν + Yt ⬝ᵥ ((noisyGram bo.str_cov (1 / 100) s l (.vec X))⁻¹ *ᵥ Yt) - 2) / (ν + n - 2)) :
    ∃ m w S v, Tp.predictWithHyps (.vec X) Yt (.vec fun _ : Fin 1 => x) hyps bo.str_cov bo.prior_mu =
        .ok (ν + n, fun _ => m, fun _ => w, S) ∧
      tpObjective lib bo X Yt (K, V, hyps) x = .ok (.fin (-10 * v)) ∧
      |v - meanImprovement 0 m w| ≤ 66 / 1000 + 149 / 1000 * √c := by
  obtain ⟨hc0, mean, dev, hpred, hsize⟩ := C161_predictions hlib hn10 hd hn hm hP hν hν1 hνd hdof hK hV hYd hY
    hY10 (ps := [x]) (fun y hy => by rw [List.mem_singleton.1 hy]; exact hx) hc
  obtain ⟨h1, h2, h3⟩ := hsize x (List.mem_singleton_self x)
  obtain ⟨ν₁, T, ν', mu', sd', T', e1, e2, e3, e4⟩ := hpred x (List.mem_singleton_self x)
  have hn' : (n : ℝ) ≤ 10 := by exact_mod_cast hn10
  have hr := Real.sqrt_nonneg c
  obtain ⟨κ, hκ⟩ : ∃ κ, κ = 2 * Real.log (n + 1) := ⟨_, rfl⟩
  have hκ1 : κ ≤ 20 := by
    have := Real.log_le_sub_one_of_pos (show (0 : ℝ) < n + 1 by positivity)
    rw [hκ]
    linarith
  have hκ2 : κ * dev x ≤ 20 * (101 / 100 * √c) := mul_le_mul hκ1 h3 h2.le (by norm_num)
  obtain ⟨D, hD⟩ : ∃ D, D = 10 ^ 6 + 22 * √c := ⟨_, rfl⟩
  have hlog : LogWithin (1 / 2 ^ 40) Real.log := fun k => by
    rw [sub_self, abs_zero]
    exact mul_nonneg (by norm_num) (Real.log_nonneg (by linarith [Nat.cast_nonneg (α := ℝ) k]))
  obtain ⟨f, hch, hval⟩ := value_near (acq := "ei") (Y := List.ofFn Yt) (b := 0) (κ := κ) (σ := 1 / 100)
    (w := 0) (em := 43 / 1000) (es := 147 / 1000 * √c) (D := D) (noise := some (1 / 100))
    (by simp [ALLOWED_BO_ACQ]) hlib.nearest
    (by positivity) (by norm_num) hlib.cdf hlib.pdf hlog (doubles_ofFn hYd)
    (isBest_ofFn hY0 fun i => (hY i).1) (by simpa using lt_of_le_of_lt hn10 (by norm_num))
    (by simpa using hκ) (fun h => absurd h (by decide)) fun h => absurd h (by decide)
  obtain ⟨d1, d2, d3⟩ := roundedTp_doubles hlib.nearest e2 0
  obtain ⟨v, k1, k2, k3⟩ := hval (mean x) (dev x) (mu' 0) (sd' 0) d1 d2 d3 h2.le e3 e4
    (by rw [zero_sub, abs_neg, hD]; linarith) (by rw [hD]; linarith) fun h => absurd h (by decide)
  have hch' : RoundedChoice.chooseFunAcquisition lib.fl lib.cdf lib.pdf lib.lg bo.str_acq
      (some (1 / 100)) = .ok f := by
    rw [hacq]
    exact hch
  rw [← hprior] at e2
  have hobj := tpObjective_at (bo := bo) hm.describes e2 hch' k1
  have hν₁ : ν₁ = ν + n := by
    have hp : PriorFunction (d := d) none fun _ => 0 := fun n X => rfl
    have hsuit : ∀ {p : ℕ} (Z : Fin p → Point d), Suits bo.str_cov bo.str_cov (.vec Z) :=
      fun Z => ⟨hn, .inl ⟨rfl, Z, rfl⟩⟩
    have := tpPredictWithHyps_ok (hsuit X) (hsuit fun _ : Fin 1 => x) hm.describes
      (show 2 < ν by linarith) hdof Yt (hp _ X) (hp _ _)
    rw [e1, Except.ok.injEq, Prod.mk.injEq] at this
    exact this.1
  rw [hν₁, ← hprior] at e1
  have hm1 : acqMeaning "ei" 0 κ (1 / 100) (mean x) (dev x) = meanImprovement 0 (mean x) (dev x) := rfl
  have hm2 : acqError "ei" (1 / 2 ^ 40) κ (1 / 100) (43 / 1000) (147 / 1000 * √c) D 0 =
    3 / 2 * (43 / 1000) + 147 / 1000 * √c + ((1 / 2 ^ 40 + 8 / 2 ^ 53) * (D + 43 / 1000 + 147 / 1000 * √c) +
      (2 : ℝ) ^ (-1073 : ℤ)) + 1 / 200000 := rfl
  rw [hm1, hm2] at k2
  rw [hm2] at k3
  have f1 := fl_error hlib.nearest (v * 10)
  rw [abs_mul, abs_of_pos (by norm_num : (0 : ℝ) < 10)] at f1
  have t1 := small_zpow (k := -1073) (by norm_num)
  have t2 := small_zpow (k := -1075) (by norm_num)
  refine ⟨mean x, dev x, T, lib.fl (v * 10) / 10, e1, ?_, ?_⟩
  · rw [tpObjective, hobj, show -10 * (lib.fl (v * 10) / 10) = -1 * lib.fl (v * 10) by ring]
  have g1 : |lib.fl (v * 10) / 10 - v| ≤ (1 / 2 ^ 53 * (|v| * 10) + (2 : ℝ) ^ (-1075 : ℤ)) / 10 := by
    rw [show lib.fl (v * 10) / 10 - v = (lib.fl (v * 10) - v * 10) / 10 by ring, abs_div,
      abs_of_pos (by norm_num : (0 : ℝ) < 10)]
    exact div_le_div_of_nonneg_right f1 (by norm_num)
  have g2 := abs_sub_le (lib.fl (v * 10) / 10) v (meanImprovement 0 (mean x) (dev x))
  generalize (2 : ℝ) ^ (-1073 : ℤ) = T1 at *
  generalize (2 : ℝ) ^ (-1075 : ℤ) = T2 at *
  rw [hD] at k2 k3
  clear f1 hD
  refine g2.trans ((add_le_add g1 k2).trans ?_)
  norm_num at k3 t1 t2 ⊢
  linarith only [k3, t1, t2, hr]

/-- C161: the point a step proposes. The prediction is the exact one of the Student-t process, given the
normalised responses and the hyperparameters that were fitted, among them `ν` degrees of freedom; `c` is the
factor by which it multiplies the covariance of the Gaussian process. No candidate has an expected improvement,
on the scale from 0 to 10 of normalised responses, that is better than the one of the proposed point by more
than `0.132 + 0.298 √c`. If besides the optimiser brought one candidate within `tol` of the smallest computed
objective in the box, no point of the box is better by more than that and a tenth of `tol`. -/
theorem C161_choice {y : Fin n → ℝ}
    (h : RoundedTpStep.optimize lib nll bo orc clock X (List.ofFn y) sm ns (st, t) = (r, .ok (p, info)))
    (hlib : Accurate lib X bo.str_cov) (hn10 : n ≤ 10) (hd : d ≤ 2) (hacq : bo.str_acq = "ei")
    (hprior : bo.prior_mu = none) (hnorm : bo.normalize_Y = true)
    (hy : ∀ i, y i ∈ Double) {lo hi : ℝ} (hlo : (∃ i, y i = lo) ∧ ∀ i, lo ≤ y i)
    (hhi : (∃ i, y i = hi) ∧ ∀ i, y i ≤ hi) (hlt : lo < hi)
    (hm : ∀ K V hyps, info.fit = some (K, V, hyps) → ∃ s l ν,
      OrdinaryHyps (fun x => (∃ i, x = X i) ∨ InBox bo.range_X x) hyps s l ∧
      hyps.dof = some (.flt (.fin ν)) ∧ 3 ≤ ν ∧ ν ≤ 10 ^ 6 ∧ ν ∈ Double) :
    ∃ (Yt : Fin n → ℝ) (K V : Matrix (Fin n) (Fin n) ℝ) (hyps : HypDict) (s : ℝ) (l : Fin d → ℝ) (ν c : ℝ)
        (mean dev : Point d → ℝ),
      List.ofFn Yt = info.Y_normalized ∧
      (∀ i, |Yt i - 10 * ((y i - lo) / (hi - lo))| ≤ 6 / 10 ^ 15) ∧ info.fit = some (K, V, hyps) ∧
      Describes hyps (1 / 100) s l ∧ hyps.dof = some (.flt (.fin ν)) ∧
      c = (ν + Yt ⬝ᵥ ((noisyGram bo.str_cov (1 / 100) s l (.vec X))⁻¹ *ᵥ Yt) - 2) / (ν + n - 2) ∧
      (∀ x, InBox bo.range_X x → ∃ S, Tp.predictWithHyps (.vec X) Yt (.vec fun _ : Fin 1 => x) hyps
        bo.str_cov bo.prior_mu = .ok (ν + n, fun _ => mean x, fun _ => dev x, S)) ∧
      NearBest (fun x => meanImprovement 0 (mean x) (dev x)) info.next_points
        (132 / 1000 + 298 / 1000 * √c) p ∧
      ∀ tol q vq, q ∈ info.next_points → tpObjective lib bo X Yt (K, V, hyps) q = .ok (.fin vq) →
        (∀ x v, InBox bo.range_X x → tpObjective lib bo X Yt (K, V, hyps) x = .ok (.fin v) → vq ≤ v + tol) →
        ∀ x, InBox bo.range_X x → meanImprovement 0 (mean x) (dev x) ≤
          meanImprovement 0 (mean p) (dev p) + (132 / 1000 + 298 / 1000 * √c) + tol / 10 := by
  obtain ⟨Yt, K, V, hyps, s', l', e1, e2, hn, -, k1, k2, -, hp, hbox, v, e3, e4⟩ := C161_step h
  obtain ⟨-, -, -, -, eY, -⟩ := roundedTpStep_ok h
  obtain ⟨s, l, ν, hm, hdof, hν, hν1, hνd⟩ := hm K V hyps e2
  rw [if_pos hnorm] at eY
  obtain ⟨out, o1, o2, o3, -⟩ := C104_normalize hlib.nearest (List.ofFn y)
    (fun z hz => by obtain ⟨i, rfl⟩ := List.mem_ofFn.1 hz; exact hy i) lo hi
    ⟨List.mem_ofFn.2 hlo.1, fun z hz => by obtain ⟨i, rfl⟩ := List.mem_ofFn.1 hz; exact hlo.2 i⟩
    ⟨List.mem_ofFn.2 hhi.1, fun z hz => by obtain ⟨i, rfl⟩ := List.mem_ofFn.1 hz; exact hhi.2 i⟩ hlt
  obtain rfl : out = info.Y_normalized := by
    rw [o1] at eY
    exact Except.ok.inj eY
  have hat : ∀ i : Fin n, (List.ofFn y)[(i : ℕ)]? = some (y i) ∧ info.Y_normalized[(i : ℕ)]? = some (Yt i) :=
    fun i => by rw [← e1]; simp
  have hYt := fun i : Fin n => o3 i (y i) (Yt i) (hat i).1 (hat i).2
  have hYd : ∀ i, Yt i ∈ Double := fun i =>
    normalized_double hlib.nearest
      (fun z hz => by obtain ⟨i, rfl⟩ := List.mem_ofFn.1 hz; exact hy i) o1 _
      (by rw [← e1]; exact List.mem_ofFn.2 ⟨i, rfl⟩)
  have hY0 : ∃ i, Yt i = 0 := by
    obtain ⟨i, hi⟩ := hlo.1
    exact ⟨i, (hYt i).2.2.2.1 hi⟩
  have hY10 : ∃ i, Yt i = 10 := by
    obtain ⟨i, hi⟩ := hhi.1
    exact ⟨i, (hYt i).2.2.2.2.1 hi⟩
  obtain ⟨c, hc⟩ : ∃ c, c = (ν + Yt ⬝ᵥ ((noisyGram bo.str_cov (1 / 100) s l (.vec X))⁻¹ *ᵥ Yt) - 2) /
    (ν + n - 2) := ⟨_, rfl⟩
  have key' : ∀ x, ∃ m w v, InBox bo.range_X x → (∃ S, Tp.predictWithHyps (.vec X) Yt
        (.vec fun _ : Fin 1 => x) hyps bo.str_cov bo.prior_mu = .ok (ν + n, fun _ => m, fun _ => w, S)) ∧
      tpObjective lib bo X Yt (K, V, hyps) x = .ok (.fin (-10 * v)) ∧
      |v - meanImprovement 0 m w| ≤ 66 / 1000 + 149 / 1000 * √c := fun x => by
    by_cases hx : InBox bo.range_X x
    · obtain ⟨m, w, S, v, a1, a2, a3⟩ := C161_value hlib hn10 hd hacq hprior hn hm (fun i => .inl ⟨i, rfl⟩)
        hν hν1 hνd hdof k1 k2 hYd (fun i => ⟨(hYt i).1, (hYt i).2.1⟩) hY0 hY10 (.inr hx) hc
      exact ⟨m, w, v, fun _ => ⟨⟨S, a1⟩, a2, a3⟩⟩
    · exact ⟨0, 0, 0, fun h => absurd h hx⟩
  choose mean dev val hval using key'
  have hvp : v = -10 * val p := by
    have := (hval p (hbox p hp)).2.1
    rw [e3] at this
    simpa using this
  obtain ⟨a1, a2⟩ := abs_le.1 (hval p (hbox p hp)).2.2
  refine ⟨Yt, K, V, hyps, s, l, ν, c, mean, dev, e1, fun i => (hYt i).2.2.1, e2, hm.describes, hdof, hc,
    fun x hx => (hval x hx).1, ⟨hp, fun q hq => ?_⟩, ?_⟩
  · obtain ⟨w, f1, f2⟩ := e4 q hq
    have hw : w = -10 * val q := by
      have := (hval q (hbox q hq)).2.1
      rw [f1] at this
      simpa using this
    obtain ⟨b1, b2⟩ := abs_le.1 (hval q (hbox q hq)).2.2
    linarith
  · intro tol q vq hq f1 f2 x hx
    obtain ⟨w, f3, f4⟩ := e4 q hq
    obtain rfl : w = vq := by
      rw [f1] at f3
      simpa using f3.symm
    obtain ⟨-, g1, g2⟩ := hval x hx
    have := f2 x _ hx g1
    obtain ⟨b1, b2⟩ := abs_le.1 g2
    linarith

end

end Verif.Props
