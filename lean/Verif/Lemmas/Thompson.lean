import Verif.Spec.Thompson
import Verif.Lemmas.StepTotalOthers
import Verif.Props.Gp
import Verif.Lemmas.WrappersBo
import Verif.Lemmas.StepState

/-! Thompson sampling. -/

namespace Verif.Lemmas

open Verif.Spec Verif.BoCommon Verif.UtilsBo Verif.Constants Verif.BaseBo Verif.SampleFunctions
open Verif.ThompsonSampling Verif.WrappersBo
open Verif.UtilsCovariance Verif.Covariance

variable {n d : ℕ}

/-- The first column of a single sample over several points. -/
theorem firstColumn_one {rv : ℕ → Fin n → ℝ} :
    (n = 1 → firstColumn (stack rv 1) = .error .index) ∧
    (n = 0 → firstColumn (stack rv 1) = .error .index) ∧
    (∀ h : 1 < n, firstColumn (stack rv 1) = .ok [rv 0 ⟨0, by omega⟩]) := by
  refine ⟨?_, ?_, ?_⟩
  · rintro rfl
    rfl
  · rintro rfl
    rfl
  · intro h
    obtain ⟨m, rfl⟩ : ∃ m, n = m + 2 := ⟨n - 2, by omega⟩
    simp [stack, firstColumn, pyIndex, pure, Except.pure, bind, Except.bind]

theorem trySample_some {g : Normal} {mu : Fin n → ℝ} {S : Matrix (Fin n) (Fin n) ℝ} :
    ∀ {js : List ℝ} {s : Array12}, trySample g mu S js = .ok (some s) →
      ∃ rv : ℕ → Fin n → ℝ, s = stack rv 1
  | [], s, h => by cases h
  | j :: js, s, h => by
    unfold trySample at h
    split at h
    · next s' hs =>
      obtain rfl := Option.some.inj (Except.ok.inj h)
      obtain ⟨rv, -, hs⟩ := py_bind_ok hs
      exact ⟨rv, (Except.ok.inj hs).symm⟩
    · exact trySample_some h
    · cases h

theorem trySample_first {g : Normal} {mu : Fin n → ℝ} {S : Matrix (Fin n) (Fin n) ℝ}
    {rv : ℕ → Fin n → ℝ} (h : g.frozen mu S = .ok rv) :
    trySample g mu S listJitters = .ok (some (stack rv 1)) := by
  unfold listJitters trySample sampleFunctions
  simp only [zero_smul, add_zero, h, bind, Except.bind, pure, Except.pure]

theorem trySample_skip {g : Normal} {mu : Fin n → ℝ} {S : Matrix (Fin n) (Fin n) ℝ} {post : List ℝ} :
    ∀ {pre : List ℝ}, (∀ i ∈ pre, g.frozen mu (S + i • 1) = .error .value) →
      trySample g mu S (pre ++ post) = trySample g mu S post
  | [], _ => rfl
  | i :: pre, h => by
    rw [List.cons_append, trySample]
    simp only [sampleFunctions, h i (by simp), bind, Except.bind]
    exact trySample_skip fun k hk => h k (by simp [hk])

theorem modelBo_range {env : Installed} {B : Bounds d} {bo : BoWGp.BOwGP d} {st : BoWGp.GpState}
    (h : modelBo env B = .ok (bo, st)) : bo.range_X = B ∧ ∀ i, (B i).1 ≤ (B i).2 := by
  obtain ⟨-, e, -, -, -, -, -, -, -, hB, -⟩ := gp_init_ok h
  exact ⟨e, hB⟩

theorem modelBo_total (env : Installed) {B : Bounds d} (hB : ∀ i, (B i).1 ≤ (B i).2) :
    ∃ bo st, modelBo env B = .ok (bo, st) ∧ bo.range_X = B := by
  have h1 : STR_OPTIMIZER_METHOD_AO ∈ ALLOWED_OPTIMIZER_METHOD_BO ++
    ALLOWED_OPTIMIZER_METHOD_BO_TREES := by decide
  have : ∃ bo st, modelBo env B = .ok (bo, st) := by
    have e : checkOptimizerMethodBo env STR_OPTIMIZER_METHOD_AO d = .ok STR_OPTIMIZER_METHOD_AO := by
      simp only [checkOptimizerMethodBo, pyAssert, if_pos h1, bind, Except.bind]
      rfl
    have a1 : STR_COV ∈ ALLOWED_COV := by decide
    have a2 : STR_BO_ACQ ∈ ALLOWED_BO_ACQ := by decide
    have a3 : STR_OPTIMIZER_METHOD_GP ∈ ALLOWED_OPTIMIZER_METHOD_GP := by decide
    have a4 : STR_OPTIMIZER_METHOD_AO ∈ ALLOWED_OPTIMIZER_METHOD_BO := by decide
    have a5 : STR_MODELSELECTION_METHOD ∈ ALLOWED_MODELSELECTION_METHOD := by decide
    have a6 : "gp" ∈ ALLOWED_SURROGATE := by decide
    have a7 : "gp" ∈ ALLOWED_SURROGATE ++ ALLOWED_SURROGATE_TREES := by decide
    simp only [modelBo, BoWGp.init, initBase, pyAssert, if_pos hB, if_pos a1, if_pos a2, if_pos a3,
      if_pos a4, if_pos a5, if_pos a6, if_pos a7, if_pos h1, e, bind, Except.bind, pure,
      Except.pure]
    exact ⟨_, _, rfl⟩
  obtain ⟨bo, st, h⟩ := this
  exact ⟨bo, st, h, (modelBo_range h).1⟩

/-- An iteration up to the sample. -/
structure Prepared (env : Installed) (o : TsOracles d) (B : Bounds d) (X : List (Point d))
    (Y : List ℝ) (nY : Bool) (sm : String) (ns : ℤ) (pts : List (Point d)) (Y' : List ℝ)
    (bo : BoWGp.BOwGP d × BoWGp.GpState) (Yt : Fin X.length → ℝ)
    (pred : (Fin pts.length → ℝ) × (Fin pts.length → ℝ) × Matrix (Fin pts.length) (Fin pts.length) ℝ) :
    Prop where
  lengths : X.length = Y.length
  normal : (if nY then normalizeMinMax Y else .ok Y) = .ok Y'
  model : modelBo env B = .ok bo
  points : getSamples bo.1.range_X o.draws sm ns = .ok pts
  column : column X.length Y' = .ok Yt
  predict : Gp.predictWithOptimizedHyps o.fitHyps (.vec X.get) Yt (.vec pts.get) "matern52" "BFGS"
    none = .ok pred

theorem iteration_prepared {env : Installed} {o : TsOracles d} {B : Bounds d} {X : List (Point d)}
    {Y : List ℝ} {nY : Bool} {sm : String} {ns : ℤ} {pts : List (Point d)} {Y' : List ℝ}
    {bo : BoWGp.BOwGP d × BoWGp.GpState} {Yt : Fin X.length → ℝ} {pred}
    (h : Prepared env o B X Y nY sm ns pts Y' bo Yt pred) :
    iteration env o B X Y nY sm ns = (do
      match ← trySample o.normal pred.1 pred.2.2 listJitters with
      | none => .error .value
      | some s =>
        let ind_min ← npArgmin ((← firstColumn s).map .fin)
        pyIndex pts ind_min) := by
  obtain ⟨b, st⟩ := bo
  obtain ⟨mu, sd, S⟩ := pred
  have h4 := h.points
  simp only at h4
  have h2 := h.normal
  cases nY
  · obtain rfl : Y = Y' := Except.ok.inj h2
    simp only [iteration, pyAssert, if_pos h.lengths, h.model, h4, h.column, h.predict, bind,
      Except.bind, Bool.false_eq_true, if_false]
    rfl
  · simp only [if_true] at h2
    simp only [iteration, pyAssert, if_pos h.lengths, h2, h.model, h4, h.column, h.predict, bind,
      Except.bind, if_true]
    rfl

theorem iteration_ok {env : Installed} {o : TsOracles d} {B : Bounds d} {X : List (Point d)}
    {Y : List ℝ} {nY : Bool} {sm : String} {ns : ℤ} {p : Point d}
    (h : iteration env o B X Y nY sm ns = .ok p) :
    ∃ pts Y' bo Yt pred, Prepared env o B X Y nY sm ns pts Y' bo Yt pred ∧ 1 < pts.length ∧
      pts[0]? = some p := by
  unfold iteration at h
  obtain ⟨_, e1, h⟩ := py_bind_ok h
  have : ∃ Y', (if nY then normalizeMinMax Y else .ok Y) = .ok Y' ∧ (do
      let (model_bo, _) ← modelBo env B
      let X_test ← getSamples model_bo.range_X o.draws sm ns
      let Y_train ← column X.length Y'
      let (mu_Xs, _, Sigma_Xs) ← Gp.predictWithOptimizedHyps o.fitHyps (.vec X.get) Y_train
        (.vec X_test.get) "matern52" "BFGS"
      match ← trySample o.normal mu_Xs Sigma_Xs listJitters with
      | none => .error .value
      | some Y_sampled =>
        let ind_min ← npArgmin ((← firstColumn Y_sampled).map .fin)
        pyIndex X_test ind_min) = .ok p := by
    cases nY
    · exact ⟨Y, rfl, h⟩
    · obtain ⟨Y', e, h⟩ := py_bind_ok h
      exact ⟨Y', e, h⟩
  obtain ⟨Y', e2, h⟩ := this
  obtain ⟨⟨bo, st⟩, e3, h⟩ := py_bind_ok h
  obtain ⟨pts, e4, h⟩ := py_bind_ok h
  obtain ⟨Yt, e5, h⟩ := py_bind_ok h
  obtain ⟨⟨mu, sd, S⟩, e6, h⟩ := py_bind_ok h
  have hp : Prepared env o B X Y nY sm ns pts Y' (bo, st) Yt (mu, sd, S) :=
    ⟨pyAssert_ok e1, e2, e3, e4, e5, e6⟩
  obtain ⟨s, e7, h⟩ := py_bind_ok h
  cases s with
  | none => cases h
  | some s =>
    obtain ⟨rv, rfl⟩ := trySample_some e7
    obtain ⟨c, e8, h⟩ := py_bind_ok h
    obtain ⟨f1, f0, f2⟩ := firstColumn_one (rv := rv)
    have hl : 1 < pts.length := by
      by_contra hc
      obtain h0 | h0 : pts.length = 1 ∨ pts.length = 0 := by omega
      · rw [f1 h0] at e8; cases e8
      · rw [f0 h0] at e8; cases e8
    rw [f2 hl] at e8
    obtain rfl := Except.ok.inj e8
    refine ⟨pts, Y', _, Yt, _, hp, hl, ?_⟩
    obtain ⟨i, e9, h⟩ := py_bind_ok h
    have : i = 0 := (Except.ok.inj e9).symm
    subst this
    unfold pyIndex at h
    split at h
    · next q hq => exact hq.trans (congrArg some (Except.ok.inj h))
    · cases h

theorem iteration_first {env : Installed} {o : TsOracles d} {B : Bounds d} {X : List (Point d)}
    {Y : List ℝ} {nY : Bool} {sm : String} {ns : ℤ} {pts : List (Point d)} {Y' : List ℝ}
    {bo : BoWGp.BOwGP d × BoWGp.GpState} {Yt : Fin X.length → ℝ} {pred}
    (h : Prepared env o B X Y nY sm ns pts Y' bo Yt pred) {rv : ℕ → Fin pts.length → ℝ}
    (hs : trySample o.normal pred.1 pred.2.2 listJitters = .ok (some (stack rv 1))) :
    (1 < pts.length → ∃ p, pts[0]? = some p ∧ iteration env o B X Y nY sm ns = .ok p) ∧
    (pts.length ≤ 1 → iteration env o B X Y nY sm ns = .error .index) := by
  rw [iteration_prepared h]
  obtain ⟨f1, f0, f2⟩ := firstColumn_one (rv := rv)
  constructor
  · intro hl
    refine ⟨pts[0], List.getElem?_eq_getElem _, ?_⟩
    simp only [hs, f2 hl, bind, Except.bind, List.map_cons, List.map_nil, npArgmin, argminLoop]
    simp [pyIndex, List.getElem?_eq_getElem (show 0 < pts.length by omega)]
  · intro hl
    obtain h0 | h0 : pts.length = 1 ∨ pts.length = 0 := by omega
    · simp only [hs, f1 h0, bind, Except.bind]
    · simp only [hs, f0 h0, bind, Except.bind]

/-- The preparation works, and the covariance matrix of the sample is positive definite. -/
theorem prepared_total (env : Installed) (hd : 0 < d) {o : TsOracles d}
    (hfit : Minimizes o.fitHyps (FitVector d)) (hdr : UnitDraws o.draws) {B : Bounds d}
    (hB : ∀ i, (B i).1 ≤ (B i).2) {X : List (Point d)} {Y : List ℝ} (hX : X ≠ [])
    (hl : X.length = Y.length) (nY : Bool) {sm : String} (hsm : sm ∈ ALLOWED_SAMPLING_METHOD)
    {ns : ℤ} (hns : 0 < ns) :
    ∃ pts Y' bo Yt pred, Prepared env o B X Y nY sm ns pts Y' bo Yt pred ∧
      getSamples B o.draws sm ns = .ok pts ∧ (∀ i j, pred.2.2 i j = pred.2.2 j i) ∧
      QuadPos pred.2.2 := by
  have hn : X.length ≠ 0 := fun h0 => hX (List.length_eq_zero_iff.1 h0)
  have hYne : Y ≠ [] := by rintro rfl; exact hn hl
  obtain ⟨Y', hY', hlY⟩ : ∃ Y', (if nY then normalizeMinMax Y else .ok Y) = .ok Y' ∧
      Y'.length = Y.length := by
    cases nY
    · exact ⟨Y, rfl, rfl⟩
    · exact normalize_total hYne
  obtain ⟨bo, st, hbo, hr⟩ := modelBo_total env hB
  obtain ⟨pts, hp, -, -⟩ := samples_total hd hB hdr hsm hns
  obtain ⟨Yt, hc⟩ := column_total (n := X.length) (Y := Y') (by omega)
  have hb : "matern52" ∈ baseNames := by decide
  have hpr : PriorTotal (none : Gp.PriorMu d) := fun _ _ => ⟨_, rfl⟩
  obtain ⟨K, P, h, e, hg, hK⟩ := gpFit_total hb hn X.get Yt hpr (method := "BFGS")
    (ms := STR_MODELSELECTION_METHOD) (by decide) (by decide) (ard := USE_ARD) (.inr (.inl rfl)) hfit
  obtain ⟨v, s, l, -, -, -, hdesc⟩ := hg
  have s1 := vec_suits (n := X.length) hb X.get
  have s2 := vec_suits (n := pts.length) hb pts.get
  obtain ⟨K', P', r, k1, k2, k3⟩ := Props.C32_with_cov s1 s2 hdesc Yt (prior := none) rfl rfl true
  rw [hK] at k1
  injection k1 with k1
  injection k1 with k0 k1
  injection k1 with k1
  subst k0 k1
  obtain ⟨mu, sd, S, k4, k5, -, k6, -⟩ := Props.C32_posterior_covariance s1 s2 hdesc Yt
    (prior := none) rfl rfl
  rw [k3] at k4
  obtain rfl := Except.ok.inj k4
  have hpred : Gp.predictWithOptimizedHyps o.fitHyps (.vec X.get) Yt (.vec pts.get) "matern52" "BFGS"
      none = .ok (mu, sd, S) := by
    have c1 : "BFGS" ∈ ALLOWED_OPTIMIZER_METHOD_GP := by decide
    have c2 : checkStrCov "matern52" (Inputs.rank (.vec X.get : Inputs X.length d))
        (some (Inputs.rank (.vec pts.get : Inputs pts.length d))) = .ok () := by
      simp [checkStrCov, Inputs.rank, pyAssert, ALLOWED_COV_BASE, ALLOWED_COV, bind, Except.bind]
    simp only [Gp.predictWithOptimizedHyps, Gp.validateCommonArgs, pyAssert, c2, if_pos c1,
      bind, Except.bind]
    have e' : Gp.getOptimizedKernel o.fitHyps (.vec X.get) Yt none "matern52" "BFGS" =
        .ok (K, P, h) := e
    have e'' : Gp.getOptimizedKernel o.fitHyps (.vec X.get) Yt none "matern52" "BFGS"
        (fix_noise := FIX_GP_NOISE) = .ok (K, P, h) := e
    rw [e'']
    exact k2
  exact ⟨pts, Y', (bo, st), Yt, (mu, sd, S), ⟨hl, hY', hbo, by rw [hr]; exact hp, hc, hpred⟩, hp,
    k5, k6⟩

/-! ### The run -/

theorem paired_append {target : ℕ → Point d → Py Flt} {X : List (Point d)} {Y : List Flt}
    (h : Paired target X Y) {p : Point d} {y : Flt} (hy : target X.length p = .ok y) :
    Paired target (X ++ [p]) (Y ++ [y]) := by
  obtain ⟨hl, hp⟩ := h
  refine ⟨by simp [hl], fun i z hz => ?_⟩
  rcases Nat.lt_trichotomy i Y.length with hi | hi | hi
  · rw [List.getElem?_append_left hi] at hz
    obtain ⟨q, h1, h2⟩ := hp i z hz
    exact ⟨q, by rw [List.getElem?_append_left (by omega)]; exact h1, h2⟩
  · subst hi
    rw [List.getElem?_concat_length] at hz
    obtain rfl := Option.some.inj hz
    exact ⟨p, by rw [hl, List.getElem?_concat_length], by rw [hl]; exact hy⟩
  · rw [List.getElem?_eq_none (by simp; omega)] at hz
    cases hz

theorem evaluate_ok {target : ℕ → Point d → Py Flt} :
    ∀ {X X0 : List (Point d)} {Y0 Y : List Flt} {w w' : World d Unit}, w.log = X0 →
      Paired target X0 Y0 → evaluate target X w = (w', .ok Y) →
      w'.log = X0 ++ X ∧ Paired target (X0 ++ X) (Y0 ++ Y)
  | [], X0, Y0, Y, w, w', hw, hp, h => by
    obtain ⟨rfl, h'⟩ := Prod.mk.inj h
    obtain rfl := Except.ok.inj h'
    simpa using ⟨hw, hp⟩
  | x :: X, X0, Y0, Y, w, w', hw, hp, h => by
    simp only [evaluate, bind_apply, query] at h
    cases hy : target w.log.length x with
    | error e => simp [hy] at h
    | ok y =>
      simp only [hy] at h
      generalize hr : evaluate target X _ = r at h
      obtain ⟨w1, ys | ys⟩ := r
      · cases h
      · simp only [pure_apply] at h
        obtain ⟨rfl, h'⟩ := Prod.mk.inj h
        obtain rfl := Except.ok.inj h'
        obtain ⟨h1, h2⟩ := evaluate_ok (X0 := X0 ++ [x]) (Y0 := Y0 ++ [y]) (by simp [hw])
          (paired_append hp (by rw [← hw]; exact hy)) hr
        exact ⟨by simpa using h1, by simpa using h2⟩

theorem loop_ok {env : Installed} {o : ℕ → TsOracles d} {target : ℕ → Point d → Py Flt}
    {B : Bounds d} {nY : Bool} {sm : String} {ns : ℤ} :
    ∀ {n k : ℕ} {X X' : List (Point d)} {Y Y' : List Flt} {w w' : World d Unit}, w.log = X →
      Paired target X Y →
      ThompsonSampling.loop env o target B nY sm ns n k X Y w = (w', .ok (X', Y')) →
      ∃ ps ys, X' = X ++ ps ∧ Y' = Y ++ ys ∧ ps.length = n ∧ w'.log = X' ∧ Paired target X' Y' ∧
        ∀ i p, ps[i]? = some p → ∃ Yr : List ℝ, Yr.map Flt.fin = Y ++ ys.take i ∧
          iteration env (o (k + i)) B (X ++ ps.take i) Yr nY sm ns = .ok p
  | 0, k, X, X', Y, Y', w, w', hw, hp, h => by
    obtain ⟨rfl, h'⟩ := Prod.mk.inj h
    obtain ⟨rfl, rfl⟩ := Prod.mk.inj (Except.ok.inj h')
    exact ⟨[], [], by simp, by simp, rfl, hw, hp, by simp⟩
  | n + 1, k, X, X', Y, Y', w, w', hw, hp, h => by
    simp only [ThompsonSampling.loop, bind_apply, RunM.lift] at h
    cases hf : finites Y with
    | error e => simp [hf] at h
    | ok Yr =>
      simp only [hf] at h
      cases hi : iteration env (o k) B X Yr nY sm ns with
      | error e => simp [hi] at h
      | ok p =>
        simp only [hi, query] at h
        cases hy : target w.log.length p with
        | error e => simp [hy] at h
        | ok y =>
          simp only [hy] at h
          obtain ⟨ps, ys, h1, h2, h3, h4, h5, h6⟩ := loop_ok (X := X ++ [p]) (by simp [hw])
            (paired_append hp (by rw [← hw]; exact hy)) h
          refine ⟨p :: ps, y :: ys, by simpa using h1, by simpa using h2, by simp [h3], h4, h5, ?_⟩
          rintro (_ | i) q hq
          · obtain rfl := Option.some.inj hq
            exact ⟨Yr, by simpa using (finites_ok hf).symm, by simpa using hi⟩
          · obtain ⟨Yr', e1, e2⟩ := h6 i q (by simpa using hq)
            refine ⟨Yr', by simpa using e1, ?_⟩
            rw [show k + (i + 1) = k + 1 + i by omega]
            simpa using e2

theorem samples_many (hd : 0 < d) {B : Bounds d} (hB : ∀ i, (B i).1 ≤ (B i).2) {r : Draws d}
    {sm : String} {k : ℕ} {pts : List (Point d)} (h : getSamples B r sm k = .ok pts) :
    (2 ≤ k → 1 < pts.length) ∧ (k = 1 → pts.length = 1) := by
  by_cases hg : sm = "grid"
  · subst hg
    obtain ⟨pts', h1, h2⟩ := Props.C14_grid_count hd B hB r k
    rw [h] at h1
    obtain rfl := Except.ok.inj h1
    rw [h2]
    exact ⟨fun hk => Nat.one_lt_pow hd.ne' (by omega), by rintro rfl; simp⟩
  · obtain ⟨h1, -⟩ := Props.C14_count_partial B r sm hg k pts h
    omega

theorem iteration_total (env : Installed) (hd : 0 < d) {o : TsOracles d} (ho : TsWell o)
    {B : Bounds d} (hB : ∀ i, (B i).1 ≤ (B i).2) {X : List (Point d)} {Y : List ℝ} (hX : X ≠ [])
    (hl : X.length = Y.length) (nY : Bool) {sm : String} (hsm : sm ∈ ALLOWED_SAMPLING_METHOD)
    {ns : ℤ} :
    (2 ≤ ns → ∃ p, iteration env o B X Y nY sm ns = .ok p ∧ InBox B p) ∧
    (ns = 1 → iteration env o B X Y nY sm ns = .error .index) := by
  have key : 0 < ns → ∃ pts, getSamples B o.draws sm ns = .ok pts ∧ (1 < pts.length →
      ∃ p, pts[0]? = some p ∧ iteration env o B X Y nY sm ns = .ok p) ∧
      (pts.length ≤ 1 → iteration env o B X Y nY sm ns = .error .index) := by
    intro hns
    obtain ⟨pts, Y', bo, Yt, pred, h1, h2, h3, h4⟩ :=
      prepared_total env hd ho.fit ho.draws hB hX hl nY hsm hns
    obtain ⟨rv, hrv⟩ := ho.normal _ pred.1 pred.2.2 h3 h4
    exact ⟨pts, h2, iteration_first h1 (trySample_first hrv)⟩
  constructor
  · intro hns
    obtain ⟨pts, h1, h2, -⟩ := key (by omega)
    obtain ⟨k, rfl⟩ := Int.eq_ofNat_of_zero_le (show 0 ≤ ns by omega)
    obtain ⟨p, h3, h4⟩ := h2 ((samples_many hd hB h1).1 (by exact_mod_cast hns))
    exact ⟨p, h4, Props.C13_in_box B hB _ ho.draws sm k pts h1 p (List.mem_of_getElem? h3)⟩
  · rintro rfl
    obtain ⟨pts, h1, -, h2⟩ := key (by norm_num)
    exact h2 ((samples_many (k := 1) hd hB h1).2 rfl).le

theorem evaluate_total {target : ℕ → Point d → Py Flt} {B : Bounds d}
    (ht : ∀ k x, InBox B x → ∃ y : ℝ, target k x = .ok (.fin y)) :
    ∀ {X : List (Point d)} (w : World d Unit), (∀ x ∈ X, InBox B x) →
      ∃ (w' : World d Unit) (ys : List ℝ), evaluate target X w = (w', .ok (ys.map Flt.fin)) ∧ ys.length = X.length
  | [], w, _ => ⟨w, [], rfl, rfl⟩
  | x :: X, w, h => by
    obtain ⟨y, hy⟩ := ht w.log.length x (h x (by simp))
    obtain ⟨w', ys, h1, h2⟩ := evaluate_total ht (X := X) { w with log := w.log ++ [x] }
      fun z hz => h z (by simp [hz])
    exact ⟨w', y :: ys, by simp [evaluate, bind_apply, query, hy, h1, pure_apply], by simp [h2]⟩

theorem loop_total' (env : Installed) (hd : 0 < d) {o : ℕ → TsOracles d} (ho : ∀ k, TsWell (o k))
    {target : ℕ → Point d → Py Flt} {B : Bounds d} (hB : ∀ i, (B i).1 ≤ (B i).2)
    (ht : ∀ k x, InBox B x → ∃ y : ℝ, target k x = .ok (.fin y)) (nY : Bool) {sm : String}
    (hsm : sm ∈ ALLOWED_SAMPLING_METHOD) {ns : ℤ} :
    ∀ (n k : ℕ) {X : List (Point d)} {Y : List ℝ} (w : World d Unit), X ≠ [] →
      X.length = Y.length →
      (2 ≤ ns → ∃ w' r, ThompsonSampling.loop env o target B nY sm ns n k X (Y.map Flt.fin) w =
        (w', .ok r)) ∧
      (ns = 1 → 0 < n → ThompsonSampling.loop env o target B nY sm ns n k X (Y.map Flt.fin) w =
        (w, .error .index))
  | 0, k, X, Y, w, _, _ => ⟨fun _ => ⟨w, _, rfl⟩, fun _ h => absurd h (lt_irrefl _)⟩
  | n + 1, k, X, Y, w, hX, hl => by
    obtain ⟨h1, h2⟩ := iteration_total env hd (ho k) hB hX hl nY hsm (ns := ns)
    constructor
    · intro hns
      obtain ⟨p, h3, h4⟩ := h1 hns
      obtain ⟨y, hy⟩ := ht w.log.length p h4
      obtain ⟨w', r, h5⟩ := (loop_total' env hd ho hB ht nY hsm n (k + 1) (X := X ++ [p])
        (Y := Y ++ [y]) { w with log := w.log ++ [p] } (by simp) (by simp [hl])).1 hns
      refine ⟨w', r, ?_⟩
      simp only [ThompsonSampling.loop, bind_apply, RunM.lift, finites_map, h3, query, hy]
      simpa using h5
    · intro hns _
      simp only [ThompsonSampling.loop, bind_apply, RunM.lift, finites_map, h2 hns]

end Verif.Lemmas
