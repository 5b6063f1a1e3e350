import Verif.Lemmas.StepPost
import Verif.Spec.Total
import Verif.Props.Sampling
import Verif.Props.Loo
import Verif.Props.Likelihood
import Verif.Props.Tp
import Verif.Props.Hyps
import Verif.Props.Normalize

/-! A step that is set up correctly does not raise. -/

namespace Verif.Lemmas

open Verif.BoCommon Verif.UtilsBo Verif.UtilsCovariance Verif.Constants Verif.BaseBo Verif.Spec
open Verif.Covariance (Inputs getKernelInverse)

variable {n d : ℕ}

/-! ### The acquisition function -/

theorem guardDiv_total {l : List ℝ} (h : ∀ x ∈ l, x ≠ 0) : Acquisition.guardDiv l = .ok () := by
  unfold Acquisition.guardDiv
  rw [if_neg]
  exact fun h0 => h 0 h0 rfl

theorem acq_total {name : String} (hname : name ∈ ALLOWED_BO_ACQ) {e : ℝ} (he : e ≠ 0)
    {m s Y : List ℝ} (hl : m.length = s.length) (hs : ∀ x ∈ s, 0 ≤ x) (hY : Y ≠ []) :
    ∃ f a, chooseFunAcquisition name (some e) = .ok f ∧ f m s Y = .ok a := by
  obtain ⟨b, hb⟩ := npMin_exists hY
  have hj : (0 : ℝ) < JITTER_ACQ := by norm_num [JITTER_ACQ]
  have g1 : Acquisition.guardDiv (s.map (· + JITTER_ACQ)) = .ok () := by
    refine guardDiv_total fun x hx => ?_
    obtain ⟨y, hy, rfl⟩ := List.mem_map.1 hx
    have := hs y hy
    exact (by linarith : (0 : ℝ) < y + JITTER_ACQ).ne'
  have g2 : Acquisition.guardDiv (s.map fun x => √(x ^ 2 + e ^ 2)) = .ok () := by
    refine guardDiv_total fun x hx => ?_
    obtain ⟨y, hy, rfl⟩ := List.mem_map.1 hx
    exact (Real.sqrt_pos.2 (by positivity)).ne'
  simp only [ALLOWED_BO_ACQ, List.mem_cons, List.not_mem_nil, or_false] at hname
  obtain rfl | rfl | rfl | rfl | rfl | rfl := hname
  · exact ⟨_, _, by simp [chooseFunAcquisition, pyAssert, ALLOWED_BO_ACQ, bind, Except.bind, pure,
      Except.pure]; rfl, by simp only [Acquisition.pi, pyAssert, hl, if_true, hb, g1, bind,
        Except.bind, pure, Except.pure]; rfl⟩
  · exact ⟨_, _, by simp [chooseFunAcquisition, pyAssert, ALLOWED_BO_ACQ, bind, Except.bind, pure,
      Except.pure]; rfl, by simp only [Acquisition.ei, pyAssert, hl, if_true, hb, g1, bind,
        Except.bind, pure, Except.pure]; rfl⟩
  · exact ⟨_, _, by simp [chooseFunAcquisition, pyAssert, ALLOWED_BO_ACQ, bind, Except.bind, pure,
      Except.pure]; rfl, by simp only [Acquisition.ucb, pyAssert, hl, if_true, bind,
        Except.bind, pure, Except.pure]; rfl⟩
  · exact ⟨_, _, by simp [chooseFunAcquisition, pyAssert, ALLOWED_BO_ACQ, bind, Except.bind, pure,
      Except.pure]; rfl, by simp only [Acquisition.aei, pyAssert, hl, if_true, hb, g1, g2, bind,
        Except.bind, pure, Except.pure]; rfl⟩
  · exact ⟨_, _, by simp [chooseFunAcquisition, pyAssert, ALLOWED_BO_ACQ, bind, Except.bind, pure,
      Except.pure]; rfl, rfl⟩
  · exact ⟨_, _, by simp [chooseFunAcquisition, pyAssert, ALLOWED_BO_ACQ, bind, Except.bind, pure,
      Except.pure]; rfl, rfl⟩

theorem batchAcq_total {name : String} (hname : name ∈ ALLOWED_BO_ACQ) {e : ℝ} (he : e ≠ 0)
    {post : List (Point d) → Py (List ℝ × List ℝ)} {Y : List ℝ} (hY : Y ≠ [])
    {pts : List (Point d)} {m s : List ℝ} (hp : post pts = .ok (m, s))
    (hl : m.length = s.length) (hs : ∀ x ∈ s, 0 ≤ x) :
    ∃ out, batchAcq name (some e) post Y pts = .ok out := by
  obtain ⟨f, a, h1, h2⟩ := acq_total hname he hl hs hY
  exact ⟨_, by simp only [batchAcq, h1, hp, h2, bind, Except.bind, pure, Except.pure]; rfl⟩

/-- A predictor that works on every list of candidates. -/
def PostTotal (post : List (Point d) → Py (List ℝ × List ℝ)) : Prop :=
  ∀ pts, ∃ m s, post pts = .ok (m, s) ∧ m.length = pts.length ∧ s.length = pts.length ∧
    ∀ x ∈ s, 0 ≤ x

theorem onePoint_total {name : String} (hname : name ∈ ALLOWED_BO_ACQ) {e : ℝ} (he : e ≠ 0)
    {post : List (Point d) → Py (List ℝ × List ℝ)} {Y : List ℝ} (hY : Y ≠ [])
    (hp : PostTotal post) (q : Point d) :
    ∃ v, onePoint (batchAcq name (some e) post Y) q = .ok (.fin v) := by
  obtain ⟨m, s, h1, h2, h3, h4⟩ := hp [q]
  obtain ⟨out, ho⟩ := batchAcq_total hname he hY h1 (h2.trans h3.symm) h4
  obtain ⟨f, m', s', a, hf, hp', ha, rfl⟩ := batchAcq_ok ho
  rw [h1] at hp'
  obtain ⟨rfl, rfl⟩ := Prod.mk.inj (Except.ok.inj hp')
  obtain ⟨hla, -⟩ := acq_row hf (h2.trans h3.symm) ha
  obtain ⟨v, rfl⟩ := List.length_eq_one_iff.1 (hla.trans h2)
  exact ⟨-10 * v, by simp [onePoint, ho, bind, Except.bind, pyIndex, pure, Except.pure]⟩

theorem inBounds_total {points : List (Point d)} {B : Bounds d} (h : ∀ p ∈ points, InBox B p) :
    checkPointsInBounds points B = .ok points := by
  have h1 : ∀ p ∈ points, ∀ i, (B i).1 ≤ p i := fun p hp i => (h p hp i).1
  have h2 : ∀ p ∈ points, ∀ i, p i ≤ (B i).2 := fun p hp i => (h p hp i).2
  simp only [checkPointsInBounds, pyAssert, if_pos h1, if_pos h2]
  rfl

theorem mapM_total {α β : Type} {f : α → Py β} {P : β → Prop} : ∀ (l : List α),
    (∀ a ∈ l, ∃ b, P b ∧ f a = .ok b) → ∃ r, l.mapM f = .ok r ∧ r.length = l.length ∧ ∀ b ∈ r, P b
  | [], _ => ⟨[], rfl, rfl, by simp⟩
  | a :: t, h => by
    obtain ⟨b, hb, e⟩ := h a (by simp)
    obtain ⟨r, e2, hl, hr⟩ := mapM_total t fun x hx => h x (by simp [hx])
    refine ⟨b :: r, ?_, by simp [hl], ?_⟩
    · rw [List.mapM_cons, e, e2]
      rfl
    · simpa using ⟨hb, hr⟩

theorem sampling_names {sm : String} (h : sm ∈ ALLOWED_SAMPLING_METHOD) :
    sm = "grid" ∨ sm = "uniform" ∨ sm = "gaussian" ∨ sm = "sobol" ∨ sm = "halton" := by
  simp only [ALLOWED_SAMPLING_METHOD, ALLOWED_INITIALIZING_METHOD_BO, List.mem_append,
    List.mem_cons, List.not_mem_nil, or_false] at h
  tauto

/-- Sampling a positive number of points works and gives some. -/
theorem samples_total (hd : 0 < d) {B : Bounds d} (hB : ∀ i, (B i).1 ≤ (B i).2) {r : Draws d}
    (hr : UnitDraws r) {sm : String} (hsm : sm ∈ ALLOWED_SAMPLING_METHOD) {ns : ℤ} (hns : 0 < ns) :
    ∃ pts, getSamples B r sm ns = .ok pts ∧ pts ≠ [] ∧ ∀ p ∈ pts, InBox B p := by
  obtain ⟨k, rfl⟩ := Int.eq_ofNat_of_zero_le hns.le
  obtain ⟨pts, h⟩ := (Props.C13_succeeds_iff hd B hB r sm k).2 (sampling_names hsm)
  refine ⟨pts, h, ?_, Props.C13_in_box B hB r hr sm k pts h⟩
  have hk : 0 < k := by simpa using hns
  by_cases hg : sm = "grid"
  · subst hg
    obtain ⟨pts', h1, h2⟩ := Props.C14_grid_count hd B hB r k
    have h' : getSamples B r "grid" (k : ℤ) = .ok pts := h
    rw [h1] at h'
    obtain rfl := Except.ok.inj h'
    rintro rfl
    rw [List.length_nil] at h2
    exact (pow_pos hk d).ne h2
  · have := (Props.C14_count_partial B r sm hg k pts h).1
    rintro rfl
    simp at this
    omega

theorem optimizeAcq_total (hd : 0 < d) {bo : BaseBO d} (hB : ∀ i, (bo.range_X i).1 ≤ (bo.range_X i).2)
    (hbo : bo.str_optimizer_method_bo ∈ ALLOWED_OPTIMIZER_METHOD_BO) {o : Oracles d}
    (ho : AcqOptimizes o bo.range_X) {f : Point d → Py Flt} (hf : ∀ q, ∃ v, f q = .ok (.fin v))
    {sm : String} (hsm : sm ∈ ALLOWED_SAMPLING_METHOD) {ns : ℤ} (hns : 0 < ns) :
    ∃ p pts, optimizeAcq bo o f sm ns = .ok (p, pts) ∧ InBox bo.range_X p ∧
      ∀ q ∈ pts, InBox bo.range_X q := by
  have hc : ∃ pts, candidates bo o f sm ns = .ok pts ∧ pts ≠ [] ∧
      ∀ q ∈ pts, InBox bo.range_X q := by
    simp only [ALLOWED_OPTIMIZER_METHOD_BO, List.mem_cons, List.not_mem_nil, or_false] at hbo
    unfold candidates
    obtain h | h | h := hbo
    · obtain ⟨init, h1, h2, h3⟩ := samples_total hd hB ho.draws hsm hns
      obtain ⟨pts, h4, h5, h6⟩ := mapM_total (f := fun x => o.lbfgsb f x bo.range_X)
        (P := InBox bo.range_X) init fun a ha => ho.lbfgsb f a (h3 a ha) fun q _ => hf q
      refine ⟨pts, ?_, ?_, h6⟩
      · simp only [h, if_true, h1, bind, Except.bind]
        exact h4
      · rintro rfl
        exact h2 (List.length_eq_zero_iff.1 h5.symm)
    · obtain ⟨q, h1, h2⟩ := ho.direct f fun q _ => hf q
      refine ⟨[q], ?_, by simp, by simpa using h1⟩
      simp only [h, String.reduceEq, if_false, if_true, h2, bind, Except.bind, pure, Except.pure]
    · obtain ⟨init, h1, h2, h3⟩ := samples_total hd hB ho.draws hsm (ns := 1) (by norm_num)
      obtain ⟨x0, t, rfl⟩ := List.exists_cons_of_ne_nil h2
      obtain ⟨q, h4, h5⟩ := ho.cma f x0
        ((∑ i, ((bo.range_X i).2 - (bo.range_X i).1)) / (d : ℝ) / 4) (h3 x0 (by simp))
        fun q _ => hf q
      refine ⟨[q], ?_, by simp, by simpa using h4⟩
      simp only [h, String.reduceEq, if_false, if_true, h1, hd.ne', pyIndex,
        List.getElem?_cons_zero, h5, bind, Except.bind, pure, Except.pure]
  obtain ⟨pts, h1, h2, h3⟩ := hc
  choose g hg using hf
  obtain ⟨i, x, h4, h5⟩ | ⟨-, h4⟩ := Props.C03_best_by_evaluation pts f (fun q => .fin (g q))
    fun q _ => hg q
  · refine ⟨x, pts, ?_, ?_, h3⟩
    · simp only [optimizeAcq, h1, pyAssert, h2, ne_eq, not_false_iff, if_true, h4, pyIndex,
        List.getElem?_cons_zero, bind, Except.bind, pure, Except.pure]
    · have := List.mem_of_getElem? h5.1
      obtain ⟨q, hq, e⟩ := List.mem_map.1 this
      obtain rfl := (Prod.mk.inj e).1
      exact h3 q hq
  · obtain ⟨q, t, rfl⟩ := List.exists_cons_of_ne_nil h2
    exact absurd (by trivial) (h4 q (by simp))

theorem normalize_total {Y : List ℝ} (hY : Y ≠ []) :
    ∃ Y', normalizeMinMax Y = .ok Y' ∧ Y'.length = Y.length := by
  by_cases h : ∃ a ∈ Y, ∃ b ∈ Y, a ≠ b
  · obtain ⟨out, h1, h2, -⟩ := Props.C01_normalize_range_order Y h
    exact ⟨out, h1, h2⟩
  · push Not at h
    exact ⟨Y, Props.C01_normalize_constant Y hY h, rfl⟩

theorem column_total {Y : List ℝ} (h : n = Y.length) : ∃ v, column n Y = .ok v := by
  unfold column
  rw [dif_pos h]
  exact ⟨_, rfl⟩

/-! ### The fit of a Gaussian process -/

theorem fit_restore {name : String} (hb : name ∈ baseNames) {ard : Bool} {v : List Flt}
    (hv : FitVector (scaleCount ard d) v) :
    ∃ h s, ∃ l : Fin d → ℝ, restoreHyps name v true ard true = .ok h ∧ Describes h GP_NOISE s l := by
  obtain ⟨s, ls, rfl, hl, hs, hne⟩ := hv
  cases ard
  · obtain ⟨a, rfl⟩ := List.length_eq_one_iff.1 hl
    refine ⟨_, s, fun _ => a, Props.restore_vec_iso hb true GP_NOISE s a, ?_⟩
    have ha : a ≠ 0 := hne a (by simp)
    exact ⟨rfl, rfl, .inr ⟨a, ha, fun _ => rfl, rfl⟩, fun _ => ha⟩
  · have hl : ls.length = d := hl
    subst hl
    refine ⟨_, s, ls.get, Props.restore_vec hb true GP_NOISE s ls, rfl, rfl, .inl ?_, ?_⟩
    · have : ls.map Flt.fin = List.ofFn fun k => Flt.fin (ls.get k) := by
        conv_lhs => rw [← List.ofFn_get ls]
        rw [List.map_ofFn]
        rfl
      simp only [this]
    · exact fun k => hne _ (List.get_mem ls k)

/-- A dictionary such as a fit leaves behind. -/
def GoodHyps (name : String) (ard : Bool) (d : ℕ) (h : HypDict) : Prop :=
  ∃ v s, ∃ l : Fin d → ℝ, FitVector (scaleCount ard d) v ∧ convertHyps name h true true = .ok v ∧
    restoreHyps name v true ard true = .ok h ∧ Describes h GP_NOISE s l

theorem vec_suits {name : String} (hb : name ∈ baseNames) (X : Fin n → Point d) :
    Suits name name (.vec X : Inputs n d) := ⟨hb, .inl ⟨rfl, X, rfl⟩⟩

theorem start_vector {name : String} (hb : name ∈ baseNames) (ard : Bool) :
    ∃ h v, getHyps name d true ard = .ok h ∧ convertHyps name h true true = .ok v ∧
      FitVector (scaleCount ard d) v := by
  have h1 := base_allowed' hb
  have h2 : name ∈ getListFirst := Props.listFirst_eq ▸ h1
  cases ard
  · refine ⟨{ noise := some (.flt (.fin GP_NOISE)), signal := some (.flt (.fin 1)),
              lengthscales := some (.flt (.fin 1)) }, [.fin 1, .fin 1], ?_, ?_, 1, [1], rfl, rfl,
      one_ne_zero, by simp⟩
    · simp [getHyps, pyAssert, h1, h2, bind, Except.bind, pure, Except.pure]
    · simp [convertHyps, pyAssert, h1, h2, bind, Except.bind, pure, Except.pure, getKey,
        HVal.scalar]
  · refine ⟨{ noise := some (.flt (.fin GP_NOISE)), signal := some (.flt (.fin 1)),
              lengthscales := some (.arr (List.replicate d (.fin 1))) },
      .fin 1 :: List.replicate d (.fin 1), ?_, ?_, 1, List.replicate d 1, by simp,
      by simp [scaleCount], one_ne_zero, ?_⟩
    · simp [getHyps, pyAssert, h1, h2, bind, Except.bind, pure, Except.pure]
    · simp [convertHyps, pyAssert, h1, h2, bind, Except.bind, pure, Except.pure, getKey,
        HVal.scalar]
    · intro a ha
      obtain ⟨-, rfl⟩ := List.mem_replicate.1 ha
      exact one_ne_zero

/-- The likelihood with its gradient has a value. -/
theorem negLogMl_grad_total {name : String} (hb : name ∈ baseNames) (hn : n ≠ 0)
    (X : Fin n → Point d) (Y μ : Fin n → ℝ) {ard : Bool} {v : List Flt}
    (hv : FitVector (scaleCount ard d) v) (ug : Bool) :
    ∃ y g, Gp.negLogMl (.vec X) Y v name μ ard true true ug = .ok (y, g) ∧ (ug = true → g ≠ none) := by
  cases ug
  · obtain ⟨h, s, l, h1, h2⟩ := fit_restore (d := d) hb hv
    obtain ⟨L, -, h3⟩ := Props.C36_cholesky_path (vec_suits hb X) h1 h2 hn Y μ
    exact ⟨_, _, h3, by simp⟩
  · obtain ⟨s, ls, rfl, hl, hs, hne⟩ := hv
    cases ard
    · obtain ⟨a, rfl⟩ := List.length_eq_one_iff.1 hl
      obtain ⟨h, y, g, K, P, -, h2, -⟩ := Props.C37_iso_partial hb hn X Y μ true GP_NOISE s
        (fun _ => rfl) hs a (hne a (by simp))
      exact ⟨y, some g, h2, by simp⟩
    · have hl : ls.length = d := hl
      subst hl
      obtain ⟨h, y, g, K, P, -, h2, -⟩ := Props.C37_ard_partial hb hn X Y μ true GP_NOISE s
        (fun _ => rfl) hs ls.get fun k => hne _ (List.get_mem ls k)
      rw [List.ofFn_get] at h2
      exact ⟨y, some g, h2, by simp⟩

theorem loocv_total {name : String} (hb : name ∈ baseNames) (hn : n ≠ 0)
    (X : Fin n → Point d) (Y μ : Fin n → ℝ) {v : List Flt} (hv : FitVector d v) :
    ∃ y, Gp.negLogPseudoLLoocv (.vec X) Y v name μ true = .ok y := by
  obtain ⟨m, rfl⟩ := Nat.exists_eq_succ_of_ne_zero hn
  obtain ⟨h, s, l, h1, h2⟩ := fit_restore (d := d) (ard := true) hb hv
  obtain ⟨mu, var, -, h3⟩ := Props.C38_leave_one_out_partial (vec_suits hb X) h1 h2 Y
  exact ⟨_, h3⟩

theorem gpFit_total {name : String} (hb : name ∈ baseNames) (hn : n ≠ 0) (X : Fin n → Point d)
    (Y : Fin n → ℝ) {prior : Gp.PriorMu d} (hprior : PriorTotal prior) {method ms : String}
    (hm : method ∈ ALLOWED_OPTIMIZER_METHOD_GP) (hms : ms ∈ ALLOWED_MODELSELECTION_METHOD)
    {ard : Bool} (hard : ms = "ml" ∨ ard = true ∨ d = 1) {fit : Gp.Minimize}
    (hfit : Minimizes fit (FitVector (scaleCount ard d))) :
    ∃ K P h, Gp.getOptimizedKernel fit (.vec X) Y prior name method ms ard = .ok (K, P, h) ∧
      GoodHyps name ard d h ∧ getKernelInverse (.vec X) h name true false = .ok (K, P, none) := by
  have h1 := base_allowed' hb
  have h2 := base_allowed hb
  obtain ⟨μ, hμ⟩ := hprior n X
  obtain ⟨h0, v0, e1, e2, hv0⟩ := start_vector (d := d) hb ard
  have tail : ∀ v, FitVector (scaleCount ard d) v → ∃ h s, ∃ l : Fin d → ℝ,
      restoreHyps name v true ard true = .ok h ∧ (validateHypsDict h name d).2 = .ok h ∧
      getKernelInverse (.vec X) h name true false = .ok (noisyGram name GP_NOISE s l (.vec X),
        (noisyGram name GP_NOISE s l (.vec X))⁻¹, none) ∧ GoodHyps name ard d h := by
    intro v hv
    obtain ⟨h, s, l, e3, e4⟩ := fit_restore (d := d) hb hv
    exact ⟨h, s, l, e3, validate_describes e4 h1, getKernelInverse_ok (vec_suits hb X) e4 true,
      v, s, l, hv, Props.C19_vector_round_trip name v true ard true _ h e3, e3, e4⟩
  obtain ⟨ranges, -, -, e5, -⟩ := Props.C20_ranges_aligned name h1 d true ard true
  have hc := checkStrCov_suits (vec_suits hb X)
  have hb' : name ∈ ALLOWED_COV_BASE := hb
  -- whichever objective and gradient flag, the minimiser delivers
  have key : ∀ (mt : String) bounds, ∃ v, FitVector (scaleCount ard d) v ∧
      fit mt (if ms = "ml" then fun hyps => Gp.negLogMl (.vec X) Y hyps name μ ard true true
          (decide (method ≠ "Nelder-Mead"))
        else fun hyps => do
          let v ← Gp.negLogPseudoLLoocv (.vec X) Y hyps name μ true
          return (v, none)) v0 bounds
        (if ms = "ml" then decide (method ≠ "Nelder-Mead") else false) = .ok v := by
    intro mt bounds
    refine hfit mt _ v0 bounds _ hv0 fun v hv => ?_
    by_cases hml : ms = "ml"
    · simp only [hml, if_true]
      exact negLogMl_grad_total hb hn X Y μ hv _
    · simp only [hml, if_false]
      have hv' : FitVector d v := by
        rcases hard.resolve_left hml with h | h
        · subst h; exact hv
        · subst h; cases ard <;> exact hv
      obtain ⟨y, hy⟩ := loocv_total hb hn X Y μ hv'
      exact ⟨y, none, by simp [hy, bind, Except.bind, pure, Except.pure], by simp⟩
  unfold Gp.getOptimizedKernel
  have hmn : method = "BFGS" ∨ method = "L-BFGS-B" ∨ method = "Nelder-Mead" ∨
      method = "SLSQP" ∨ method = "SLSQP-Bounded" := by
    simpa [ALLOWED_OPTIMIZER_METHOD_GP] using hm
  simp only [hc, pyAssert, hm, hms, hb', e1, e2, hμ, FIX_GP_NOISE, bind, Except.bind, if_true]
  simp only [bind, Except.bind] at key
  rcases hmn with rfl | rfl | rfl | rfl | rfl
  · obtain ⟨v, hv, hk⟩ := key "BFGS" none
    simp at hk
    simp [hk, e5]
    obtain ⟨h, s, l, e3, e4, e6, e7⟩ := tail v hv
    exact ⟨_, _, h, by simp only [e3, e4, e6]; rfl, e7, e6⟩
  · obtain ⟨v, hv, hk⟩ := key "L-BFGS-B" (some ranges)
    simp at hk
    simp [hk, e5]
    obtain ⟨h, s, l, e3, e4, e6, e7⟩ := tail v hv
    exact ⟨_, _, h, by simp only [e3, e4, e6]; rfl, e7, e6⟩
  · obtain ⟨v, hv, hk⟩ := key "Nelder-Mead" none
    simp at hk
    simp [hk, e5]
    obtain ⟨h, s, l, e3, e4, e6, e7⟩ := tail v hv
    exact ⟨_, _, h, by simp only [e3, e4, e6]; rfl, e7, e6⟩
  · obtain ⟨v, hv, hk⟩ := key "SLSQP" none
    simp at hk
    simp [hk, e5]
    obtain ⟨h, s, l, e3, e4, e6, e7⟩ := tail v hv
    exact ⟨_, _, h, by simp only [e3, e4, e6]; rfl, e7, e6⟩
  · obtain ⟨v, hv, hk⟩ := key "SLSQP" (some ranges)
    simp at hk
    simp [hk, e5]
    obtain ⟨h, s, l, e3, e4, e6, e7⟩ := tail v hv
    exact ⟨_, _, h, by simp only [e3, e4, e6]; rfl, e7, e6⟩

theorem good_noise {name : String} {ard : Bool} {h : HypDict} (hg : GoodHyps name ard d h) :
    noiseArg h = .ok (some GP_NOISE) := by
  obtain ⟨v, s, l, -, -, -, hd⟩ := hg
  simp [noiseArg, hd.1, Covariance.finite, bind, Except.bind, pure, Except.pure]

theorem gpPost_total {bo : BoWGp.BOwGP d} (hb : bo.str_cov ∈ baseNames)
    (hprior : PriorTotal bo.prior_mu) (X : Fin n → Point d) (Y : Fin n → ℝ) {fit : Fit n} {ard : Bool}
    (hg : GoodHyps bo.str_cov ard d fit.2.2) : PostTotal (gpPost bo X Y fit) := by
  obtain ⟨v, s, l, -, -, -, hd⟩ := hg
  intro pts
  obtain ⟨μ, hμ⟩ := hprior n X
  obtain ⟨μs, hμs⟩ := hprior pts.length pts.get
  obtain ⟨mu, sd, S, this, hsd⟩ : ∃ mu sd S, Gp.predictWithCov (.vec X) Y (.vec pts.get) fit.1
      fit.2.1 fit.2.2 bo.str_cov bo.prior_mu = .ok (mu, sd, S) ∧ ∀ i, 0 ≤ sd i :=
    ⟨_, _, _, predictWithCov_ok (vec_suits hb X) (vec_suits hb pts.get) hd Y fit.1 fit.2.1 hμ hμs,
      fun i => Real.sqrt_nonneg _⟩
  refine ⟨List.ofFn mu, List.ofFn sd, ?_, List.length_ofFn, List.length_ofFn, ?_⟩
  · unfold gpPost
    rw [this]
    rfl
  · intro x hx
    obtain ⟨i, rfl⟩ := List.mem_ofFn.1 hx
    exact hsd i

/-- A state in which every stored dictionary came from a fit. -/
structure GoodState (name : String) (ard : Bool) (d : ℕ) (st : BoWGp.GpState) : Prop where
  hist : ∀ e ∈ st.historical_hyps, ∃ h, e = some h ∧ GoodHyps name ard d h
  flag : st.is_optimize_hyps = false → st.historical_hyps ≠ []

theorem finites_fin (l : List ℝ) : finites (l.map Flt.fin) = .ok l := by
  induction l with
  | nil => rfl
  | cons a t ih =>
    rw [List.map_cons]
    unfold finites
    simp only [ih]
    rfl

theorem checkHistory_total {name : String} {ard : Bool} {st : BoWGp.GpState}
    (hst : GoodState name ard d st) {h : HypDict} (hg : GoodHyps name ard d h) :
    ∃ b, BoWGp.checkHistory st.historical_hyps h name true = .ok b := by
  unfold BoWGp.checkHistory
  cases hl : st.historical_hyps.getLast? with
  | none => exact ⟨false, rfl⟩
  | some e =>
    obtain ⟨h', rfl, hg'⟩ := hst.hist e (List.mem_of_getLast? hl)
    obtain ⟨_, _, _, ⟨a, as, rfl, hla, -, -⟩, c1, -⟩ := hg
    obtain ⟨_, _, _, ⟨b, bs, rfl, hlb, -, -⟩, c2, -⟩ := hg'
    simp only [checkHypsConvergence, List.getLast?_singleton, c1, c2, finites_fin, bind,
      Except.bind, List.length_cons, hla, hlb, ne_eq, not_true_eq_false, if_false]
    split <;> exact ⟨_, rfl⟩

theorem combinedFit_values {get : String → Py (Fit n)} {nll : Fit n → Py Flt} {f1 f2 : Fit n}
    {y1 y2 : ℝ} (h1 : get "BFGS" = .ok f1) (h2 : get "Nelder-Mead" = .ok f2)
    (v1 : nll f1 = .ok (.fin y1)) (v2 : nll f2 = .ok (.fin y2)) :
    BoWGp.combinedFit get nll = .ok (some (if Flt.fin y2 < Flt.fin y1 then f2 else f1)) := by
  have hp : Flt.fin y1 < Flt.pinf := by trivial
  by_cases hc : Flt.fin y2 < Flt.fin y1 <;>
    simp only [BoWGp.combinedFit, List.foldlM_cons, List.foldlM_nil, h1, h2, v1, v2, bind,
      Except.bind, pure, Except.pure, hp, hc, if_true, if_false]

theorem fitSurrogate_total {bo : BoWGp.BOwGP d} (hb : bo.str_cov ∈ baseNames) (hn : n ≠ 0)
    (X : Fin n → Point d) (Y : Fin n → ℝ) (hprior : PriorTotal bo.prior_mu)
    (hm : bo.str_optimizer_method_gp ∈ ALLOWED_OPTIMIZER_METHOD_GP)
    (hms : bo.str_modelselection_method ∈ ALLOWED_MODELSELECTION_METHOD)
    (hard : bo.str_modelselection_method = "ml" ∨ bo.use_ard = true ∨ d = 1) {o : Oracles d}
    (hfit : Minimizes o.fitHyps (FitVector (scaleCount bo.use_ard d))) {mlm : String}
    (hmlm : mlm ∈ ALLOWED_MLM_METHOD) {st : BoWGp.GpState}
    (hst : GoodState bo.str_cov bo.use_ard d st) (t : ℕ) :
    ∃ st1 fit, BoWGp.fitSurrogate bo o (.vec X) Y mlm (st, t) = ((st1, t), .ok (some fit)) ∧
      GoodHyps bo.str_cov bo.use_ard d fit.2.2 ∧ st1.historical_hyps = st.historical_hyps := by
  have hk := fun m hm => gpFit_total (n := n) hb hn X Y hprior (method := m) hm hms hard hfit
  simp only [ALLOWED_MLM_METHOD, List.mem_cons, List.not_mem_nil, or_false] at hmlm
  unfold BoWGp.fitSurrogate
  obtain rfl | rfl | rfl := hmlm
  · obtain ⟨K, P, h, e, hg, -⟩ := hk _ hm
    refine ⟨st, (K, P, h), ?_, hg, rfl⟩
    simp only [if_true]
    rw [e]
    rfl
  · obtain ⟨μ, hμ⟩ := hprior n X
    obtain ⟨K1, P1, h1, e1, hg1, -⟩ := hk "BFGS" (by decide)
    obtain ⟨K2, P2, h2, e2, hg2, -⟩ := hk "Nelder-Mead" (by decide)
    obtain ⟨v1, _, _, hv1, c1, -⟩ := id hg1
    obtain ⟨v2, _, _, hv2, c2, -⟩ := id hg2
    obtain ⟨y1, g1, n1, -⟩ := negLogMl_grad_total hb hn X Y μ hv1 false
    obtain ⟨y2, g2, n2, -⟩ := negLogMl_grad_total hb hn X Y μ hv2 false
    refine ⟨st, if Flt.fin y2 < Flt.fin y1 then (K2, P2, h2) else (K1, P1, h1), ?_, ?_, rfl⟩
    · simp only [String.reduceEq, if_false, if_true]
      rw [OptM.bind_of_ok (s1 := (st, t)) (a := μ) (by rw [hμ]; rfl)]
      refine congrArg (Prod.mk (st, t)) (combinedFit_values e1 e2 ?_ ?_)
      · simp only [FIX_GP_NOISE, c1, n1, bind, Except.bind, pure, Except.pure]
      · simp only [FIX_GP_NOISE, c2, n2, bind, Except.bind, pure, Except.pure]
    · split
      · exact hg2
      · exact hg1
  · simp only [String.reduceEq, if_false, if_true]
    rw [OptM.bind_of_ok (s1 := (st, t)) (a := st) rfl]
    by_cases hf : st.is_optimize_hyps
    · obtain ⟨K, P, h, e, hg, -⟩ := hk _ hm
      obtain ⟨b, hb'⟩ := checkHistory_total hst hg
      refine ⟨{ st with is_optimize_hyps := !b }, (K, P, h), ?_, hg, rfl⟩
      simp only [hf, if_true]
      rw [OptM.bind_of_ok (s1 := (st, t)) (a := (K, P, h)) (by rw [e]; rfl)]
      rw [OptM.bind_of_ok (s1 := (st, t)) (a := b) (by rw [← hb']; rfl)]
      rfl
    · have hne := hst.flag (by simpa using hf)
      obtain ⟨e, hl⟩ : ∃ e, st.historical_hyps.getLast? = some e :=
        ⟨_, List.getLast?_eq_some_getLast hne⟩
      obtain ⟨h, rfl, hg⟩ := hst.hist e (List.mem_of_getLast? hl)
      obtain ⟨v, s, l, -, -, -, hd⟩ := id hg
      obtain ⟨K, P, hk⟩ : ∃ K P, getKernelInverse (.vec X) h bo.str_cov true false =
          .ok (K, P, none) := ⟨_, _, getKernelInverse_ok (vec_suits hb X) hd true⟩
      refine ⟨st, (K, P, h), ?_, hg, rfl⟩
      rw [if_neg hf]
      rw [OptM.bind_of_ok (s1 := (st, t)) (a := some h) (by simp [pyLast, hl, OptM.lift])]
      dsimp only
      rw [OptM.bind_of_ok (s1 := (st, t)) (a := (K, P, none))
        (by simp only [FIX_GP_NOISE, OptM.lift, hk])]
      rfl

theorem good_after {name : String} {ard : Bool} {st st1 : BoWGp.GpState}
    (hst : GoodState name ard d st) (h1 : st1.historical_hyps = st.historical_hyps) {h : HypDict}
    (hg : GoodHyps name ard d h) :
    GoodState name ard d { st1 with historical_hyps := st1.historical_hyps ++ [some h] } := by
  refine ⟨fun e he => ?_, by simp⟩
  rw [h1] at he
  rcases List.mem_append.1 he with he | he
  · exact hst.hist e he
  · exact ⟨h, by simpa using he, hg⟩

theorem nextInBounds_total {p : Point d} {B : Bounds d} (h : InBox B p) :
    (do pyIndex (← checkPointsInBounds [p] B) 0 : Py (Point d)) = .ok p := by
  rw [inBounds_total (by simpa using h)]
  rfl

theorem lift_bind {σ α β : Type} {p : Py α} {a : α} {f : α → OptM σ β} {s : σ × ℕ}
    (h : p = .ok a) : (OptM.lift p >>= f) s = f a s :=
  OptM.bind_of_ok (by rw [h]; rfl)

theorem now_bind {σ β : Type} {c : ℕ → ℝ} {f : ℝ → OptM σ β} {s : σ} {t : ℕ} :
    (OptM.now c >>= f) (s, t) = f (c t) (s, t + 1) := rfl

theorem assert_true {p : Prop} [Decidable p] (h : p) : pyAssert p = .ok () := by
  simp [pyAssert, h]

theorem gp_optimize_total (hd : 0 < d) {bo : BoWGp.BOwGP d} (hb : bo.str_cov ∈ baseNames)
    (hacq : bo.str_acq ∈ ALLOWED_BO_ACQ)
    (hB : ∀ i, (bo.range_X i).1 ≤ (bo.range_X i).2)
    (hbo : bo.str_optimizer_method_bo ∈ ALLOWED_OPTIMIZER_METHOD_BO) (hn : n ≠ 0)
    (X : Fin n → Point d) {Y : List ℝ} (hY : n = Y.length) (hprior : PriorTotal bo.prior_mu)
    (hm : bo.str_optimizer_method_gp ∈ ALLOWED_OPTIMIZER_METHOD_GP)
    (hms : bo.str_modelselection_method ∈ ALLOWED_MODELSELECTION_METHOD)
    (hard : bo.str_modelselection_method = "ml" ∨ bo.use_ard = true ∨ d = 1) {o : Oracles d}
    (hfit : Minimizes o.fitHyps (FitVector (scaleCount bo.use_ard d)))
    (ho : AcqOptimizes o bo.range_X) (clock : ℕ → ℝ) {sm : String}
    (hsm : sm ∈ ALLOWED_SAMPLING_METHOD) {ns : ℤ} (hns : 0 < ns) {mlm : String}
    (hmlm : mlm ∈ ALLOWED_MLM_METHOD) {st : BoWGp.GpState}
    (hst : GoodState bo.str_cov bo.use_ard d st) (t : ℕ) :
    ∃ st' p info, BoWGp.optimize bo o clock (.vec X) Y sm ns mlm (st, t) =
        ((st', t + 6), .ok (p, info)) ∧ GoodState bo.str_cov bo.use_ard d st' := by
  have hYne : Y ≠ [] := by rintro rfl; exact hn hY
  obtain ⟨Y', hY', hl⟩ : ∃ Y', (if bo.normalize_Y = true ∧ mlm ≠ "converged" then
      normalizeMinMax Y else .ok Y) = .ok Y' ∧ Y'.length = Y.length := by
    split
    · exact normalize_total hYne
    · exact ⟨Y, rfl, rfl⟩
  obtain ⟨c1, hc1⟩ := column_total hY
  obtain ⟨Yt, hc2⟩ := column_total (hY.trans hl.symm)
  obtain ⟨st1, fit, hs, hg, hh⟩ := fitSurrogate_total hb hn X Yt hprior hm hms hard hfit hmlm hst
    (t + 2)
  have hneg := gp_negAcq bo X Yt fit (good_noise hg)
  have hp := gpPost_total hb hprior X Yt hg
  have hne : List.ofFn Yt ≠ [] := by simpa using hn
  have hnz : GP_NOISE ≠ 0 := by norm_num [GP_NOISE]
  obtain ⟨p, pts, ha, hpb, hptsb⟩ := optimizeAcq_total (bo := bo.toBaseBO) hd hB hbo ho
    (onePoint_total hacq hnz hne hp) hsm hns
  obtain ⟨m, s, q1, q2, q3, q4⟩ := hp pts
  obtain ⟨acqs, hacqs⟩ := batchAcq_total hacq hnz hne q1 (q2.trans q3.symm) q4
  rw [← hneg] at ha hacqs
  refine ⟨{ st1 with historical_hyps := st1.historical_hyps ++ [some fit.2.2] }, p,
    { next_points := pts
      acquisitions := acqs
      Y_original := Y
      Y_normalized := Y'
      fit := some fit
      time_surrogate := clock (t + 2) - clock (t + 1)
      time_acq := clock (t + 4) - clock (t + 3)
      time_overall := clock (t + 5) - clock t }, ?_, good_after hst hh hg⟩
  unfold BoWGp.optimize
  have r0 : (Inputs.vec X : Inputs n d).rank = 2 := rfl
  rw [lift_bind (assert_true r0), lift_bind hc1, lift_bind (assert_true hns),
    lift_bind (assert_true hsm), lift_bind (assert_true hmlm), now_bind, lift_bind hY',
    lift_bind hc2, now_bind, OptM.bind_of_ok hs,
    OptM.bind_of_ok (s1 := ({ st1 with historical_hyps :=
      st1.historical_hyps ++ [some fit.2.2] }, t + 2)) (a := ()) rfl, now_bind, now_bind,
    lift_bind ha]
  dsimp only
  rw [lift_bind (nextInBounds_total hpb), lift_bind (inBounds_total hptsb), now_bind,
    lift_bind hacqs, now_bind]
  rfl

end Verif.Lemmas
