import Verif.Lemmas.HypSearch

/-! C133: the objective of the search for hyperparameters. -/

namespace Verif.Props

open Verif.Spec Verif.Covariance Verif.UtilsCovariance Verif.Constants Verif.Lemmas Verif.Gp
open Matrix
open scoped Topology

variable {n d : ℕ}

/-- C133, marginal likelihood: whatever data (repeated inputs included), the negative log
marginal likelihood has a value at every vector without zero entries, and this value depends
continuously on the vector. With and without Cholesky factor; for plain inputs also when the
gradient is computed along. -/
theorem C133_ml_continuous {name base : String} {X : Inputs n d} (hX : Suits name base X)
    (hn : n ≠ 0) (Y μ : Fin n → ℝ) (ard fix chol ug : Bool)
    (hug : ug = true → chol = true → ∃ x, X = .vec x) :
    ContinuousOnVectors (N := vectorLength true ard fix d) Prod.fst
      (fun v => negLogMl X Y v name μ ard fix chol ug) {v | ∀ i, v i ≠ 0} := by
  have hr := restore_ofFn (d := d) (suits_allowed hX) true ard fix
  have hd : ∀ v : Fin (vectorLength true ard fix d) → ℝ, (∀ i, v i ≠ 0) → _ := fun v hv =>
    vecDict_describes (d := d) (gp := true) (ard := ard) (fix := fix) (w := extend v)
      fun k _ => extend_ne_zero hv k
  have hc := vecGram_continuousOn (N := vectorLength true ard fix d) base X true ard fix
  cases chol
  · refine ⟨fun v => nllExact (vecGram base X true ard fix v) (Y - μ),
      nllExact_continuousOn hc (fun v _ => vecGram_posDef ..) _, fun v hv => ?_⟩
    exact ⟨_, negLogMl_inverse_ok hX (hr v) (hd v hv) hn Y μ ug, rfl⟩
  · have hex : ∀ v : Fin (vectorLength true ard fix d) → ℝ, ∃ L,
        IsCholesky (vecGram base X true ard fix v) L := fun v =>
      let ⟨L, _, hL⟩ := spCholesky_posDef (vecGram_posDef base X true ard fix v)
      ⟨L, hL⟩
    choose L hL using hex
    refine ⟨fun v => nllChol (vecGram base X true ard fix v) (L v) (Y - μ),
      nllChol_continuousOn hc (fun v _ => vecGram_posDef ..) (fun v _ => hL v) _, fun v hv => ?_⟩
    cases ug
    · obtain ⟨M, hM, he⟩ := negLogMl_chol_ok hX (hr v) (hd v hv) hn Y μ
      refine ⟨_, he, ?_⟩
      rw [cholesky_unique hM (hL v)]
      rfl
    · obtain ⟨x, rfl⟩ := hug rfl rfl
      obtain ⟨hb, ⟨rfl, -⟩ | ⟨-, p, z, -, hz⟩⟩ := hX
      swap
      · cases hz
      have hs := extend_ne_zero hv (signalPlace true fix)
      obtain ⟨G, hG⟩ : ∃ G, gradCovMain name (.vec x) (.vec x)
          (vecDict d true ard fix (extend v)) fix = .ok G := by
        cases ard
        · exact ⟨_, gradCovMain_iso hb (hd v hv) hs rfl x fix⟩
        · exact ⟨_, gradCovMain_ard hb (hd v hv) hs
            (by simp [vecDict, vecScale, List.map_ofFn, Function.comp_def]) x fix⟩
      obtain ⟨M, hM, he⟩ := negLogMl_chol_grad_ok hb x (hr v) (hd v hv) hn Y μ hG
      refine ⟨_, he, ?_⟩
      rw [cholesky_unique hM (hL v)]
      rfl

/-- C133, marginal likelihood: within the bounds the package passes to the optimiser there is a
best vector. -/
theorem C133_ml_best {name base : String} {X : Inputs n d} (hX : Suits name base X)
    (hn : n ≠ 0) (Y μ : Fin n → ℝ) (ard fix chol ug : Bool)
    (hug : ug = true → chol = true → ∃ x, X = .vec x) :
    ∃ r, getRangeHyps name d true ard fix = .ok r ∧
      HasBest Prod.fst (fun v => negLogMl X Y v name μ ard fix chol ug) r := by
  obtain ⟨r, h1, h2, h3, -⟩ := ranges_positive (d := d) (suits_allowed hX) true ard fix
  exact ⟨r, h1, best_of_continuous (C133_ml_continuous hX hn Y μ ard fix chol ug hug) h2
    (fun p hp => (h3 p hp).2) fun v hv i => (within_nonzero (fun p hp => (h3 p hp).1) hv i).ne'⟩

/-- C133, marginal likelihood: the value is at least half the logarithm of 2π times the
variance that noise and jitter put on the diagonal. So no vector, within bounds or not, drives it
to minus infinity, be inputs repeated or responses equal to the prior mean. -/
theorem C133_ml_bounded {name base : String} {X : Inputs n d} (hX : Suits name base X)
    (hn : n ≠ 0) (Y μ : Fin n → ℝ) {ard fix chol ug : Bool} {v : List Flt} {h : HypDict}
    (hr : restoreHyps name v true ard fix = .ok h) {σ s : ℝ} {l : Fin d → ℝ}
    (hd : Describes h σ s l) {y : ℝ} {g : Option (List ℝ)}
    (hy : negLogMl X Y v name μ ard fix chol ug = .ok (y, g)) :
    1 / 2 * Real.log (2 * Real.pi * (σ ^ 2 + 1 / 100000)) ≤ y := by
  have hp := noisyGram_posDef base σ s l X
  have hc : 0 < σ ^ 2 + 1 / 100000 := by positivity
  cases chol
  · rw [negLogMl_inverse_ok hX hr hd hn Y μ ug] at hy
    obtain rfl : _ = y := congrArg Prod.fst (Except.ok.inj hy)
    exact nllExact_ge hp hn hc (noisyGram_ge base σ s l X) _
  · obtain ⟨L, hL, he⟩ := negLogMl_chol_ok hX hr hd hn Y μ
    rw [negLogMl_without hy] at he
    obtain rfl : y = _ := congrArg Prod.fst (Except.ok.inj he)
    exact nllChol_ge hp hL hn hc (noisyGram_ge base σ s l X) _

/-! ### Leave one out -/

theorem loocv_value {name base : String} {X : Inputs n d} (hX : Suits name base X)
    (hn : n ≠ 0) (Y μ : Fin n → ℝ) {fix : Bool} {v : List Flt} {h : HypDict}
    (hr : restoreHyps name v true true fix = .ok h) {σ s : ℝ} {l : Fin d → ℝ}
    (hd : Describes h σ s l) :
    negLogPseudoLLoocv X Y v name μ fix =
      .ok (-(∑ i, loocvTerm (noisyGram base σ s l X)⁻¹ Y i) / n) := by
  have e : ∀ (f : Fin n → ℝ), (List.finRange n).foldl (fun a i => a + f i) 0 = ∑ i, f i := by
    intro f
    rw [← List.foldl_map, ← List.sum_eq_foldl, Fin.sum_univ_def]
  simp only [negLogPseudoLLoocv, checkStrCov_suits hX, hr, getKernelInverse_ok hX hd, e, hn, bind,
    Except.bind, pure, Except.pure, if_false]
  congr 1
  ring

theorem loocvTerm_eq {P : Matrix (Fin n) (Fin n) ℝ} {i : Fin n} (hP : 0 < P i i) (Y : Fin n → ℝ) :
    loocvTerm P Y i = 1 / 2 * Real.log (P i i + 1 / 100000) -
      1 / 2 * ((P *ᵥ Y) i / P i i) ^ 2 * (P i i + 1 / 100000) - 1 / 2 * Real.log (2 * Real.pi) := by
  have hj : JITTER_COV = 1 / 100000 := by norm_num [JITTER_COV]
  have h0 : 0 < P i i + 1 / 100000 := by positivity
  simp only [loocvTerm, hj]
  rw [Real.sq_sqrt (by positivity), one_div (P i i + 1 / 100000), Real.log_inv, div_inv_eq_mul,
    sub_sub_cancel]
  ring

/-- C133, leave-one-out likelihood, which reads one lengthscale per dimension: it has a value at
every vector without zero entries, and this value depends continuously on the vector. -/
theorem C133_loocv_continuous {name base : String} {X : Inputs n d} (hX : Suits name base X)
    (hn : n ≠ 0) (Y μ : Fin n → ℝ) (fix : Bool) :
    ContinuousOnVectors (N := vectorLength true true fix d) id
      (fun v => negLogPseudoLLoocv X Y v name μ fix) {v | ∀ i, v i ≠ 0} := by
  have hc := vecGram_continuousOn (N := vectorLength true true fix d) base X true true fix
  have hd : ∀ v ∈ {v : Fin (vectorLength true true fix d) → ℝ | ∀ i, v i ≠ 0},
      (vecGram base X true true fix v).det ≠ 0 := fun v _ => (vecGram_posDef ..).det_pos.ne'
  have hp : ∀ v i, 0 < (vecGram base X true true fix v)⁻¹ i i :=
    fun v i => (vecGram_posDef (N := vectorLength true true fix d) ..).inv.diag_pos
  refine ⟨fun v => -(∑ i, loocvTerm (vecGram base X true true fix v)⁻¹ Y i) / n, ?_,
    fun v hv => ⟨_, loocv_value hX hn Y μ (restore_ofFn (suits_allowed hX) true true fix v)
      (vecDict_describes fun k _ => extend_ne_zero hv k), rfl⟩⟩
  refine ContinuousOn.div_const (ContinuousOn.neg (continuousOn_finsetSum _ fun i _ => ?_)) _
  simp only [loocvTerm_eq (hp _ i)]
  have hi := inv_continuousOn hc hd i i
  have hi' := hi.add (continuousOn_const (c := (1 : ℝ) / 100000))
  have hm : ContinuousOn (fun v => ((vecGram base X true true fix v)⁻¹ *ᵥ Y) i)
      {v : Fin (vectorLength true true fix d) → ℝ | ∀ i, v i ≠ 0} := by
    simp only [mulVec, dotProduct]
    exact continuousOn_finsetSum _ fun j _ => (inv_continuousOn hc hd i j).mul continuousOn_const
  refine ((continuousOn_const.mul (hi'.log fun v _ => ?_)).sub
    ((continuousOn_const.mul ((hm.div hi fun v _ => (hp v i).ne').pow 2)).mul hi')).sub
    continuousOn_const
  exact (add_pos (hp v i) (by norm_num)).ne'

/-- C133, leave-one-out likelihood: within the bounds the package passes to the optimiser there
is a best vector. -/
theorem C133_loocv_best {name base : String} {X : Inputs n d} (hX : Suits name base X)
    (hn : n ≠ 0) (Y μ : Fin n → ℝ) (fix : Bool) :
    ∃ r, getRangeHyps name d true true fix = .ok r ∧
      HasBest id (fun v => negLogPseudoLLoocv X Y v name μ fix) r := by
  obtain ⟨r, h1, h2, h3, -⟩ := ranges_positive (d := d) (suits_allowed hX) true true fix
  exact ⟨r, h1, best_of_continuous (C133_loocv_continuous hX hn Y μ fix) h2
    (fun p hp => (h3 p hp).2) fun v hv i => (within_nonzero (fun p hp => (h3 p hp).1) hv i).ne'⟩

/-- C133, leave-one-out likelihood: a lower bound that depends on the noise only. -/
theorem C133_loocv_bounded {name base : String} {X : Inputs n d} (hX : Suits name base X)
    (hn : n ≠ 0) (Y μ : Fin n → ℝ) {fix : Bool} {v : List Flt} {h : HypDict}
    (hr : restoreHyps name v true true fix = .ok h) {σ s : ℝ} {l : Fin d → ℝ}
    (hd : Describes h σ s l) {y : ℝ} (hy : negLogPseudoLLoocv X Y v name μ fix = .ok y) :
    1 / 2 * Real.log (2 * Real.pi / (1 / (σ ^ 2 + 1 / 100000) + 1 / 100000)) ≤ y := by
  have hc : 0 < σ ^ 2 + 1 / 100000 := by positivity
  have hn' : (0 : ℝ) < n := by exact_mod_cast Nat.pos_of_ne_zero hn
  rw [loocv_value hX hn Y μ hr hd] at hy
  obtain rfl := Except.ok.inj hy
  have hi := inv_entry_le (noisyGram_posDef base σ s l X) hc (noisyGram_ge base σ s l X)
  generalize (noisyGram base σ s l X)⁻¹ = P at hi
  generalize σ ^ 2 + 1 / 100000 = c at hi hc
  have ht : ∀ i, loocvTerm P Y i ≤ 1 / 2 * Real.log (1 / c + 1 / 100000) -
      1 / 2 * Real.log (2 * Real.pi) := by
    intro i
    obtain ⟨h1, h2⟩ := hi i
    rw [loocvTerm_eq h1]
    have h3 : Real.log (P i i + 1 / 100000) ≤ Real.log (1 / c + 1 / 100000) :=
      Real.log_le_log (by positivity) (by linarith)
    have h4 : 0 ≤ 1 / 2 * ((P *ᵥ Y) i / P i i) ^ 2 * (P i i + 1 / 100000) := by positivity
    linarith
  have hs := Finset.sum_le_sum fun i (_ : i ∈ Finset.univ) => ht i
  rw [Finset.sum_const, Finset.card_univ, Fintype.card_fin, nsmul_eq_mul] at hs
  rw [le_div_iff₀ hn', Real.log_div (by positivity) (by positivity)]
  linarith

/-! ### Student-t processes -/

/-- The vectors without zero entries and with more than two degrees of freedom. -/
def DofAboveTwo (ard fix : Bool) (d : ℕ) : Set (Fin (vectorLength false ard fix d) → ℝ) :=
  {v | (∀ i, v i ≠ 0) ∧
    ∀ i : Fin (vectorLength false ard fix d), i.val = (if fix then 0 else 1) → 2 < v i}

theorem dof_lt (ard fix : Bool) (d : ℕ) :
    (if fix then 0 else 1) < vectorLength false ard fix d := by
  cases fix <;> simp [vectorLength] <;> omega

theorem dof_extend {ard fix : Bool} {v : Fin (vectorLength false ard fix d) → ℝ}
    (hv : v ∈ DofAboveTwo ard fix d) : 2 < extend v (dofPlace fix) := by
  have h := dof_lt ard fix d
  unfold extend dofPlace
  rw [dif_pos h]
  exact hv.2 _ rfl

theorem tp_value {name base : String} {X : Inputs n d} (hX : Suits name base X) (hn : n ≠ 0)
    (Y μ : Fin n → ℝ) (ard fix : Bool) {v : Fin (vectorLength false ard fix d) → ℝ}
    (hv : v ∈ DofAboveTwo ard fix d) :
    Tp.negLogMl X Y ((List.ofFn v).map .fin) name μ ard fix false =
      .ok (tllExact (extend v (dofPlace fix)) (vecGram base X false ard fix v) (Y - μ), none) :=
  tpNegLogMl_of_noisyCov hX (restore_ofFn (suits_allowed hX) false ard fix v) (dof_extend hv) rfl
    (noisyCov_ok hX (vecDict_describes fun k _ => extend_ne_zero hv.1 k))
    (vecGram_posDef ..).det_pos hn Y μ

theorem gammaRatio_continuousAt (n : ℕ) {ν : ℝ} (hν : 0 < ν) :
    ContinuousAt (fun ν : ℝ => Real.log (Real.Gamma ((ν + n) / 2) / Real.Gamma (ν / 2))) ν := by
  have h0 : (0 : ℝ) ≤ n := Nat.cast_nonneg n
  have h1 : 0 < Real.Gamma ((ν + n) / 2) := Real.Gamma_pos_of_pos (by linarith)
  have h2 : 0 < Real.Gamma (ν / 2) := Real.Gamma_pos_of_pos (by linarith)
  have c : ∀ x : ℝ, 0 < x → ContinuousAt Real.Gamma x := fun x hx =>
    (Real.differentiableAt_Gamma fun m => by
      have : (0 : ℝ) ≤ m := Nat.cast_nonneg m
      linarith).continuousAt
  refine ContinuousAt.log (ContinuousAt.div ?_ ?_ h2.ne') (div_pos h1 h2).ne'
  · exact ContinuousAt.comp (g := Real.Gamma) (f := fun ν : ℝ => (ν + n) / 2)
      (c _ (by linarith)) (by fun_prop)
  · exact ContinuousAt.comp (g := Real.Gamma) (f := fun ν : ℝ => ν / 2)
      (c _ (by linarith)) (by fun_prop)

/-- C133, Student-t processes: the negative log likelihood has a value at every vector without
zero entries and with more than two degrees of freedom, and this value depends continuously on
the vector. -/
theorem C133_tp_continuous {name base : String} {X : Inputs n d} (hX : Suits name base X)
    (hn : n ≠ 0) (Y μ : Fin n → ℝ) (ard fix : Bool) :
    ContinuousOnVectors Prod.fst (fun v => Tp.negLogMl X Y v name μ ard fix false)
      (DofAboveTwo ard fix d) := by
  refine ⟨_, ?_, fun v hv => ⟨_, tp_value hX hn Y μ ard fix hv, rfl⟩⟩
  have hc : ∀ i j, ContinuousOn (fun v => vecGram base X false ard fix v i j)
      (DofAboveTwo ard fix d) := fun i j =>
    (vecGram_continuousOn base X false ard fix i j).mono fun v hv => hv.1
  have hd : ∀ v ∈ DofAboveTwo ard fix d, (vecGram base X false ard fix v).det ≠ 0 :=
    fun v _ => (vecGram_posDef ..).det_pos.ne'
  have hν : ContinuousOn (fun v => extend v (dofPlace fix)) (DofAboveTwo ard fix d) :=
    (continuous_extend _).continuousOn
  have hq := quad_continuousOn hc hd (Y - μ)
  unfold tllExact misfit
  refine ((((continuousOn_const.mul (((hν.sub continuousOn_const).mul continuousOn_const).log
    fun v hv => ?_)).add (continuousOn_const.mul ((det_continuousOn hc).log hd))).sub ?_).add
    (((hν.add continuousOn_const).div_const _).mul
      ((continuousOn_const.add (hq.div (hν.sub continuousOn_const) fun v hv => ?_)).log
        fun v hv => ?_))).div_const _
  · have h : (0 : ℝ) < extend v (dofPlace fix) - 2 := sub_pos.2 (dof_extend hv)
    exact (mul_pos h Real.pi_pos).ne'
  · intro v hv
    have := dof_extend hv
    exact ContinuousAt.comp_continuousWithinAt
      (g := fun ν : ℝ => Real.log (Real.Gamma ((ν + n) / 2) / Real.Gamma (ν / 2)))
      (gammaRatio_continuousAt n (by linarith)) (hν v hv)
  · have := dof_extend hv
    have h : (0 : ℝ) < extend v (dofPlace fix) - 2 := by linarith
    exact h.ne'
  · have h1 := dof_extend hv
    have h2 := misfit_nonneg (vecGram_posDef base X false ard fix v) (Y - μ)
    have h3 : 0 ≤ misfit (vecGram base X false ard fix v) (Y - μ) /
        (extend v (dofPlace fix) - 2) := div_nonneg h2 (by linarith)
    have h4 : (0 : ℝ) < 1 + misfit (vecGram base X false ard fix v) (Y - μ) /
        (extend v (dofPlace fix) - 2) := by linarith
    exact h4.ne'

/-- C133, Student-t processes: within the bounds the package passes to the optimiser there is a
best vector. -/
theorem C133_tp_best {name base : String} {X : Inputs n d} (hX : Suits name base X)
    (hn : n ≠ 0) (Y μ : Fin n → ℝ) (ard fix : Bool) :
    ∃ r, getRangeHyps name d false ard fix = .ok r ∧
      HasBest Prod.fst (fun v => Tp.negLogMl X Y v name μ ard fix false) r := by
  obtain ⟨r, h1, h2, h3, h4⟩ := ranges_positive (d := d) (suits_allowed hX) false ard fix
  refine ⟨r, h1, best_of_continuous (C133_tp_continuous hX hn Y μ ard fix) h2
    (fun p hp => (h3 p hp).2) fun v hv => ⟨fun i =>
      (within_nonzero (fun p hp => (h3 p hp).1) hv i).ne', fun i hi => ?_⟩⟩
  rw [Within, List.forall₂_iff_get] at hv
  have hlt : (i : ℕ) < r.length := by rw [h2]; exact i.2
  have hv := hv.2 i hlt (by simp)
  have h5 := h4 rfl
  rw [show dofPlace fix = (i : ℕ) from hi.symm, List.getElem?_eq_getElem hlt] at h5
  simp only [List.get_eq_getElem, List.getElem_ofFn, Fin.eta, Option.some.inj h5] at hv
  have := hv.1
  norm_num at this
  linarith

/-- C133, Student-t processes: it is the lower bound on the degrees of freedom that makes the
search well posed. When the responses equal the prior mean, the negative log likelihood has no
lower bound as the degrees of freedom approach two, whatever the other entries. -/
theorem C133_tp_unbounded {name base : String} {X : Inputs n d} (hX : Suits name base X)
    (hn : n ≠ 0) (Y : Fin n → ℝ) (ard fix : Bool) {v : Fin (vectorLength false ard fix d) → ℝ}
    (hv : ∀ i, v i ≠ 0) (c : ℝ) :
    ∃ ν > 2, ∃ y, y < c ∧ Tp.negLogMl X Y
      ((List.ofFn (Function.update v ⟨_, dof_lt ard fix d⟩ ν)).map .fin) name Y ard fix false =
        .ok (y, none) := by
  set p : Fin (vectorLength false ard fix d) := ⟨_, dof_lt ard fix d⟩ with hp
  have hK : ∀ ν, vecGram base X false ard fix (Function.update v p ν) =
      vecGram base X false ard fix v := by
    intro ν
    have he : ∀ k, k ≠ dofPlace fix → extend (Function.update v p ν) k = extend v k := by
      intro k hk
      unfold extend
      split_ifs with h
      · exact Function.update_of_ne (fun e => hk (congrArg Fin.val e)) _ _
      · rfl
    have h1 : vecNoise fix (extend (Function.update v p ν)) = vecNoise fix (extend v) := by
      cases fix
      · exact he 0 (by simp [dofPlace])
      · rfl
    have h2 : extend (Function.update v p ν) (signalPlace false fix) =
        extend v (signalPlace false fix) := he _ (by cases fix <;> simp [dofPlace, signalPlace])
    have h3 : vecScale (d := d) false ard fix (extend (Function.update v p ν)) =
        vecScale false ard fix (extend v) := by
      funext k
      exact he _ (by cases fix <;> cases ard <;> simp [dofPlace, signalPlace] <;> omega)
    unfold vecGram
    rw [h1, h2, h3]
  have hν : ∀ ν, extend (Function.update v p ν) (dofPlace fix) = ν := by
    intro ν
    unfold extend
    rw [dif_pos (show dofPlace fix < _ from dof_lt ard fix d)]
    exact Function.update_self _ _ _
  have hlim : Filter.Tendsto (fun ν => tllExact ν (vecGram base X false ard fix v) (Y - Y))
      (𝓝[>] 2) Filter.atBot := by
    have hn' : (0 : ℝ) < n := by exact_mod_cast Nat.pos_of_ne_zero hn
    have e : (fun ν => tllExact ν (vecGram base X false ard fix v) (Y - Y)) = fun ν =>
        (n / 2 * Real.log ((ν - 2) * Real.pi) + (1 / 2 * Real.log (vecGram base X false ard fix v).det
          - Real.log (Real.Gamma ((ν + n) / 2) / Real.Gamma (ν / 2)))) / n := by
      funext ν
      rw [tllExact, misfit, sub_self, zero_dotProduct, zero_div, add_zero, Real.log_one, mul_zero]
      ring
    rw [e]
    refine Filter.Tendsto.atBot_div_const hn' (Filter.Tendsto.atBot_add ?_
      (tendsto_const_nhds.sub
        ((gammaRatio_continuousAt n (by norm_num : (0 : ℝ) < 2)).mono_left nhdsWithin_le_nhds)))
    refine Filter.Tendsto.const_mul_atBot (by positivity) (Real.tendsto_log_nhdsGT_zero.comp ?_)
    refine tendsto_nhdsWithin_iff.2 ⟨?_, ?_⟩
    · have : Continuous fun ν : ℝ => (ν - 2) * Real.pi := by fun_prop
      have := this.tendsto 2
      rw [sub_self, zero_mul] at this
      exact this.mono_left nhdsWithin_le_nhds
    · filter_upwards [self_mem_nhdsWithin] with ν h
      exact mul_pos (sub_pos.2 h) Real.pi_pos
  obtain ⟨ν, h1, h2⟩ := ((hlim.eventually_lt_atBot c).and self_mem_nhdsWithin).exists
  refine ⟨ν, h2, _, h1, ?_⟩
  have hw : Function.update v p ν ∈ DofAboveTwo ard fix d := by
    refine ⟨fun i => ?_, fun i hi => ?_⟩
    · by_cases hi : i = p
      · rw [hi, Function.update_self]
        exact (lt_trans two_pos h2).ne'
      · rw [Function.update_of_ne hi]
        exact hv i
    · rw [show i = p from Fin.ext hi, Function.update_self]
      exact h2
  rw [tp_value hX hn Y Y ard fix hw, hν, hK]

/-! ### Concrete cases -/

/-- Concrete case of C133: three observations, two of them at the same place with different
responses. The optimiser has a best vector to find for each of the three likelihoods. -/
example : let X : Inputs 3 1 := .vec ![![0], ![0], ![1]]
    let Y : Fin 3 → ℝ := ![1, 2, 3]
    ∃ r, getRangeHyps "matern52" 1 true true false = .ok r ∧ r.length = 3 ∧
      HasBest Prod.fst (fun v => negLogMl X Y v "matern52" 0 true false true true) r ∧
      HasBest id (fun v => negLogPseudoLLoocv X Y v "matern52" 0 false) r := by
  intro X Y
  have hX : Suits "matern52" "matern52" X := ⟨by simp [baseNames], .inl ⟨rfl, _, rfl⟩⟩
  obtain ⟨r, h1, h2⟩ := C133_ml_best hX (by norm_num) Y 0 true false true true fun _ _ => ⟨_, rfl⟩
  obtain ⟨r', h3, h4⟩ := C133_loocv_best hX (by norm_num) Y 0 false
  obtain rfl : r = r' := Except.ok.inj (h1.symm.trans h3)
  obtain ⟨r', h5, h6, -⟩ := ranges_positive (d := 1) (suits_allowed hX) true true false
  obtain rfl : r = r' := Except.ok.inj (h1.symm.trans h5)
  exact ⟨r, h1, h6, h2, h4⟩

/-- Concrete case of C133 for sets: two sets of two points each, Student-t process. -/
example : ∃ r, getRangeHyps "set_se" 1 false true true = .ok r ∧
    HasBest Prod.fst (fun v => Tp.negLogMl
      (.set 2 ![![![0], ![1]], ![![2], ![3]]] : Inputs 2 1) ![1, 2] v "set_se" 0 true true false) r :=
  C133_tp_best (base := "se") ⟨by simp [baseNames], .inr ⟨rfl, _, _, two_ne_zero, rfl⟩⟩ two_ne_zero
    _ _ _ _

/-- Concrete case of the lower bound: the value at the default hyperparameters. -/
example (Y : Fin 2 → ℝ) {y : ℝ} {g : Option (List ℝ)}
    (h : negLogMl (.vec ![![0], ![0]] : Inputs 2 1) Y [.fin 1, .fin 1] "se" Y true true true false =
      .ok (y, g)) : 1 / 2 * Real.log (2 * Real.pi * (GP_NOISE ^ 2 + 1 / 100000)) ≤ y := by
  have hr := restore_ofFn (d := 1) (name := "se") (by simp [ALLOWED_COV, ALLOWED_COV_BASE])
    true true true (fun _ => 1)
  exact C133_ml_bounded (base := "se") ⟨by simp [baseNames], .inl ⟨rfl, _, rfl⟩⟩ (by norm_num) Y Y hr
    (vecDict_describes fun k _ => extend_ne_zero (fun _ => one_ne_zero) k) h

end Verif.Props
