import Verif.Lemmas.OverflowTp

/-! # The likelihood of the Student-t process for many responses (C154) -/

namespace Verif.Props

open Verif.Spec Verif.Covariance Verif.UtilsCovariance Verif.Constants Verif.Lemmas Verif.Gp
open Verif.OverflowTp (MinimizeF)

variable {n d : ℕ} {ε : ℝ} {gamma : ℝ → Flt}

section Value

variable {name base : String} {X : Inputs n d} {v : List Flt} {ard fix : Bool} {h : HypDict}
  {σ s ν : ℝ} {l : Fin d → ℝ}

/-- C154, where it fails: once the degrees of freedom and the number of responses add up to 344, the
value is minus infinity, whatever the inputs, the responses and the other hyperparameters. As the value is
to be minimised, nothing beats it. -/
theorem C154_overflow (hg : GammaOfDoubles ε gamma) (hε : ε ≤ 1 / 2) (hX : Suits name base X)
    (hr : restoreHyps name v false ard fix = .ok h) (hd : Describes h σ s l)
    (hdof : h.dof = some (.flt (.fin ν))) (hν : 2 < ν) (hν' : ν ≤ 342) (hsum : 344 ≤ ν + n)
    (Y μ : Fin n → ℝ) :
    OverflowTp.negLogMl gamma X Y v name μ ard fix false = .ok (.ninf, none) := by
  have hn : n ≠ 0 := by
    rintro rfl
    norm_num at hsum
    linarith
  obtain ⟨b, hb, hb0, -⟩ := gamma_fin hg hε (x := ν / 2) (by linarith) (by linarith)
  rw [overflowTp_value hX hr hd hν hdof hn, gamma_pinf hg (by linarith), hb]
  simp [NonFinite.div, not_lt.2 hb0.le, OverflowTp.logF, tllWith, Flt.add, Flt.divPos, Flt.neg]

/-- C154, where it fails: from 344 degrees of freedom on the value is NaN. -/
theorem C154_undefined (hg : GammaOfDoubles ε gamma) (hX : Suits name base X)
    (hr : restoreHyps name v false ard fix = .ok h) (hd : Describes h σ s l)
    (hdof : h.dof = some (.flt (.fin ν))) (hν : 344 ≤ ν) (hn : n ≠ 0) (Y μ : Fin n → ℝ) :
    OverflowTp.negLogMl gamma X Y v name μ ard fix false = .ok (.nan, none) := by
  have h0 : (0 : ℝ) ≤ n := Nat.cast_nonneg n
  rw [overflowTp_value hX hr hd (by linarith) hdof hn, gamma_pinf hg (by linarith),
    gamma_pinf hg (by linarith)]
  simp [NonFinite.div, OverflowTp.logF, tllWith, Flt.add, Flt.divPos, Flt.neg]

/-- C154, what holds of it: as long as the degrees of freedom and the number of responses add up to at
most 342, the value is minus the logarithm of the Student-t density of the responses, divided by their
number, up to four times the relative error of the Gamma function, divided by that number. -/
theorem C154_accurate_partial (hg : GammaOfDoubles ε gamma) (hε : ε ≤ 1 / 2) (hX : Suits name base X)
    (hr : restoreHyps name v false ard fix = .ok h) (hd : Describes h σ s l)
    (hdof : h.dof = some (.flt (.fin ν))) (hν : 2 < ν) (hn : n ≠ 0) (hsum : ν + n ≤ 342)
    (Y μ : Fin n → ℝ) :
    ∃ y, OverflowTp.negLogMl gamma X Y v name μ ard fix false = .ok (.fin y, none) ∧
      |y - -Real.log (mvtDensity ν μ (noisyGram base σ s l X) Y) / n| ≤ 4 * ε / n := by
  have h1 : (1 : ℝ) ≤ n := by exact_mod_cast Nat.one_le_iff_ne_zero.2 hn
  obtain ⟨a, ha, ha0, ea⟩ := gamma_fin hg hε (x := (ν + n) / 2) (by linarith) (by linarith)
  obtain ⟨b, hb, hb0, eb⟩ := gamma_fin hg hε (x := ν / 2) (by linarith) (by linarith)
  have hA : 0 < Real.Gamma ((ν + n) / 2) := Real.Gamma_pos_of_pos (by linarith)
  have hB : 0 < Real.Gamma (ν / 2) := Real.Gamma_pos_of_pos (by linarith)
  have hl : OverflowTp.logF (NonFinite.div (.fin a) (.fin b)) = .fin (Real.log (a / b)) := by
    simp [NonFinite.div, hb0.ne', OverflowTp.logF, div_pos ha0 hb0]
  refine ⟨_, by rw [overflowTp_value hX hr hd hν hdof hn, ha, hb, hl, tllWith_fin], ?_⟩
  rw [tllExact_eq hν (noisyGram_posDef base σ s l X), add_sub_cancel_left, abs_div,
    abs_of_pos (show (0 : ℝ) < n by linarith), Real.log_div hA.ne' hB.ne',
    Real.log_div ha0.ne' hb0.ne']
  refine div_le_div_of_nonneg_right ?_ (by linarith)
  have h2 := abs_le.1 ea
  have h3 := abs_le.1 eb
  exact abs_le.2 ⟨by linarith, by linarith⟩

/-- C154: the gradient, if it is computed along, is the one of the exact likelihood, also where the value
is minus infinity or NaN; and the value does not depend on whether it is computed. -/
theorem C154_gradient {Y μ : Fin n → ℝ} {x : ℝ} {g : Option (List ℝ)}
    (hx : Tp.negLogMl X Y v name μ ard fix true = .ok (x, g)) :
    ∃ y, OverflowTp.negLogMl gamma X Y v name μ ard fix true = .ok (y, g) ∧
      OverflowTp.negLogMl gamma X Y v name μ ard fix false = .ok (y, none) := by
  unfold Tp.negLogMl at hx
  obtain ⟨_, e1, hx⟩ := py_bind_ok hx
  obtain ⟨h, e2, hx⟩ := py_bind_ok hx
  obtain ⟨ν, e3, hx⟩ := py_bind_ok hx
  obtain ⟨⟨K, P, G⟩, e4, hx⟩ := py_bind_ok hx
  have e5 := getKernelInverse_without e4
  dsimp only at hx
  by_cases hν : ν ≤ 2
  · rw [if_pos hν] at hx; cases hx
  by_cases hn : n = 0
  · rw [if_neg hν, if_pos hn] at hx; cases hx
  rw [if_neg hν, if_neg hn] at hx
  cases G with
  | none => cases hx
  | some G =>
    obtain rfl : _ = g := congrArg Prod.snd (Except.ok.inj hx)
    obtain ⟨y, hy⟩ : ∃ y, OverflowTp.negLogMl gamma X Y v name μ ard fix false = .ok (y, none) := by
      simp only [OverflowTp.negLogMl, e1, e2, e3, e5, hν, hn, bind, Except.bind, if_false,
        Bool.false_eq_true, pure, Except.pure]
      exact ⟨_, rfl⟩
    refine ⟨y, ?_, hy⟩
    simp only [OverflowTp.negLogMl, e1, e2, e3, e5, hν, hn, bind, Except.bind, if_false,
      Bool.false_eq_true, pure, Except.pure, Except.ok.injEq, Prod.mk.injEq, and_true] at hy
    rw [← hy]
    simp only [OverflowTp.negLogMl, e1, e2, e3, e4, hν, hn, bind, Except.bind, if_false, if_true,
      pure, Except.pure]

end Value

/-! ### The search for hyperparameters -/

section Search

variable {name base : String} {X : Inputs n d} {ard fix : Bool} {r : List (ℝ × ℝ)}

/-- C154, where it fails: for 342 responses or more the value is minus infinity at every vector within the
bounds that the package passes to the optimiser. -/
theorem C154_flat (hg : GammaOfDoubles ε gamma) (hε : ε ≤ 1 / 2) (hX : Suits name base X)
    (hr : getRangeHyps name d false ard fix = .ok r) (hn : 342 ≤ n) {v : List ℝ} (hv : Within r v)
    (Y μ : Fin n → ℝ) :
    OverflowTp.negLogMl gamma X Y (v.map .fin) name μ ard fix false = .ok (.ninf, none) := by
  obtain ⟨h, σ, s, l, ν, h1, h2, h3, h4, h5⟩ := within_reads (suits_allowed hX) hr hv
  have h6 : (342 : ℝ) ≤ n := by exact_mod_cast hn
  exact C154_overflow hg hε hX h1 h2 h3 h4 (by linarith) (by linarith) Y μ

/-- C154, what holds of it: for at most 142 responses the value at every vector within the bounds is the
exact one up to the error of the Gamma function. -/
theorem C154_few_partial (hg : GammaOfDoubles ε gamma) (hε : ε ≤ 1 / 2) (hX : Suits name base X)
    (hr : getRangeHyps name d false ard fix = .ok r) (hn : n ≠ 0) (hn' : n ≤ 142) {v : List ℝ}
    (hv : Within r v) (Y μ : Fin n → ℝ) :
    ∃ x y, Tp.negLogMl X Y (v.map .fin) name μ ard fix false = .ok (x, none) ∧
      OverflowTp.negLogMl gamma X Y (v.map .fin) name μ ard fix false = .ok (.fin y, none) ∧
      |y - x| ≤ 4 * ε / n := by
  obtain ⟨h, σ, s, l, ν, h1, h2, h3, h4, h5⟩ := within_reads (suits_allowed hX) hr hv
  have h6 : (n : ℝ) ≤ 142 := by exact_mod_cast hn'
  obtain ⟨y, hy, he⟩ := C154_accurate_partial hg hε hX h1 h2 h3 h4 hn (by linarith) Y μ
  have hp := noisyGram_posDef base σ s l X
  refine ⟨_, y, ?_, hy, he⟩
  rw [tpNegLogMl_of_noisyCov hX h1 h4 h3 (noisyCov_ok hX h2) hp.det_pos hn, tllExact_eq h4 hp]

/-- C154, where it fails: in between, a vector within the bounds whose degrees of freedom and the number of
responses add up to 344 beats every one for which they add up to at most 342, whatever the data say. -/
theorem C154_between (hg : GammaOfDoubles ε gamma) (hε : ε ≤ 1 / 2) (hX : Suits name base X)
    (hr : getRangeHyps name d false ard fix = .ok r) (hn : n ≠ 0) {v w : List ℝ} (hv : Within r v)
    (hw : Within r w) {hv' hw' : HypDict} {ν ν' : ℝ}
    (rv : restoreHyps name (v.map .fin) false ard fix = .ok hv')
    (rw' : restoreHyps name (w.map .fin) false ard fix = .ok hw')
    (dv : hv'.dof = some (.flt (.fin ν))) (dw : hw'.dof = some (.flt (.fin ν')))
    (h1 : 344 ≤ ν + n) (h2 : ν' + n ≤ 342) (Y μ : Fin n → ℝ) :
    ∃ a b, OverflowTp.negLogMl gamma X Y (v.map .fin) name μ ard fix false = .ok (a, none) ∧
      OverflowTp.negLogMl gamma X Y (w.map .fin) name μ ard fix false = .ok (b, none) ∧ a < b := by
  obtain ⟨h, σ, s, l, κ, e1, e2, e3, e4, e5⟩ := within_reads (suits_allowed hX) hr hv
  obtain rfl : hv' = h := Except.ok.inj (rv.symm.trans e1)
  obtain rfl : ν = κ := by simpa using dv.symm.trans e3
  obtain ⟨h', σ', s', l', κ', f1, f2, f3, f4, f5⟩ := within_reads (suits_allowed hX) hr hw
  obtain rfl : hw' = h' := Except.ok.inj (rw'.symm.trans f1)
  obtain rfl : ν' = κ' := by simpa using dw.symm.trans f3
  obtain ⟨y, hy, -⟩ := C154_accurate_partial hg hε hX f1 f2 f3 f4 hn h2 Y μ
  exact ⟨_, _, C154_overflow hg hε hX e1 e2 e3 e4 (by linarith) h1 Y μ, hy, trivial⟩

/-- C154, where it fails: for 342 responses or more the fitted hyperparameters do not depend on the data.
Given the optimiser and the options, there is one dictionary that every such fit ends in, whatever the
number of responses, the inputs, the responses and the prior mean. The optimiser may be any that evaluates
its objective within the bounds only and ends within the bounds. -/
theorem C154_fit (hg : GammaOfDoubles ε gamma) (hε : ε ≤ 1 / 2) {m : MinimizeF}
    (hm : StaysWithin m) (hm' : ReturnsWithin m) (hname : name ∈ ALLOWED_COV) {method : String}
    (hmethod : method = "L-BFGS-B" ∨ method = "SLSQP") (d : ℕ) (ard fix : Bool) :
    ∃ h : HypDict, ∀ (n : ℕ) (X : Inputs n d) (base : String) (Y μ : Fin n → ℝ) (prior : PriorMu d),
      342 ≤ n → Suits name base X → getPriorMu prior X = .ok μ →
      ∃ K P, OverflowTp.getOptimizedKernel gamma m X Y prior name method ard fix = .ok (K, P, h) := by
  obtain ⟨r, hr, -⟩ := ranges_positive (d := d) hname false ard fix
  obtain ⟨h0, v0, e1, e2, hv0⟩ := tp_start_within hname hr
  obtain ⟨v, hv, ev⟩ := hm' method (fun _ => .ok (.ninf, none)) v0 r false hv0 fun _ _ => ⟨_, rfl⟩
  obtain ⟨h, σ, s, l, ν, h1, h2, h3, h4, h5⟩ := within_reads hname hr hv
  refine ⟨h, fun n X base Y μ prior hn hX hμ => ?_⟩
  have e3 := (hm method (fun hyps => OverflowTp.negLogMl gamma X Y hyps name μ ard fix false)
    (fun _ => .ok (.ninf, none)) (v0.map .fin) r false fun w hw => C154_flat hg hε hX hr hn hw Y μ).trans ev
  have e4 := validate_describes_tp h2 h4 h3 hname
  have e6 := getKernelInverse_ok hX h2 fix
  have k1 : method ∈ ALLOWED_OPTIMIZER_METHOD_TP := by
    rcases hmethod with rfl | rfl <;> simp [ALLOWED_OPTIMIZER_METHOD_TP]
  have k2 : method ∈ ["L-BFGS-B", "SLSQP"] := by rcases hmethod with rfl | rfl <;> simp
  refine ⟨noisyGram base σ s l X, (noisyGram base σ s l X)⁻¹, ?_⟩
  simp only [OverflowTp.getOptimizedKernel, checkStrCov_suits hX, pyAssert, k1, k2, hμ, e1, e2, hr, e3,
    h1, e4, e6, bind, Except.bind, if_true]
  rfl

end Search

/-! ### Concrete cases -/

open Classical in
/-- The Gamma function, with plus infinity for values too large for a double. -/
noncomputable def exGamma (x : ℝ) : Flt :=
  if 2 ^ 1024 ≤ Real.Gamma x then .pinf else .fin (Real.Gamma x)

theorem exGamma_ok : GammaOfDoubles 0 exGamma := by
  intro x _
  refine ⟨fun h => if_pos h, fun h => ⟨_, if_neg ?_, by simp⟩⟩
  refine not_le.2 (h.trans_lt ?_)
  exact pow_lt_pow_right₀ one_lt_two (by norm_num)

/-- An optimiser that stays where it starts. -/
def exStay : MinimizeF := fun _ _ v₀ _ _ => .ok v₀

theorem exStay_ok : StaysWithin exStay ∧ ReturnsWithin exStay :=
  ⟨fun _ _ _ _ _ _ _ => rfl, fun _ _ v₀ _ _ h _ => ⟨v₀, h, rfl⟩⟩

/-- Equally spaced inputs. -/
def exLine (n : ℕ) : Inputs n 1 := .vec fun i _ => (i : ℝ)

theorem exLine_suits (n : ℕ) : Suits "se" "se" (exLine n) :=
  ⟨by simp [baseNames], .inl ⟨rfl, _, rfl⟩⟩

theorem ex_dict (ν : ℝ) (hν : ν ≠ 0) :
    restoreHyps "se" [.fin ν, .fin 1, .fin 1] false true true =
      .ok (vecDict 1 false true true (extend ![ν, 1, 1])) ∧
    Describes (vecDict 1 false true true (extend ![ν, 1, 1]))
      (vecNoise true (extend ![ν, 1, 1])) (extend ![ν, 1, 1] (signalPlace false true))
      (vecScale (d := 1) false true true (extend ![ν, 1, 1])) ∧
    (vecDict 1 false true true (extend ![ν, 1, 1])).dof = some (.flt (.fin ν)) := by
  refine ⟨?_, ?_, rfl⟩
  · have := restore_ofFn (d := 1) (name := "se") (by simp [ALLOWED_COV, ALLOWED_COV_BASE])
      false true true ![ν, 1, 1]
    exact this
  · refine vecDict_describes fun k _ => extend_ne_zero (fun i => ?_) k
    fin_cases i <;> simp [hν]

/-- Concrete case of C154: 340 responses with five degrees of freedom have minus infinity, 300 responses
have the logarithm of their density, and 344 degrees of freedom give NaN, even for one response. -/
example (Y : Fin 340 → ℝ) (Z : Fin 300 → ℝ) (W : Fin 1 → ℝ) :
    OverflowTp.negLogMl exGamma (exLine 340) Y [.fin 5, .fin 1, .fin 1] "se" 0 true true false =
      .ok (.ninf, none) ∧
    (∃ y, OverflowTp.negLogMl exGamma (exLine 300) Z [.fin 5, .fin 1, .fin 1] "se" 0 true true false =
      .ok (.fin y, none)) ∧
    OverflowTp.negLogMl exGamma (exLine 1) W [.fin 344, .fin 1, .fin 1] "se" 0 true true false =
      .ok (.nan, none) := by
  obtain ⟨h1, h2, h3⟩ := ex_dict 5 (by norm_num)
  obtain ⟨h4, h5, h6⟩ := ex_dict 344 (by norm_num)
  obtain ⟨y, hy, -⟩ := C154_accurate_partial exGamma_ok (by norm_num) (exLine_suits 300) h1 h2 h3
    (by norm_num) (by norm_num) (by norm_num) Z 0
  exact ⟨C154_overflow exGamma_ok (by norm_num) (exLine_suits 340) h1 h2 h3 (by norm_num)
      (by norm_num) (by norm_num) Y 0, ⟨y, hy⟩,
    C154_undefined exGamma_ok (exLine_suits 1) h4 h5 h6 (by norm_num) (by norm_num) W 0⟩

/-- Concrete case of the search: with 200 responses, 150 degrees of freedom beat 100 whatever the data,
and both vectors are within the bounds. -/
example (Y : Fin 200 → ℝ) : ∃ a b,
    OverflowTp.negLogMl exGamma (exLine 200) Y [.fin 150, .fin 1, .fin 1] "se" 0 true true false =
      .ok (a, none) ∧
    OverflowTp.negLogMl exGamma (exLine 200) Y [.fin 100, .fin 1, .fin 1] "se" 0 true true false =
      .ok (b, none) ∧ a < b := by
  have hr : getRangeHyps "se" 1 false true true = .ok [(2.00001, 200), (1e-2, 1e3), (1e-2, 1e3)] := by
    simp [getRangeHyps, pyAssert, ALLOWED_COV, ALLOWED_COV_BASE, getListFirst, bind, Except.bind, pure,
      Except.pure, RANGE_DOF, RANGE_SIGNAL, RANGE_LENGTHSCALES]
  exact C154_between exGamma_ok (by norm_num) (exLine_suits 200) hr (by norm_num)
    (v := [150, 1, 1]) (w := [100, 1, 1]) (by norm_num [Within]) (by norm_num [Within])
    (ex_dict 150 (by norm_num)).1 (ex_dict 100 (by norm_num)).1
    (ex_dict 150 (by norm_num)).2.2 (ex_dict 100 (by norm_num)).2.2 (by norm_num) (by norm_num) Y 0

/-- Concrete case of the search: all fits with 342 responses or more end in one dictionary, here those of
responses that are zero and those of responses that grow. -/
example : ∃ h : HypDict, ∀ n ≥ 342, (∃ K P, OverflowTp.getOptimizedKernel exGamma exStay (exLine n) 0 none
      "se" "SLSQP" true true = .ok (K, P, h)) ∧
    ∃ K P, OverflowTp.getOptimizedKernel exGamma exStay (exLine n) (fun i => (i : ℝ) ^ 2) none
      "se" "SLSQP" true true = .ok (K, P, h) := by
  obtain ⟨h, hh⟩ := C154_fit exGamma_ok (by norm_num) exStay_ok.1 exStay_ok.2 (name := "se")
    (by simp [ALLOWED_COV, ALLOWED_COV_BASE]) (.inr rfl) 1 true true
  exact ⟨h, fun n hn => ⟨hh n _ _ _ _ _ hn (exLine_suits n) rfl, hh n _ _ _ _ _ hn (exLine_suits n) rfl⟩⟩

/-- Concrete case of C154 for few responses. -/
example (Y : Fin 3 → ℝ) : ∃ x y,
    Tp.negLogMl (exLine 3) Y [.fin 5, .fin 1, .fin 1] "se" 0 true true false = .ok (x, none) ∧
    OverflowTp.negLogMl exGamma (exLine 3) Y [.fin 5, .fin 1, .fin 1] "se" 0 true true false =
      .ok (.fin y, none) ∧ |y - x| ≤ 4 * 0 / (3 : ℕ) := by
  have hr : getRangeHyps "se" 1 false true true = .ok [(2.00001, 200), (1e-2, 1e3), (1e-2, 1e3)] := by
    simp [getRangeHyps, pyAssert, ALLOWED_COV, ALLOWED_COV_BASE, getListFirst, bind, Except.bind, pure,
      Except.pure, RANGE_DOF, RANGE_SIGNAL, RANGE_LENGTHSCALES]
  exact C154_few_partial exGamma_ok (by norm_num) (exLine_suits 3) hr (by norm_num) (by norm_num)
    (v := [5, 1, 1]) (by norm_num [Within]) Y 0

/-- Concrete case of the gradient: it is computed for 340 responses, beside the value minus infinity. -/
example (Y : Fin 340 → ℝ) : ∃ x g,
    Tp.negLogMl (exLine 340) Y [.fin 5, .fin 1, .fin 1] "se" 0 true true true = .ok (x, some g) ∧
    OverflowTp.negLogMl exGamma (exLine 340) Y [.fin 5, .fin 1, .fin 1] "se" 0 true true true =
      .ok (.ninf, some g) := by
  obtain ⟨h1, h2, h3⟩ := ex_dict 5 (by norm_num)
  have hs : extend ![(5 : ℝ), 1, 1] (signalPlace false true) ≠ 0 :=
    extend_ne_zero (fun i => by fin_cases i <;> simp) _
  have hG := gradCovMain_ard (by simp [baseNames] : "se" ∈ baseNames) h2 hs
    (by simp [vecDict, vecScale]) (fun (i : Fin 340) _ => (i : ℝ)) true
  have e := tpNegLogMl_grad_ok (by simp [baseNames] : "se" ∈ baseNames) _ h1 (by norm_num) h3 h2
    (by norm_num) Y 0 hG
  obtain ⟨y, hy, hy'⟩ := C154_gradient (gamma := exGamma) e
  have ho := C154_overflow exGamma_ok (by norm_num) (exLine_suits 340) h1 h2 h3 (by norm_num)
    (by norm_num) (by norm_num) Y 0
  obtain rfl : y = .ninf := congrArg Prod.fst (Except.ok.inj (hy'.symm.trans ho))
  exact ⟨_, _, e, hy⟩

end Verif.Props
