import Mathlib.Analysis.SpecialFunctions.Gamma.BohrMollerup
import Mathlib.Tactic.NormNum.NatFactorial
import Verif.Props.HypSearch
import Verif.Lemmas.StepTotalOthers
import Verif.Spec.OverflowTp

/-! Helper lemmas for C154. -/

namespace Verif.Lemmas

open Verif.Spec Verif.Covariance Verif.UtilsCovariance Verif.Constants Verif.Gp Verif.OverflowTp

variable {n d : ℕ}

/-! ### The Gamma function -/

set_option exponentiation.threshold 2000 in
theorem gamma_172 : (2 : ℝ) ^ 1024 ≤ Real.Gamma 172 := by
  have h : Real.Gamma 172 = ((Nat.factorial 171 : ℕ) : ℝ) := by
    rw [← Real.Gamma_nat_eq_factorial]; norm_num
  have h' : 2 ^ 1024 ≤ Nat.factorial 171 := by norm_num [Nat.factorial]
  rw [h]
  exact_mod_cast h'

set_option exponentiation.threshold 2000 in
theorem gamma_171 : Real.Gamma 171 ≤ (2 : ℝ) ^ 1023 := by
  have h : Real.Gamma 171 = ((Nat.factorial 170 : ℕ) : ℝ) := by
    rw [← Real.Gamma_nat_eq_factorial]; norm_num
  have h' : Nat.factorial 170 ≤ 2 ^ 1023 := by norm_num [Nat.factorial]
  rw [h]
  exact_mod_cast h'

theorem gamma_large {x : ℝ} (hx : 172 ≤ x) : (2 : ℝ) ^ 1024 ≤ Real.Gamma x :=
  gamma_172.trans (Real.Gamma_strictMonoOn_Ici.monotoneOn
    (show (172 : ℝ) ∈ Set.Ici 2 by norm_num) (show (2 : ℝ) ≤ x by linarith) hx)

theorem gamma_moderate {x : ℝ} (h1 : 1 ≤ x) (hx : x ≤ 171) : Real.Gamma x ≤ (2 : ℝ) ^ 1023 := by
  rcases le_total 2 x with h | h
  · exact (Real.Gamma_strictMonoOn_Ici.monotoneOn (show (2 : ℝ) ≤ x from h)
      (show (171 : ℝ) ∈ Set.Ici 2 by norm_num) hx).trans gamma_171
  · have hc := Real.convexOn_Gamma.2 (show (1 : ℝ) ∈ Set.Ioi 0 by norm_num)
      (show (2 : ℝ) ∈ Set.Ioi 0 by norm_num) (show 0 ≤ 2 - x by linarith)
      (show 0 ≤ x - 1 by linarith) (by ring)
    simp only [smul_eq_mul, Real.Gamma_one, Real.Gamma_two] at hc
    have e : (2 - x) * 1 + (x - 1) * 2 = x := by ring
    rw [e] at hc
    exact (show Real.Gamma x ≤ 1 by linarith).trans (one_le_pow₀ (by norm_num))

variable {ε : ℝ} {gamma : ℝ → Flt}

theorem gamma_pinf (hg : GammaOfDoubles ε gamma) {x : ℝ} (hx : 172 ≤ x) : gamma x = .pinf :=
  (hg x (by linarith)).1 (gamma_large hx)

theorem gamma_fin (hg : GammaOfDoubles ε gamma) (hε : ε ≤ 1 / 2) {x : ℝ} (h1 : 1 ≤ x)
    (hx : x ≤ 171) : ∃ v, gamma x = .fin v ∧ 0 < v ∧
      |Real.log v - Real.log (Real.Gamma x)| ≤ 2 * ε := by
  obtain ⟨v, hv, he⟩ := (hg x (by linarith)).2 (gamma_moderate h1 hx)
  have hG : 0 < Real.Gamma x := Real.Gamma_pos_of_pos (by linarith)
  have h := abs_le.1 he
  have hv0 : 0 < v := by nlinarith
  refine ⟨v, hv, hv0, ?_⟩
  rw [← Real.log_div hv0.ne' hG.ne']
  have hq : 0 < v / Real.Gamma x := div_pos hv0 hG
  have hlo : 1 - ε ≤ v / Real.Gamma x := by rw [le_div_iff₀ hG]; linarith
  have hhi : v / Real.Gamma x ≤ 1 + ε := by rw [div_le_iff₀ hG]; linarith
  have u := Real.log_le_sub_one_of_pos hq
  have w := Real.one_sub_inv_le_log_of_pos hq
  have hε0 : 0 ≤ ε := by linarith
  have hinv : (v / Real.Gamma x)⁻¹ ≤ 1 + 2 * ε := by
    rw [inv_le_comm₀ hq (by linarith)]
    refine le_trans ?_ hlo
    rw [inv_eq_one_div, div_le_iff₀ (by linarith)]
    nlinarith
  exact abs_le.2 ⟨by linarith, by linarith⟩

/-! ### The value -/

/-- The value with the term of the Gamma functions left open. -/
noncomputable def tllWith (ν : ℝ) (K : Matrix (Fin n) (Fin n) ℝ) (y : Fin n → ℝ) (g : Flt) : Flt :=
  ((((Flt.fin (-(n / 2 * Real.log ((ν - 2) * Real.pi)) - 1 / 2 * Real.log K.det)).add g).add
    (.fin (-((ν + n) / 2 * Real.log (1 + misfit K y / (ν - 2)))))).divPos n).neg

theorem overflowTp_value {name base : String} {X : Inputs n d} (hX : Suits name base X)
    {v : List Flt} {ard fix : Bool} {h : HypDict}
    (hr : restoreHyps name v false ard fix = .ok h) {σ s : ℝ} {l : Fin d → ℝ}
    (hd : Describes h σ s l) {ν : ℝ} (hν : 2 < ν) (hdof : h.dof = some (.flt (.fin ν)))
    (hn : n ≠ 0) (gamma : ℝ → Flt) (Y μ : Fin n → ℝ) :
    OverflowTp.negLogMl gamma X Y v name μ ard fix false =
      .ok (tllWith ν (noisyGram base σ s l X) (Y - μ)
        (logF (NonFinite.div (gamma ((ν + n) / 2)) (gamma (ν / 2)))), none) := by
  have hdet := (noisyGram_posDef base σ s l X).det_pos
  have hsign : ¬ Real.sign (noisyGram base σ s l X).det ≤ 0 := by
    rw [Real.sign_of_pos hdet]; norm_num
  have hY : (fun i => Y i - μ i) = Y - μ := rfl
  simp only [OverflowTp.negLogMl, checkStrCov_suits hX, hr, getKernelInverse_ok hX hd, hdof,
    numKey, getKey, finite, Gp.slogdet, not_le.mpr hν,
    hsign, hn, hY, abs_of_pos hdet, bind, Except.bind, pure, Except.pure, if_false,
    Bool.false_eq_true]
  rw [tllWith, ← Matrix.dotProduct_mulVec, misfit]
  rw [show ∀ a b : ℝ, -0.5 * (n : ℝ) * a + -0.5 * b = -(n / 2 * a) - 1 / 2 * b by
      intro a b; rw [show (0.5 : ℝ) = 1 / 2 by norm_num]; ring,
    show ∀ a : ℝ, -0.5 * (ν + n) * a = -((ν + n) / 2 * a) by
      intro a; rw [show (0.5 : ℝ) = 1 / 2 by norm_num]; ring]

theorem tllWith_fin (ν : ℝ) (K : Matrix (Fin n) (Fin n) ℝ) (y : Fin n → ℝ) (g : ℝ) :
    tllWith ν K y (.fin g) = .fin (tllExact ν K y +
      (Real.log (Real.Gamma ((ν + n) / 2) / Real.Gamma (ν / 2)) - g) / n) := by
  simp only [tllWith, Flt.add, Flt.divPos, Flt.neg, tllExact]
  congr 1
  ring

/-- What a vector within the bounds says. -/
theorem within_reads {name : String} (hname : name ∈ ALLOWED_COV) {ard fix : Bool} {r : List (ℝ × ℝ)} (hr : getRangeHyps name d false ard fix = .ok r) {v : List ℝ}
    (hv : Within r v) :
    ∃ h σ s, ∃ l : Fin d → ℝ, ∃ ν, restoreHyps name (v.map .fin) false ard fix = .ok h ∧
      Describes h σ s l ∧ h.dof = some (.flt (.fin ν)) ∧ 2 < ν ∧ ν ≤ 200 := by
  obtain ⟨r', h1, h2, h3, h4⟩ := ranges_positive (d := d) hname false ard fix
  obtain rfl : r = r' := Except.ok.inj (hr.symm.trans h1)
  have hlen : v.length = vectorLength false ard fix d := hv.length_eq.symm.trans h2
  obtain ⟨w, rfl⟩ : ∃ w : Fin (vectorLength false ard fix d) → ℝ, List.ofFn w = v := by
    refine ⟨fun i => v[i.1]'(by rw [hlen]; exact i.2), ?_⟩
    exact List.ext_getElem (by simp [hlen]) fun i h1 h2 => by simp
  have hlt : dofPlace fix < vectorLength false ard fix d := Props.dof_lt ard fix d
  have hb : (2.00001 : ℝ) ≤ extend w (dofPlace fix) ∧ extend w (dofPlace fix) ≤ 200 := by
    have hv' := hv
    rw [Within, List.forall₂_iff_get] at hv'
    have hlt' : dofPlace fix < r.length := by rw [h2]; exact hlt
    have h6 := hv'.2 _ hlt' (by simpa using hlt)
    have h5 := h4 rfl
    rw [List.getElem?_eq_getElem hlt'] at h5
    simp only [List.get_eq_getElem, List.getElem_ofFn, Option.some.inj h5] at h6
    simpa [extend, hlt] using h6
  refine ⟨_, _, _, _, _, restore_ofFn hname false ard fix w,
    vecDict_describes fun k _ => extend_ne_zero
      (fun i => (within_nonzero (fun p hp => (h3 p hp).1) hv i).ne') k, rfl, ?_, hb.2⟩
  have := hb.1
  norm_num at this
  linarith

/-- The start of the search is within the bounds. -/
theorem tp_start_within {name : String} (hn : name ∈ ALLOWED_COV) {ard fix : Bool}
    {r : List (ℝ × ℝ)} (hr : getRangeHyps name d false ard fix = .ok r) :
    ∃ h v, getHyps name d false ard = .ok h ∧ convertHyps name h false fix = .ok (v.map .fin) ∧
      Within r v := by
  have h2 : name ∈ getListFirst := Props.listFirst_eq ▸ hn
  have hrep : ∀ d : ℕ, Within (List.replicate d RANGE_LENGTHSCALES).flatten (List.replicate d 1) := by
    intro d
    induction d with
    | zero => exact .nil
    | succ d ih =>
      rw [List.replicate_succ, List.flatten_cons, List.replicate_succ]
      exact .cons (by norm_num) ih
  cases ard
  · refine ⟨{ noise := some (.flt (.fin GP_NOISE)), dof := some (.flt (.fin 5)),
              signal := some (.flt (.fin 1)), lengthscales := some (.flt (.fin 1)) },
      (if fix then [] else [GP_NOISE]) ++ [5, 1, 1], ?_, ?_, ?_⟩
    · simp [getHyps, pyAssert, hn, h2, bind, Except.bind, pure, Except.pure]
    · cases fix <;> simp [convertHyps, pyAssert, hn, h2, bind, Except.bind, pure, Except.pure,
        getKey, HVal.scalar]
    · cases fix <;> simp [getRangeHyps, pyAssert, hn, h2, bind, Except.bind, pure, Except.pure] at hr <;>
        rw [← hr] <;>
        norm_num [Within, RANGE_NOISE, RANGE_DOF, RANGE_SIGNAL, RANGE_LENGTHSCALES, GP_NOISE]
  · refine ⟨{ noise := some (.flt (.fin GP_NOISE)), dof := some (.flt (.fin 5)),
              signal := some (.flt (.fin 1)),
              lengthscales := some (.arr (List.replicate d (.fin 1))) },
      (if fix then [] else [GP_NOISE]) ++ (5 :: 1 :: List.replicate d 1), ?_, ?_, ?_⟩
    · simp [getHyps, pyAssert, hn, h2, bind, Except.bind, pure, Except.pure]
    · cases fix <;> simp [convertHyps, pyAssert, hn, h2, bind, Except.bind, pure, Except.pure,
        getKey, HVal.scalar]
    · cases fix <;> simp [getRangeHyps, pyAssert, hn, h2, bind, Except.bind, pure, Except.pure] at hr <;>
        rw [← hr]
      · exact .cons (by norm_num [GP_NOISE]) (.cons (by norm_num) (.cons (by norm_num) (hrep d)))
      · exact .cons (by norm_num) (.cons (by norm_num) (hrep d))

/-- With a gradient and without one, the matrix and its inverse are the same. -/
theorem getKernelInverse_without {X : Inputs n d} {h : HypDict} {name : String} {fix : Bool}
    {K P : Matrix (Fin n) (Fin n) ℝ} {G}
    (e : getKernelInverse X h name fix true = .ok (K, P, G)) :
    getKernelInverse X h name fix false = .ok (K, P, none) := by
  unfold getKernelInverse at e ⊢
  obtain ⟨_, f1, e⟩ := py_bind_ok e
  obtain ⟨K', f2, e⟩ := py_bind_ok e
  obtain ⟨P', f3, e⟩ := py_bind_ok e
  simp only [if_true] at e
  obtain ⟨gr, -, e⟩ := py_bind_ok e
  simp only [pure, Except.pure, Except.ok.injEq, Prod.mk.injEq] at e
  obtain ⟨rfl, rfl, -⟩ := e
  simp only [f1, f2, f3, bind, Except.bind, Bool.false_eq_true, if_false, pure, Except.pure]

end Verif.Lemmas
