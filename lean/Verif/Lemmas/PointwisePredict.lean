import Verif.Model.Tp
import Verif.Model.UtilsBo
import Verif.Spec.Steps
import Mathlib.Algebra.BigOperators.Fin

/-! A prediction for a batch of plain inputs is the list of the predictions for its rows, for
any hyperparameter dictionary with which it does not fail. The same for the acquisition
functions. -/

namespace Verif.Lemmas

open Verif.Covariance Verif.UtilsCovariance Verif.Gp Verif.Constants Verif.Spec

/-- On plain inputs, what `cov_main` reads from the dictionary does not depend on the inputs. -/
theorem covMain_vec_ok {n m d : ℕ} {name : String} {X : Fin n → Point d} {Z : Fin m → Point d}
    {h : HypDict} {same : Bool} {jit : ℝ} {K : Matrix (Fin n) (Fin m) ℝ}
    (hK : covMain name (.vec X) (.vec Z) h same jit = .ok K) :
    ∃ (c : CovName) (l : Lengthscales d) (s : ℝ),
      K = (if same = true then jit • npEye n m else 0) + c.cov X Z l s ∧
      ∀ {n' m' : ℕ} (X' : Fin n' → Point d) (Z' : Fin m' → Point d) (same' : Bool) (jit' : ℝ),
        (same' = true → n' = m') → covMain name (.vec X') (.vec Z') h same' jit' =
          .ok ((if same' = true then jit' • npEye n' m' else 0) + c.cov X' Z' l s) := by
  by_cases h1 : name ∈ ALLOWED_COV
  swap
  · simp [covMain, pyAssert, h1, bind, Except.bind] at hK
  by_cases h2 : name ∈ ALLOWED_COV_BASE
  swap
  · exfalso
    by_cases h3 : name ∈ ALLOWED_COV_SET
    · cases hb : setBaseName name <;> cases same <;> by_cases hnm : n = m <;>
        simp [covMain, pyAssert, h1, h2, h3, bind, Except.bind, pure, Except.pure, hb, hnm] at hK
    · cases same <;> by_cases hnm : n = m <;>
        simp [covMain, pyAssert, h1, h2, h3, bind, Except.bind, pure, Except.pure, hnm] at hK
  have key : ∀ {n' m' : ℕ} (X' : Fin n' → Point d) (Z' : Fin m' → Point d) (same' : Bool)
      (jit' : ℝ), (same' = true → n' = m') → covMain name (.vec X') (.vec Z') h same' jit' = (do
        let hyps ← (validateHypsDict h name d).2
        let fun_cov ← chooseFunCov name
        let lengthscales ← lengthscalesKey d hyps.lengthscales
        let signal ← numKey hyps.signal
        return (if same' = true then jit' • npEye n' m' else 0) +
          fun_cov.cov X' Z' lengthscales signal) := by
    intro n' m' X' Z' same' jit' hs
    cases same'
    · simp [covMain, pyAssert, h1, h2, bind, Except.bind, pure, Except.pure]
    · have := hs rfl
      simp [covMain, pyAssert, h1, h2, bind, Except.bind, this]
  have hs : same = true → n = m := by
    intro hst
    by_contra hnm
    subst hst
    simp [covMain, pyAssert, h1, hnm, bind, Except.bind] at hK
  rw [key X Z same jit hs] at hK
  cases hv : (validateHypsDict h name d).2 with
  | error e => rw [hv] at hK; cases hK
  | ok hyps =>
    cases hc : chooseFunCov name with
    | error e => rw [hv, hc] at hK; cases hK
    | ok c =>
      cases hl : lengthscalesKey d hyps.lengthscales with
      | error e => rw [hv, hc] at hK; simp [bind, Except.bind, hl] at hK
      | ok l =>
        cases hsg : numKey hyps.signal with
        | error e => rw [hv, hc] at hK; simp [bind, Except.bind, hl, hsg] at hK
        | ok s =>
          refine ⟨c, l, s, ?_, ?_⟩
          · rw [hv, hc] at hK
            simp only [bind, Except.bind, hl, hsg, pure, Except.pure, Except.ok.injEq] at hK
            exact hK.symm
          · intro n' m' X' Z' same' jit' hs'
            rw [key X' Z' same' jit' hs', hv, hc]
            simp only [bind, Except.bind, hl, hsg, pure, Except.pure]

theorem cov_entry (c : CovName) {n m n' m' d : ℕ} (X : Fin n → Point d) (Z : Fin m → Point d)
    (X' : Fin n' → Point d) (Z' : Fin m' → Point d) (l : Lengthscales d) (s : ℝ) (i : Fin n)
    (j : Fin m) (i' : Fin n') (j' : Fin m') (hi : X i = X' i') (hj : Z j = Z' j') :
    c.cov X Z l s i j = c.cov X' Z' l s i' j' := by
  cases c <;> simp only [CovName.cov, covSe, covMatern32, covMatern52, scaledDist, hi, hj]

theorem rowWise_none {d : ℕ} : RowWise (none : PriorMu d) := by
  intro n X μ h i
  simp only [getPriorMu, Except.ok.injEq] at h ⊢
  subst h
  rfl

/-- The matrices of a prediction restricted to one test row. -/
theorem covMain_rows {n l d : ℕ} {name : String} {X : Fin n → Point d} {Z : Fin l → Point d}
    {h : HypDict} {K : Matrix (Fin n) (Fin l) ℝ} {Ks : Matrix (Fin l) (Fin l) ℝ}
    (h1 : covMain name (.vec X) (.vec Z) h false = .ok K)
    (h2 : covMain name (.vec Z) (.vec Z) h true = .ok Ks) (j : Fin l) :
    ∃ (K1 : Matrix (Fin n) (Fin 1) ℝ) (K2 : Matrix (Fin 1) (Fin 1) ℝ),
      covMain name (.vec X) (.vec fun _ : Fin 1 => Z j) h false = .ok K1 ∧
      covMain name (.vec fun _ : Fin 1 => Z j) (.vec fun _ : Fin 1 => Z j) h true = .ok K2 ∧
      (∀ i a, K1 i a = K i j) ∧ ∀ a b, K2 a b = Ks j j := by
  obtain ⟨c, l1, s1, hK, hall⟩ := covMain_vec_ok h1
  have h3 := hall Z Z true JITTER_COV (fun _ => rfl)
  rw [h2] at h3
  have hKs := Except.ok.inj h3
  refine ⟨_, _, hall X (fun _ : Fin 1 => Z j) false JITTER_COV (by simp),
    hall (fun _ : Fin 1 => Z j) (fun _ : Fin 1 => Z j) true JITTER_COV (fun _ => rfl), ?_, ?_⟩
  · intro i a
    rw [hK, Matrix.add_apply, Matrix.add_apply]
    congr 1
    exact cov_entry c _ _ _ _ _ _ _ _ _ _ rfl rfl
  · intro a b
    rw [hKs, Matrix.add_apply, Matrix.add_apply]
    congr 1
    · simp [npEye]
    · exact cov_entry c _ _ _ _ _ _ _ _ _ _ rfl rfl

theorem gpPredict_row {n l d : ℕ} {X : Fin n → Point d} {Y : Fin n → ℝ} {Z : Fin l → Point d}
    {C Cinv : Matrix (Fin n) (Fin n) ℝ} {h : HypDict} {name : String} {prior : PriorMu d}
    (hp : RowWise prior) {m s : Fin l → ℝ} {S : Matrix (Fin l) (Fin l) ℝ}
    (hP : Gp.predictWithCov (.vec X) Y (.vec Z) C Cinv h name prior = .ok (m, s, S)) (j : Fin l) :
    Gp.predictWithCov (.vec X) Y (.vec fun _ : Fin 1 => Z j) C Cinv h name prior =
      .ok (fun _ => m j, fun _ => s j, fun _ _ => S j j) := by
  unfold Gp.predictWithCov at hP ⊢
  simp only [validateCommonArgs, Inputs.rank] at hP ⊢
  cases hc : checkStrCov name 2 (some 2) with
  | error e => simp [hc, bind, Except.bind] at hP
  | ok u =>
  cases hμ : getPriorMu prior (.vec X) with
  | error e => simp [hc, hμ, bind, Except.bind] at hP
  | ok μ =>
  cases hμs : getPriorMu prior (.vec Z) with
  | error e => simp [hc, hμ, hμs, bind, Except.bind] at hP
  | ok μs =>
  cases h1 : covMain name (.vec X) (.vec Z) h false with
  | error e => simp [hc, hμ, hμs, h1, bind, Except.bind] at hP
  | ok K =>
  cases h2 : covMain name (.vec Z) (.vec Z) h true with
  | error e => simp [hc, hμ, hμs, h1, h2, bind, Except.bind] at hP
  | ok Ks =>
  obtain ⟨K1, K2, h4, h5, e1, e2⟩ := covMain_rows h1 h2 j
  simp only [hc, hμ, hμs, h1, h2, bind, Except.bind, pure, Except.pure, Except.ok.injEq,
    Prod.mk.injEq] at hP
  obtain ⟨rfl, rfl, rfl⟩ := hP
  simp only [hp Z μs hμs j, h4, h5, bind, Except.bind, pure, Except.pure, Except.ok.injEq]
  have e3 : ∀ a b, (K1.transpose * Cinv * K1) a b = (K.transpose * Cinv * K) j j := by
    intro a b
    simp only [Matrix.mul_apply, Matrix.transpose_apply, e1]
  refine Prod.ext ?_ (Prod.ext ?_ ?_)
  · funext a
    simp only [Pi.add_apply, Matrix.mulVec, dotProduct, Matrix.mul_apply, Matrix.transpose_apply,
      e1]
  · funext a
    simp only [Matrix.sub_apply, e3, Matrix.of_apply, e2]
  · funext a b
    simp only [Matrix.sub_apply, e3, Matrix.of_apply, e2]

theorem tpPredict_row {n l d : ℕ} {X : Fin n → Point d} {Y : Fin n → ℝ} {Z : Fin l → Point d}
    {C Cinv : Matrix (Fin n) (Fin n) ℝ} {h : HypDict} {name : String} {prior : PriorMu d}
    (hp : RowWise prior) {ν : ℝ} {m s : Fin l → ℝ} {S : Matrix (Fin l) (Fin l) ℝ}
    (hP : Tp.predictWithCov (.vec X) Y (.vec Z) C Cinv h name prior = .ok (ν, m, s, S))
    (j : Fin l) :
    Tp.predictWithCov (.vec X) Y (.vec fun _ : Fin 1 => Z j) C Cinv h name prior =
      .ok (ν, fun _ => m j, fun _ => s j, fun _ _ => S j j) := by
  unfold Tp.predictWithCov at hP ⊢
  simp only [validateCommonArgs, Inputs.rank] at hP ⊢
  cases hc : checkStrCov name 2 (some 2) with
  | error e => simp [hc, bind, Except.bind] at hP
  | ok u =>
  cases hμ : getPriorMu prior (.vec X) with
  | error e => simp [hc, hμ, bind, Except.bind] at hP
  | ok μ =>
  cases hμs : getPriorMu prior (.vec Z) with
  | error e => simp [hc, hμ, hμs, bind, Except.bind] at hP
  | ok μs =>
  cases h1 : covMain name (.vec X) (.vec Z) h false with
  | error e => simp [hc, hμ, hμs, h1, bind, Except.bind] at hP
  | ok K =>
  cases h2 : covMain name (.vec Z) (.vec Z) h true with
  | error e => simp [hc, hμ, hμs, h1, h2, bind, Except.bind] at hP
  | ok Ks =>
  cases hν : numKey h.dof with
  | error e => simp [hc, hμ, hμs, h1, h2, hν, bind, Except.bind] at hP
  | ok nu =>
  by_cases h0 : nu + (n : ℝ) - 2 = 0
  · simp [hc, hμ, hμs, h1, h2, hν, h0, bind, Except.bind] at hP
  obtain ⟨K1, K2, h4, h5, e1, e2⟩ := covMain_rows h1 h2 j
  simp only [hc, hμ, hμs, h1, h2, hν, h0, if_false, bind, Except.bind, pure, Except.pure,
    Except.ok.injEq, Prod.mk.injEq] at hP
  obtain ⟨rfl, rfl, rfl, rfl⟩ := hP
  simp only [hp Z μs hμs j, h4, h5, h0, if_false, bind, Except.bind, pure, Except.pure,
    Except.ok.injEq]
  have e3 : ∀ a b, (K1.transpose * Cinv * K1) a b = (K.transpose * Cinv * K) j j := by
    intro a b
    simp only [Matrix.mul_apply, Matrix.transpose_apply, e1]
  refine Prod.ext rfl (Prod.ext ?_ (Prod.ext ?_ ?_))
  · funext a
    simp only [Pi.add_apply, Matrix.mulVec, dotProduct, Matrix.mul_apply, Matrix.transpose_apply,
      e1]
  · funext a
    simp only [Matrix.smul_apply, Matrix.sub_apply, e3, Matrix.of_apply, e2]
  · funext a b
    simp only [Matrix.smul_apply, Matrix.sub_apply, e3, Matrix.of_apply, e2]

open Verif.Acquisition Verif.UtilsBo

theorem guardDiv_ok {l : List ℝ} {u : Unit} (h : guardDiv l = .ok u) : (0 : ℝ) ∉ l := by
  unfold guardDiv at h
  split at h
  · cases h
  · assumption

theorem guardDiv_single {f : ℝ → ℝ} {s : List ℝ} {u : Unit} (h : guardDiv (s.map f) = .ok u)
    {x : ℝ} (hx : x ∈ s) : guardDiv [f x] = .ok () := by
  have := guardDiv_ok h
  unfold guardDiv
  rw [if_neg]
  intro h0
  simp only [List.mem_singleton] at h0
  exact this (List.mem_map.2 ⟨x, hx, h0.symm⟩)

theorem zipWith_entry {f : ℝ → ℝ → ℝ} {m s : List ℝ} {i : ℕ} {x y : ℝ} (hx : m[i]? = some x)
    (hy : s[i]? = some y) : (List.zipWith f m s)[i]? = some (f x y) := by
  simp [List.getElem?_zipWith, hx, hy]

/-- Every acquisition function works entry by entry. -/
theorem acq_row {name : String} {noise : Option ℝ} {f : AcqFun} (hf : chooseFunAcquisition name noise = .ok f)
    {m s Y a : List ℝ} (hms : m.length = s.length) (h : f m s Y = .ok a) :
    a.length = m.length ∧ ∀ (i : ℕ) x y, m[i]? = some x → s[i]? = some y →
      ∃ v, a[i]? = some v ∧ f [x] [y] Y = .ok [v] := by
  unfold chooseFunAcquisition at hf
  by_cases h0 : name ∈ ALLOWED_BO_ACQ
  swap
  · simp [pyAssert, h0, bind, Except.bind] at hf
  simp only [pyAssert, h0, if_true, bind, Except.bind] at hf
  have zl : ∀ g : ℝ → ℝ → ℝ, (List.zipWith g m s).length = m.length := by
    intro g; simp [hms]
  split at hf
  · obtain rfl := Except.ok.inj hf
    simp only [pi, pyAssert, hms, if_true, bind, Except.bind] at h ⊢
    cases hb : npMin Y with
    | error e => simp [hb] at h
    | ok b =>
    cases hg : guardDiv (s.map (· + JITTER_ACQ)) with
    | error e => simp [hb, hg] at h
    | ok u =>
    simp only [hb, hg, pure, Except.pure, Except.ok.injEq] at h
    subst h
    refine ⟨by simp [hms], ?_⟩
    intro i x y hx hy
    refine ⟨_, by rw [List.getElem?_map, zipWith_entry hx hy]; rfl, ?_⟩
    have := guardDiv_single hg (List.mem_of_getElem? hy)
    simp [hb, this, pure, Except.pure]
  split at hf
  · obtain rfl := Except.ok.inj hf
    simp only [ei, pyAssert, hms, if_true, bind, Except.bind] at h ⊢
    cases hb : npMin Y with
    | error e => simp [hb] at h
    | ok b =>
    cases hg : guardDiv (s.map (· + JITTER_ACQ)) with
    | error e => simp [hb, hg] at h
    | ok u =>
    simp only [hb, hg, pure, Except.pure, Except.ok.injEq] at h
    subst h
    refine ⟨by simp [hms], ?_⟩
    intro i x y hx hy
    refine ⟨_, zipWith_entry hx hy, ?_⟩
    have := guardDiv_single hg (List.mem_of_getElem? hy)
    simp [hb, this, pure, Except.pure]
  split at hf
  · obtain rfl := Except.ok.inj hf
    simp only [ucb, pyAssert, hms, if_true, bind, Except.bind, pure, Except.pure,
      Except.ok.injEq] at h ⊢
    subst h
    refine ⟨by simp [hms], ?_⟩
    intro i x y hx hy
    refine ⟨_, zipWith_entry hx hy, ?_⟩
    simp
  split at hf
  · cases noise with
    | none => cases hf
    | some noise =>
    obtain rfl := Except.ok.inj hf
    simp only [aei, pyAssert, hms, if_true, bind, Except.bind] at h ⊢
    cases hb : npMin Y with
    | error e => simp [hb] at h
    | ok b =>
    cases hg : guardDiv (s.map (· + JITTER_ACQ)) with
    | error e => simp [hb, hg] at h
    | ok u =>
    cases hg2 : guardDiv (s.map (fun s => Real.sqrt (s ^ 2 + noise ^ 2))) with
    | error e => simp [hb, hg, hg2] at h
    | ok u =>
    simp only [hb, hg, hg2, pure, Except.pure, Except.ok.injEq] at h
    subst h
    refine ⟨by simp [hms], ?_⟩
    intro i x y hx hy
    refine ⟨_, zipWith_entry hx hy, ?_⟩
    have h1 := guardDiv_single hg (List.mem_of_getElem? hy)
    have h2 := guardDiv_single hg2 (List.mem_of_getElem? hy)
    simp [hb, h1, h2, pure, Except.pure]
  split at hf
  · obtain rfl := Except.ok.inj hf
    simp only [pureExploit, pure, Except.pure, Except.ok.injEq] at h ⊢
    subst h
    exact ⟨by simp, fun i x y hx hy => ⟨-x, by simp [hx], rfl⟩⟩
  split at hf
  · obtain rfl := Except.ok.inj hf
    simp only [pureExplore, pure, Except.pure, Except.ok.injEq] at h ⊢
    subst h
    exact ⟨hms.symm, fun i x y hx hy => ⟨y, hy, rfl⟩⟩
  · cases hf

end Verif.Lemmas
