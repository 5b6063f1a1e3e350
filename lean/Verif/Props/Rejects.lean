import Verif.Model.Gp
import Verif.Model.Tp
import Verif.Lemmas.Cholesky
import Verif.Spec.Inputs

/-! C69: the retry loop of the Cholesky factorisation on arbitrary matrices. C70: which inputs
the covariance code and the prior-mean code refuse. -/

namespace Verif.Props

open Verif.Spec Verif.Covariance Verif.Gp Verif.UtilsCovariance Verif.Lemmas

/-! ### C69 -/

/-- `L` is a lower-triangular factor with positive diagonal of `A + j I`. -/
def FactorOf {n : ℕ} (A : Matrix (Fin n) (Fin n) ℝ) (j : ℝ) (L : Matrix (Fin n) (Fin n) ℝ) : Prop :=
  (∀ a b, a < b → L a b = 0) ∧ (∀ a, 0 < L a a) ∧
    ∀ a b, ∑ k, L a k * L b k = A a b + if a = b then j else 0

private theorem factorOf_iff {n : ℕ} (A : Matrix (Fin n) (Fin n) ℝ) (j : ℝ)
    (L : Matrix (Fin n) (Fin n) ℝ) : FactorOf A j L ↔ IsCholesky (A + j • npEye n n) L := by
  have key : (∀ a b, ∑ k, L a k * L b k = A a b + if a = b then j else 0) ↔
      L * L.transpose = A + j • npEye n n := by
    constructor
    · intro h
      ext a b
      simp only [Matrix.mul_apply, Matrix.transpose_apply, Matrix.add_apply, Matrix.smul_apply,
        npEye, ← Fin.ext_iff, smul_eq_mul, mul_ite, mul_one, mul_zero]
      exact h a b
    · intro h a b
      have := congrFun (congrFun h a) b
      simpa only [Matrix.mul_apply, Matrix.transpose_apply, Matrix.add_apply, Matrix.smul_apply,
        npEye, ← Fin.ext_iff, smul_eq_mul, mul_ite, mul_one, mul_zero] using this
  unfold FactorOf IsCholesky
  rw [key]

/-- C69. For any matrix and any list of jitters the loop returns the matrix with the first
jitter for which a factor exists, together with its factor; it raises `ValueError` exactly
when no jitter of the list works. -/
theorem C69_retry {n : ℕ} (A : Matrix (Fin n) (Fin n) ℝ) (js : List ℝ) :
    (∃ (i : ℕ) (j : ℝ) (L B : Matrix (Fin n) (Fin n) ℝ), js[i]? = some j ∧
        choleskyLoop A js = .ok (B, L) ∧ FactorOf A j L ∧
        (∀ a b, B a b = A a b + if a = b then j else 0) ∧
        ∀ (k : ℕ) j', k < i → js[k]? = some j' → ¬ ∃ L', FactorOf A j' L') ∨
      (choleskyLoop A js = .error .value ∧ ∀ j ∈ js, ¬ ∃ L, FactorOf A j L) := by
  induction js with
  | nil => right; exact ⟨rfl, by simp⟩
  | cons j t ih =>
    by_cases hj : ∃ L, FactorOf A j L
    · left
      have hj' : ∃ L, IsCholesky (A + j • npEye n n) L := by
        obtain ⟨L, hL⟩ := hj
        exact ⟨L, (factorOf_iff A j L).1 hL⟩
      refine ⟨0, j, hj'.choose, A + j • npEye n n, rfl, ?_,
        (factorOf_iff A j _).2 hj'.choose_spec, ?_, fun k _ hk => absurd hk (Nat.not_lt_zero k)⟩
      · simp only [choleskyLoop, spCholesky, dif_pos hj']
      · intro a b
        simp [npEye, ← Fin.ext_iff]
    · have hj' : ¬ ∃ L, IsCholesky (A + j • npEye n n) L := by
        rintro ⟨L, hL⟩
        exact hj ⟨L, (factorOf_iff A j L).2 hL⟩
      have e : choleskyLoop A (j :: t) = choleskyLoop A t := by
        simp only [choleskyLoop, spCholesky, dif_neg hj']
      rw [e]
      rcases ih with ⟨i, j', L, B, h1, h2, h3, h4, h5⟩ | ⟨h1, h2⟩
      · left
        refine ⟨i + 1, j', L, B, h1, h2, h3, h4, ?_⟩
        intro k j'' hk hj''
        cases k with
        | zero =>
          simp only [List.getElem?_cons_zero, Option.some.injEq] at hj''
          rwa [← hj'']
        | succ k => exact h5 k j'' (by omega) (by simpa using hj'')
      · right
        refine ⟨h1, ?_⟩
        intro j' hj''
        rcases List.mem_cons.1 hj'' with rfl | hm
        · exact hj
        · exact h2 j' hm

/-- Concrete case of C69: the matrix `-1/1000` has no factor; of the jitters of the code the
first one that works is `1e-2`. -/
example : ∃ L B : Matrix (Fin 1) (Fin 1) ℝ,
    choleskyLoop (fun _ _ => (-1 / 1000 : ℝ)) jitters = .ok (B, L) ∧ B 0 0 = 9 / 1000 := by
  have no : ∀ j : ℝ, j ≤ 1 / 1000 →
      ¬ ∃ L : Matrix (Fin 1) (Fin 1) ℝ, FactorOf (fun _ _ => (-1 / 1000 : ℝ)) j L := by
    rintro j hj ⟨L, -, hp, he⟩
    have h0 := he 0 0
    simp at h0
    have := mul_pos (hp 0) (hp 0)
    linarith
  have yes : FactorOf (fun _ _ : Fin 1 => (-1 / 1000 : ℝ)) (1 / 100) (fun _ _ => √(9 / 1000)) := by
    refine ⟨fun a b h => absurd h (by simp [Subsingleton.elim a b]), fun _ => by positivity, ?_⟩
    intro a b
    have : √(9 / 1000 : ℝ) * √(9 / 1000) = 9 / 1000 := Real.mul_self_sqrt (by norm_num)
    rw [Fin.sum_univ_one, if_pos (Subsingleton.elim a b), this]
    norm_num
  rcases C69_retry (fun _ _ : Fin 1 => (-1 / 1000 : ℝ)) jitters with
    ⟨i, j, L, B, h1, h2, h3, h4, h5⟩ | ⟨-, h⟩
  · refine ⟨L, B, h2, ?_⟩
    have h1' := h1
    have hi : i = 2 := by
      rcases Nat.lt_trichotomy i 2 with hlt | h | hgt
      · exfalso
        refine no j ?_ ⟨L, h3⟩
        interval_cases i <;> simp [jitters] at h1 <;> rw [← h1] <;> norm_num
      · exact h
      · exact absurd ⟨_, yes⟩ (h5 2 (1 / 100) hgt (by simp [jitters]; norm_num))
    subst hi
    simp [jitters] at h1
    rw [h4, if_pos rfl, ← h1]
    norm_num
  · exact absurd ⟨_, yes⟩ (h (1 / 100) (by simp [jitters]; norm_num))

/-! ### C70 -/

/-- The eight covariance names. -/
def covNames : List String :=
  ["eq", "se", "matern32", "matern52", "set_eq", "set_se", "set_matern32", "set_matern52"]

private theorem allowed_eq : Constants.ALLOWED_COV = covNames := by
  simp [Constants.ALLOWED_COV, Constants.ALLOWED_COV_BASE, Constants.ALLOWED_COV_SET, covNames]

/-- C70. A name that is not one of the eight is an `AssertionError`, whatever the inputs. -/
theorem C70_unknown_name {n m d : ℕ} (name : String) (hn : name ∉ covNames) (X : Inputs n d)
    (Xp : Inputs m d) (h : HypDict) (same : Bool) (jit : ℝ) :
    covMain name X Xp h same jit = .error .assertion := by
  rw [← allowed_eq] at hn
  simp only [covMain, pyAssert, hn, if_false, bind, Except.bind]

/-- C70. Declaring two collections of different sizes to be the same is an `AssertionError`. -/
theorem C70_different_sizes {n m d : ℕ} (name : String) (X : Inputs n d) (Xp : Inputs m d)
    (h : HypDict) (jit : ℝ) (hnm : n ≠ m) :
    covMain name X Xp h true jit = .error .assertion := by
  by_cases hn : name ∈ Constants.ALLOWED_COV
  · simp only [covMain, pyAssert, hn, hnm, if_true, if_false, bind, Except.bind]
  · simp only [covMain, pyAssert, hn, if_false, bind, Except.bind]

/-- C70. Base names on sets and set names on plain inputs are an `AssertionError`. -/
theorem C70_wrong_rank {n m d : ℕ} (name : String) (X : Inputs n d) (Xp : Inputs m d)
    (h : HypDict) (same : Bool) (jit : ℝ)
    (hr : name ∈ baseNames ∧ (X.rank = 3 ∨ Xp.rank = 3) ∨
      (∃ b ∈ baseNames, name = "set_" ++ b) ∧ (X.rank = 2 ∨ Xp.rank = 2)) :
    covMain name X Xp h same jit = .error .assertion := by
  rcases hr with ⟨hn, hr⟩ | ⟨⟨b, hb, rfl⟩, hr⟩
  · have h1 : name ∈ Constants.ALLOWED_COV := by
      rw [allowed_eq]; simp [baseNames] at hn; rcases hn with rfl | rfl | rfl | rfl <;> decide
    have h2 : name ∈ Constants.ALLOWED_COV_BASE := by
      simp [baseNames] at hn; rcases hn with rfl | rfl | rfl | rfl <;> decide
    unfold covMain
    simp only [pyAssert, h1, if_true, bind, Except.bind]
    cases same <;> by_cases hnm : n = m <;> cases X <;> cases Xp <;>
      simp_all [Inputs.rank, pure, Except.pure]
  · have h1 : "set_" ++ b ∈ Constants.ALLOWED_COV := by
      rw [allowed_eq]; simp [baseNames] at hb; rcases hb with rfl | rfl | rfl | rfl <;> decide
    have h2 : "set_" ++ b ∉ Constants.ALLOWED_COV_BASE := by
      simp [baseNames] at hb; rcases hb with rfl | rfl | rfl | rfl <;> decide
    have h3 : "set_" ++ b ∈ Constants.ALLOWED_COV_SET := by
      simp [baseNames] at hb; rcases hb with rfl | rfl | rfl | rfl <;> decide
    have h4 : ∃ c, setBaseName ("set_" ++ b) = .ok c := by
      simp [baseNames] at hb; rcases hb with rfl | rfl | rfl | rfl
      · exact ⟨"eq", by decide⟩
      · exact ⟨"se", by decide⟩
      · exact ⟨"matern32", by decide⟩
      · exact ⟨"matern52", by decide⟩
    obtain ⟨c, h4⟩ := h4
    unfold covMain
    simp only [pyAssert, h1, if_true, bind, Except.bind]
    cases same <;> by_cases hnm : n = m <;> cases X <;> cases Xp <;>
      simp_all [Inputs.rank, pure, Except.pure]

/-- C70. A prior mean is used exactly when it returns one value per input; otherwise it is an
`AssertionError`. No prior mean is the mean zero. -/
theorem C70_prior_mean {n d : ℕ} (f : ∀ n : ℕ, Inputs n d → Py (List ℝ)) (X : Inputs n d)
    (v : List ℝ) (hf : f n X = .ok v) :
    (v.length = n → ∃ μ, getPriorMu (some f) X = .ok μ ∧ List.ofFn μ = v) ∧
      (v.length ≠ n → getPriorMu (some f) X = .error .assertion) ∧
      getPriorMu none X = .ok fun _ => 0 := by
  refine ⟨?_, ?_, rfl⟩
  · rintro rfl
    refine ⟨fun i => v[i], ?_, ?_⟩
    · simp [getPriorMu, hf, bind, Except.bind, pure, Except.pure]
    · simp [List.ofFn_getElem]
  · intro hv
    simp [getPriorMu, hf, bind, Except.bind, Ne.symm hv]

/-- C70. Predicting at sets from plain inputs is an `AssertionError` for every known covariance, and for
every other name unless the sets have as many points as there are coordinates, when it is the
`ValueError` of an unknown name. Predicting at plain inputs from sets is an `IndexError`. -/
theorem C70_mixed_predictions {n l m d : ℕ} (X : Fin n → Point d) (S : Fin l → Fin m → Point d)
    (Y : Fin n → ℝ) (Y' : Fin l → ℝ) (h : HypDict) (name : String) (prior : PriorMu d) :
    (predictWithHyps (.vec X) Y (.set m S) h name prior =
      if name ∈ covNames ∨ m ≠ d then .error .assertion else .error .value) ∧
    predictWithHyps (.set m S) Y' (.vec X) h name prior = .error .index := by
  refine ⟨?_, rfl⟩
  have hbase : name ∈ covNames ↔ name ∈ Constants.ALLOWED_COV_BASE ∨ name ∈ Constants.ALLOWED_COV_SET := by
    rw [← allowed_eq, Constants.ALLOWED_COV, List.mem_append]
  by_cases hm : d = m
  · subst hm
    by_cases h1 : name ∈ Constants.ALLOWED_COV_BASE
    · simp [predictWithHyps, validateCommonArgs, checkStrCov, pyAssert, hbase, h1, Inputs.rank, bind,
        Except.bind]
    · by_cases h2 : name ∈ Constants.ALLOWED_COV_SET
      · simp [predictWithHyps, validateCommonArgs, checkStrCov, pyAssert, hbase, h1, h2, Inputs.rank, bind,
          Except.bind]
      · simp [predictWithHyps, validateCommonArgs, checkStrCov, pyAssert, hbase, h1, h2, Inputs.rank, bind,
          Except.bind]
  · simp [predictWithHyps, validateCommonArgs, pyAssert, hm, Ne.symm hm, bind, Except.bind]

/-- C70. The same for the Student-t process. -/
theorem C70_mixed_predictions_tp {n l m d : ℕ} (X : Fin n → Point d) (S : Fin l → Fin m → Point d)
    (Y : Fin n → ℝ) (Y' : Fin l → ℝ) (h : HypDict) (name : String) (prior : PriorMu d) :
    (Tp.predictWithHyps (.vec X) Y (.set m S) h name prior =
      if name ∈ covNames ∨ m ≠ d then .error .assertion else .error .value) ∧
    Tp.predictWithHyps (.set m S) Y' (.vec X) h name prior = .error .index := by
  refine ⟨?_, rfl⟩
  have hbase : name ∈ covNames ↔ name ∈ Constants.ALLOWED_COV_BASE ∨ name ∈ Constants.ALLOWED_COV_SET := by
    rw [← allowed_eq, Constants.ALLOWED_COV, List.mem_append]
  by_cases hm : d = m
  · subst hm
    by_cases h1 : name ∈ Constants.ALLOWED_COV_BASE
    · simp [Tp.predictWithHyps, validateCommonArgs, checkStrCov, pyAssert, hbase, h1, Inputs.rank, bind,
        Except.bind]
    · by_cases h2 : name ∈ Constants.ALLOWED_COV_SET
      · simp [Tp.predictWithHyps, validateCommonArgs, checkStrCov, pyAssert, hbase, h1, h2, Inputs.rank,
          bind, Except.bind]
      · simp [Tp.predictWithHyps, validateCommonArgs, checkStrCov, pyAssert, hbase, h1, h2, Inputs.rank,
          bind, Except.bind]
  · simp [Tp.predictWithHyps, validateCommonArgs, pyAssert, hm, Ne.symm hm, bind, Except.bind]

/-- The error depends on the number of points in the sets. -/
example : predictWithHyps (n := 1) (l := 1) (d := 1) (.vec fun _ _ => 0) (fun _ => 0)
      (.set 1 fun _ _ _ => 0) {} "linear" = .error .value ∧
    predictWithHyps (n := 1) (l := 1) (d := 1) (.vec fun _ _ => 0) (fun _ => 0)
      (.set 2 fun _ _ _ => 0) {} "linear" = .error .assertion := by
  constructor
  · rw [(C70_mixed_predictions _ _ _ (fun _ => 0) _ _ _).1, if_neg (by decide)]
  · rw [(C70_mixed_predictions _ _ _ (fun _ => 0) _ _ _).1, if_pos (by decide)]

/-- Concrete cases of C70. -/
example : covMain (n := 2) (m := 1) (d := 1) "linear" (.vec fun _ _ => 0) (.vec fun _ _ => 0) {}
      false = .error .assertion ∧
    covMain (n := 2) (m := 1) (d := 1) "se" (.vec fun _ _ => 0) (.vec fun _ _ => 0) {}
      true = .error .assertion ∧
    covMain (n := 1) (m := 1) (d := 1) "set_se" (.vec fun _ _ => 0) (.vec fun _ _ => 0) {}
      false = .error .assertion ∧
    getPriorMu (d := 1) (some fun _ _ => .ok [1, 2]) (.vec fun _ : Fin 3 => fun _ => 0) =
      .error .assertion :=
  ⟨C70_unknown_name _ (by decide) _ _ _ _ _, C70_different_sizes _ _ _ _ _ (by decide),
    C70_wrong_rank _ _ _ _ _ _ (.inr ⟨⟨"se", by simp [baseNames], by decide⟩, .inl rfl⟩),
    (C70_prior_mean (fun _ _ => .ok [1, 2]) _ [1, 2] rfl).2.1 (by decide)⟩

end Verif.Props
