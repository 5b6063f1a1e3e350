import Verif.Spec.Wrapper
import Verif.Lemmas.WrapperClass
import Verif.Props.Total

/-! # C56: which configurations the wrapper accepts -/

namespace Verif.Props

open Verif.Spec Verif.Lemmas Verif.BoCommon Verif.UtilsBo Verif.Constants Verif.BaseBo
open Verif.WrapperClass

variable {d : ℕ}

private theorem allowed_cov : ALLOWED_COV = ["eq", "se", "matern32", "matern52",
    "set_eq", "set_se", "set_matern32", "set_matern52"] := by decide

/-- C56. The checks of the class itself let through exactly the documented arguments; everything
else is an `AssertionError`. -/
theorem C56_own_checks (a : Args d) :
    (Documented a → ownChecks a = .ok ()) ∧ (¬ Documented a → ownChecks a = .error .assertion) := by
  constructor
  · rintro ⟨h1, h2, h3, h4, h5, h6, h7, h8, h9, h10, h11, h12, h13⟩
    have h4' : a.str_surrogate ∈ ALLOWED_SURROGATE ++ ALLOWED_SURROGATE_TREES := h4
    have h5' : a.str_cov ∈ ALLOWED_COV := allowed_cov ▸ h5
    have h6' : a.str_acq ∈ ALLOWED_BO_ACQ := h6
    have h7' : a.str_initial_method_bo ∈ ALLOWED_INITIALIZING_METHOD_BO := h7
    have h8' : a.str_sampling_method_ao ∈ ALLOWED_SAMPLING_METHOD := h8
    have h9' : a.str_optimizer_method_gp ∈ ALLOWED_OPTIMIZER_METHOD_GP := h9
    have h10' : a.str_optimizer_method_tp ∈ ALLOWED_OPTIMIZER_METHOD_TP := h10
    have h11' : a.str_optimizer_method_bo ∈
      ALLOWED_OPTIMIZER_METHOD_BO ++ ALLOWED_OPTIMIZER_METHOD_BO_TREES := h11
    have h12' : a.str_mlm_method ∈ ALLOWED_MLM_METHOD := h12
    have h13' : a.str_modelselection_method ∈ ALLOWED_MODELSELECTION_METHOD := h13
    simp only [ownChecks, assert_true h1, assert_true h2, assert_true h3, assert_true h4',
      assert_true h5', assert_true h6', assert_true h7', assert_true h8', assert_true h9',
      assert_true h10', assert_true h11', assert_true h12', assert_true h13', bind, Except.bind]
  · intro h
    by_contra hne
    apply h
    have key : ∀ {p : Prop} [Decidable p] {m : Py Unit},
        (pyAssert p >>= fun _ => m) ≠ .error .assertion → p ∧ m ≠ .error .assertion := by
      intro p _ m hm
      by_cases hp : p
      · rw [show pyAssert p = .ok () from if_pos hp] at hm
        exact ⟨hp, hm⟩
      · rw [show pyAssert p = .error .assertion from if_neg hp] at hm
        exact (hm rfl).elim
    unfold ownChecks at hne
    obtain ⟨h1, hne⟩ := key hne
    obtain ⟨h2, hne⟩ := key hne
    obtain ⟨h3, hne⟩ := key hne
    obtain ⟨h4, hne⟩ := key hne
    obtain ⟨h5, hne⟩ := key hne
    obtain ⟨h6, hne⟩ := key hne
    obtain ⟨h7, hne⟩ := key hne
    obtain ⟨h8, hne⟩ := key hne
    obtain ⟨h9, hne⟩ := key hne
    obtain ⟨h10, hne⟩ := key hne
    obtain ⟨h11, hne⟩ := key hne
    obtain ⟨h12, hne⟩ := key hne
    have h13 : a.str_modelselection_method ∈ ALLOWED_MODELSELECTION_METHOD := by
      by_contra hp
      exact hne (if_neg hp)
    exact ⟨h1, h2, h3, h4, allowed_cov ▸ h5, h6, h7, h8, h9, h10, h11, h12, h13⟩

/-- C56. The exact table: a `BayesianOptimization` object comes into being exactly for documented
arguments whose acquisition optimiser belongs to the surrogate. -/
theorem C56_table (env : Installed) (a : Args d) :
    (∃ w, create env a = .ok w) ↔
      Documented a ∧ Matching a.str_surrogate a.str_optimizer_method_bo := by
  constructor
  · rintro ⟨⟨w, st⟩, h⟩
    obtain ⟨h1, -, -, -, -, -, -, m', h2, h3⟩ := create_ok h
    have hdoc : Documented a := by
      by_contra hn
      rw [(C56_own_checks a).2 hn] at h1
      cases h1
    refine ⟨hdoc, ?_⟩
    obtain ⟨m'', h4, h5, h6⟩ := optimizer_checked env _ d hdoc.bo
    obtain rfl := Except.ok.inj (h4.symm.trans h2)
    rcases h3 with ⟨hs, -, bo, -, h3⟩ | ⟨hs, -, bo, -, h3⟩ | ⟨hs, -, bo, -, h3⟩
    · refine .inl ⟨hs, ?_⟩
      by_contra hr
      have h6 := h6 hr
      unfold BoWTrees.init at h3
      obtain ⟨_, -, h3⟩ := py_bind_ok h3
      obtain ⟨_, -, h3⟩ := py_bind_ok h3
      obtain ⟨_, -, h3⟩ := py_bind_ok h3
      obtain ⟨_, e, -⟩ := py_bind_ok h3
      have := pyAssert_ok e
      simp only [ALLOWED_OPTIMIZER_METHOD_BO_TREES, List.mem_singleton] at this
      rw [this] at h6
      simp [ALLOWED_OPTIMIZER_METHOD_BO] at h6
    · refine .inr ⟨by rw [hs]; decide, fun hr => ?_⟩
      rw [h5 hr, hr] at h3
      unfold BoWGp.init at h3
      obtain ⟨_, -, h3⟩ := py_bind_ok h3
      obtain ⟨_, -, h3⟩ := py_bind_ok h3
      obtain ⟨_, -, h3⟩ := py_bind_ok h3
      obtain ⟨_, -, h3⟩ := py_bind_ok h3
      obtain ⟨_, e, -⟩ := py_bind_ok h3
      have := pyAssert_ok e
      simp [ALLOWED_OPTIMIZER_METHOD_BO] at this
    · refine .inr ⟨by rw [hs]; decide, fun hr => ?_⟩
      rw [h5 hr, hr] at h3
      unfold BoWTp.init at h3
      obtain ⟨_, -, h3⟩ := py_bind_ok h3
      obtain ⟨_, -, h3⟩ := py_bind_ok h3
      obtain ⟨_, -, h3⟩ := py_bind_ok h3
      obtain ⟨_, -, h3⟩ := py_bind_ok h3
      obtain ⟨_, e, -⟩ := py_bind_ok h3
      have := pyAssert_ok e
      simp [ALLOWED_OPTIMIZER_METHOD_BO] at this
  · rintro ⟨hdoc, hm⟩
    obtain ⟨m', h2, h5, h6⟩ := optimizer_checked env _ d hdoc.bo
    have hacq : a.str_acq ∈ ALLOWED_BO_ACQ := hdoc.acq
    have hcov : a.str_cov ∈ ALLOWED_COV := allowed_cov ▸ hdoc.cov
    have hgp : a.str_optimizer_method_gp ∈ ALLOWED_OPTIMIZER_METHOD_GP := hdoc.gp
    have htp : a.str_optimizer_method_tp ∈ ALLOWED_OPTIMIZER_METHOD_TP := hdoc.tp
    have hse : a.str_modelselection_method ∈ ALLOWED_MODELSELECTION_METHOD := hdoc.selection
    have goal : ∃ r, getModelBo env a m' = .ok r := by
      have hsur := hdoc.surrogate
      simp only [List.mem_cons, List.not_mem_nil, or_false] at hsur
      unfold getModelBo
      rcases hsur with hs | hs | hs
      · rcases hm with ⟨c, -⟩ | ⟨-, hne⟩
        · rw [hs] at c; simp at c
        have hm' := h6 hne
        obtain ⟨b, hb⟩ := initBase_total env hdoc.box (sur := "gp") (by decide) hacq
          (List.mem_append_left _ hm') a.normalize_Y
        have hg : ("gp" : String) ∈ ALLOWED_SURROGATE := by decide
        rw [if_neg (by rw [hs]; decide), if_pos hs]
        simp only [BoWGp.init, assert_true hdoc.box, assert_true hcov, assert_true hacq,
          assert_true hgp, assert_true hm', assert_true hse, assert_true hg, hb, bind, Except.bind]
        exact ⟨_, rfl⟩
      · rcases hm with ⟨c, -⟩ | ⟨-, hne⟩
        · rw [hs] at c; simp at c
        have hm' := h6 hne
        obtain ⟨b, hb⟩ := initBase_total env hdoc.box (sur := "tp") (by decide) hacq
          (List.mem_append_left _ hm') a.normalize_Y
        have hg : ("tp" : String) ∈ ALLOWED_SURROGATE := by decide
        rw [if_neg (by rw [hs]; decide), if_neg (by rw [hs]; decide), if_pos hs]
        simp only [BoWTp.init, assert_true hdoc.box, assert_true hcov, assert_true hacq,
          assert_true htp, assert_true hm', assert_true hg, hb, bind, Except.bind]
        exact ⟨_, rfl⟩
      · rcases hm with ⟨-, hr⟩ | ⟨c, -⟩
        swap
        · exact (c hs).elim
        have hm' : m' ∈ ALLOWED_OPTIMIZER_METHOD_BO_TREES := by rw [h5 hr, hr]; decide
        have hg : a.str_surrogate ∈ ALLOWED_SURROGATE_TREES := by rw [hs]; decide
        obtain ⟨b, hb⟩ := initBase_total env hdoc.box (sur := a.str_surrogate)
          (List.mem_append_right _ hg) hacq (List.mem_append_right _ hm') a.normalize_Y
        rw [if_pos hg]
        simp only [BoWTrees.init, assert_true hdoc.box, assert_true hacq, assert_true hm',
          assert_true hg, hb, bind, Except.bind]
        exact ⟨_, rfl⟩
    obtain ⟨⟨mo, st⟩, h3⟩ := goal
    simp only [create, (C56_own_checks a).1 hdoc, h2, h3, bind, Except.bind]
    exact ⟨_, rfl⟩

/-- C56. Documented arguments with an acquisition optimiser of the wrong kind pass the checks of the
class and are refused by the surrogate's constructor. -/
theorem C56_mismatch (env : Installed) (a : Args d) (ha : Documented a)
    (hm : ¬ Matching a.str_surrogate a.str_optimizer_method_bo) :
    ownChecks a = .ok () ∧ create env a = .error .assertion := by
  have h1 := (C56_own_checks a).1 ha
  refine ⟨h1, ?_⟩
  have hno : ¬ ∃ w, create env a = .ok w := fun h => hm ((C56_table env a).1 h).2
  rcases hc : create env a with e | w
  swap
  · exact (hno ⟨w, hc⟩).elim
  rw [create_onlyAsserts ha.surrogate _ hc]

/-- C56 is violated: a random forest with all other options left at their defaults passes the checks
of the class and cannot be constructed, whatever the search space. -/
theorem C56_default_forest_violated (env : Installed) (B : Bounds d)
    (hB : ∀ i, (B i).1 ≤ (B i).2) (T : ℤ) (hT : 0 < T) :
    ownChecks { range_X := B, num_iter := T, str_surrogate := "rf" } = .ok () ∧
      create env { range_X := B, num_iter := T, str_surrogate := "rf" } = .error .assertion := by
  apply C56_mismatch
  · constructor <;> simp only [] <;> first | exact hB | exact hT | decide
  · simp only [Matching, STR_OPTIMIZER_METHOD_AO]
    decide

/-- C56 is violated: random search passes the checks of the class with either process surrogate, but
the surrogate refuses it. -/
theorem C56_random_search_violated (env : Installed) (B : Bounds d)
    (hB : ∀ i, (B i).1 ≤ (B i).2) (T : ℤ) (hT : 0 < T) (sur : String)
    (hs : sur = "gp" ∨ sur = "tp") :
    let a : Args d := { range_X := B, num_iter := T, str_surrogate := sur,
                        str_optimizer_method_bo := "random_search" }
    ownChecks a = .ok () ∧ create env a = .error .assertion := by
  rcases hs with rfl | rfl
  all_goals
    apply C56_mismatch
    · constructor <;> simp only [] <;> first | exact hB | exact hT | decide
    · simp only [Matching]
      decide

/-! Concrete cases: the defaults work, and so does a random forest with random search. -/

example : Documented ({ range_X := exBox, num_iter := 5 } : Args 2) ∧
    Matching "gp" "L-BFGS-B" ∧ Matching "rf" "random_search" ∧
    (∃ w, create ⟨false, true⟩ { range_X := exBox, num_iter := 5 } = .ok w) ∧
    (∃ w, create ⟨false, true⟩ { range_X := exBox, num_iter := 5, str_surrogate := "rf",
                                 str_optimizer_method_bo := "random_search" } = .ok w) := by
  have h1 : Documented ({ range_X := exBox, num_iter := 5 } : Args 2) := by
    constructor <;> simp only [] <;> first | exact exBox_le | decide
  have h2 : Documented ({ range_X := exBox, num_iter := 5, str_surrogate := "rf",
                          str_optimizer_method_bo := "random_search" } : Args 2) := by
    constructor <;> simp only [] <;> first | exact exBox_le | decide
  have m1 : Matching "gp" "L-BFGS-B" := by unfold Matching; decide
  have m2 : Matching "rf" "random_search" := by unfold Matching; decide
  exact ⟨h1, m1, m2, (C56_table _ _).2 ⟨h1, m1⟩, (C56_table _ _).2 ⟨h2, m2⟩⟩

end Verif.Props
