import Verif.Spec.Hyps
import Verif.Lemmas.Flt
import Mathlib.Tactic.NormNum
import Mathlib.Tactic.Linarith

/-! # C19, C20, C21: hyperparameter dictionaries -/

namespace Verif.Props

open Verif.Spec Verif.UtilsCovariance Verif.Constants

theorem listFirst_eq : getListFirst = ALLOWED_COV := rfl

private theorem mapM_pyIndex_range' (l : List Flt) (k : ℕ) :
    ∀ m, k + m ≤ l.length → (List.range' k m).mapM (pyIndex l) = .ok ((l.drop k).take m) := by
  intro m
  induction m generalizing k with
  | zero => intro _; simp [pure, Except.pure]
  | succ m ih =>
    intro h
    have hk : k < l.length := by omega
    rw [List.range'_succ, List.mapM_cons, ih (k + 1) (by omega)]
    have h0 : pyIndex l k = .ok l[k] := by
      simp [pyIndex, List.getElem?_eq_getElem hk]
    rw [h0, List.drop_eq_getElem_cons hk, List.take_succ_cons]
    rfl

theorem restore_tail (l : List Flt) (k : ℕ) :
    (List.range' k (l.length - k)).mapM (pyIndex l) = .ok (l.drop k) := by
  by_cases h : k ≤ l.length
  · rw [mapM_pyIndex_range' l k _ (by omega), List.take_of_length_le (by simp)]
  · have h0 : l.length - k = 0 := by omega
    rw [h0, List.drop_eq_nil_iff.2 (by omega)]
    rfl

/-- C19. A dictionary survives conversion to a vector and back; with a fixed noise the noise
is replaced by the value given to `restore_hyps`. -/
theorem C19_dict_round_trip (str_cov : String) (hcov : str_cov ∈ ALLOWED_COV) (h : HypDict)
    (use_gp use_ard fix_noise : Bool) (dim : ℕ) (hs : Shaped h use_gp use_ard dim) :
    ∃ v, convertHyps str_cov h use_gp fix_noise = .ok v ∧
      v.length = vectorLength use_gp use_ard fix_noise dim ∧
      ∀ noise, restoreHyps str_cov v use_gp use_ard fix_noise noise =
        .ok (if fix_noise then { h with noise := some (.flt noise) } else h) := by
  obtain ⟨⟨x, hn⟩, ⟨s, hsg⟩, hd, hl⟩ := hs
  obtain ⟨hnoise, hdof, hsignal, hls⟩ := h
  simp only at hn hsg hd hl
  subst hn hsg
  have hcov' : str_cov ∈ getListFirst := listFirst_eq ▸ hcov
  cases use_gp <;> cases fix_noise <;> cases use_ard <;>
    simp only [Bool.false_eq_true, if_true, if_false] at hd hl <;>
    first
    | (obtain ⟨w, hd⟩ := hd; subst hd)
    | subst hd
  all_goals
    first
    | (obtain ⟨v, hv, hl⟩ := hl; subst hl; subst hv)
    | (obtain ⟨v, hl⟩ := hl; subst hl)
  all_goals
    apply Exists.intro
    apply And.intro
    · simp only [convertHyps, pyAssert, hcov, hcov', getKey, HVal.scalar, bind, Except.bind, pure,
        Except.pure, if_true, Bool.not_true, Bool.not_false, Bool.false_eq_true, if_false]
      rfl
    refine ⟨?_, ?_⟩
    · simp [vectorLength]
      try omega
    intro noise
    simp only [restoreHyps, restore_tail, pyAssert, hcov, hcov', bind, Except.bind, pure,
      Except.pure, if_true, Bool.not_true, Bool.not_false, Bool.false_eq_true, if_false, pyIndex]
    simp

/-- C19. A dictionary is converted exactly when every key that is read is present with a float (the
lengthscales with a float or an array). -/
theorem C19_convert_iff (str_cov : String) (h : HypDict) (use_gp fix_noise : Bool) :
    (∃ v, convertHyps str_cov h use_gp fix_noise = .ok v) ↔
      str_cov ∈ ["eq", "se", "matern32", "matern52", "set_eq", "set_se", "set_matern32",
        "set_matern52"] ∧ (fix_noise = false → ∃ x, h.noise = some (.flt x)) ∧
      (use_gp = false → ∃ x, h.dof = some (.flt x)) ∧ (∃ x, h.signal = some (.flt x)) ∧
      ((∃ w, h.lengthscales = some (.arr w)) ∨ ∃ x, h.lengthscales = some (.flt x)) := by
  have e : ALLOWED_COV = ["eq", "se", "matern32", "matern52", "set_eq", "set_se", "set_matern32",
    "set_matern52"] := rfl
  rw [← e]
  by_cases hcov : str_cov ∈ ALLOWED_COV
  case neg => simp [convertHyps, pyAssert, hcov, bind, Except.bind]
  have hcov' : str_cov ∈ getListFirst := listFirst_eq ▸ hcov
  obtain ⟨no, df, sg, ls⟩ := h
  cases use_gp <;> cases fix_noise <;> rcases no with _ | _ | _ | _ <;> rcases df with _ | _ | _ | _ <;>
    rcases sg with _ | _ | _ | _ <;> rcases ls with _ | _ | _ | _ <;>
    simp [convertHyps, pyAssert, hcov, hcov', bind, Except.bind, pure, Except.pure, getKey,
      HVal.scalar]

/-- C19. A vector survives conversion to a dictionary and back. -/
theorem C19_vector_round_trip (str_cov : String) (v : List Flt)
    (use_gp use_ard fix_noise : Bool) (noise : Flt) (h : HypDict)
    (hr : restoreHyps str_cov v use_gp use_ard fix_noise noise = .ok h) :
    convertHyps str_cov h use_gp fix_noise = .ok v := by
  by_cases hcov : str_cov ∈ ALLOWED_COV
  case neg => simp [restoreHyps, pyAssert, hcov, bind, Except.bind] at hr
  have hcov' : str_cov ∈ getListFirst := listFirst_eq ▸ hcov
  unfold restoreHyps at hr
  simp only [restore_tail] at hr
  cases use_gp <;> cases fix_noise <;> cases use_ard <;>
    rcases v with _ | ⟨a, _ | ⟨b, _ | ⟨c, _ | ⟨d, t⟩⟩⟩⟩ <;>
    simp [pyAssert, hcov, hcov', bind, Except.bind, pure,
      Except.pure, pyIndex] at hr <;>
    first
    | exact hr.elim
    | (rcases t with _ | ⟨e, t⟩ <;> simp at hr
       subst hr
       simp [convertHyps, pyAssert, hcov, hcov', getKey, HVal.scalar, bind, Except.bind, pure,
        Except.pure])
    | (subst hr
       simp [convertHyps, pyAssert, hcov, hcov', getKey, HVal.scalar, bind, Except.bind, pure,
        Except.pure])

/-- C19. `restore_hyps` succeeds on every vector of the right length. -/
theorem C19_restore_succeeds (str_cov : String) (hcov : str_cov ∈ ALLOWED_COV) (v : List Flt)
    (use_gp use_ard fix_noise : Bool) (noise : Flt) (dim : ℕ)
    (hv : v.length = vectorLength use_gp use_ard fix_noise dim) :
    ∃ h, restoreHyps str_cov v use_gp use_ard fix_noise noise = .ok h ∧
      Shaped h use_gp use_ard dim := by
  have hcov' : str_cov ∈ getListFirst := listFirst_eq ▸ hcov
  unfold restoreHyps
  simp only [restore_tail]
  cases use_gp <;> cases fix_noise <;> cases use_ard <;>
    rcases v with _ | ⟨a, _ | ⟨b, _ | ⟨c, _ | ⟨d, t⟩⟩⟩⟩ <;>
    simp [vectorLength] at hv <;>
    first
    | omega
    | (simp only [pyAssert, hcov, hcov', bind, Except.bind, pure, Except.pure, pyIndex, if_true,
        Bool.not_true, Bool.not_false, Bool.false_eq_true, if_false, List.getElem?_cons_zero,
        List.getElem?_cons_succ, List.length_cons, List.length_nil, Nat.zero_add]
       first
       | (subst hv
          simp only [List.length_cons, List.length_nil, if_true, Nat.zero_add, Nat.reduceAdd]
          exact ⟨_, rfl, ⟨⟨_, rfl⟩, ⟨_, rfl⟩, by simp, by simp⟩⟩)
       | exact ⟨_, rfl, ⟨⟨_, rfl⟩, ⟨_, rfl⟩, by simp, by simp; omega⟩⟩
       | exact ⟨_, rfl, ⟨⟨_, rfl⟩, ⟨_, rfl⟩, by simp, by simp⟩⟩)

/-- Concrete case of C19: two lengthscales, Gaussian process, noise free. -/
example : ∃ v, convertHyps "matern52"
    ⟨some (.flt (.fin 1)), none, some (.flt (.fin 2)), some (.arr [.fin 3, .fin 4])⟩ true false
      = .ok v ∧ v = [.fin 1, .fin 2, .fin 3, .fin 4] :=
  ⟨_, rfl, rfl⟩

/-- Concrete case of C19: an array is not a signal scale. -/
example : ¬ ∃ v, convertHyps "se" ⟨some (.flt (.fin 1)), none, some (.arr [.fin 2]),
    some (.flt (.fin 3))⟩ = .ok v := by
  rw [C19_convert_iff]
  rintro ⟨-, -, -, ⟨x, hx⟩, -⟩
  simp at hx

private theorem foldl_ranges (acc : List (ℝ × ℝ)) (r : ℝ × ℝ) (dim : ℕ) :
    (List.range dim).foldl (fun acc _ => acc ++ [r]) acc = acc ++ List.replicate dim r := by
  induction dim with
  | zero => simp
  | succ n ih => rw [List.range_succ, List.foldl_append, ih]; simp [List.replicate_succ']

/-- C20. The optimiser bounds have one row per entry of the vector of default
hyperparameters, and each default lies strictly ordered inside its own row. -/
theorem C20_ranges_aligned (str_cov : String) (hcov : str_cov ∈ ALLOWED_COV) (dim : ℕ)
    (use_gp use_ard fix_noise : Bool) :
    ∃ ranges h v, getRangeHyps str_cov dim use_gp use_ard fix_noise = .ok ranges ∧
      getHyps str_cov dim use_gp use_ard = .ok h ∧
      convertHyps str_cov h use_gp fix_noise = .ok v ∧
      List.Forall₂ (fun (r : ℝ × ℝ) (x : Flt) => r.1 < r.2 ∧
        Flt.fin r.1 ≤ x ∧ x ≤ Flt.fin r.2) ranges v := by
  have hcov' : str_cov ∈ getListFirst := listFirst_eq ▸ hcov
  have hrep : ∀ (n : ℕ) (r : ℝ × ℝ) (x : Flt), (r.1 < r.2 ∧ Flt.fin r.1 ≤ x ∧ x ≤ Flt.fin r.2) →
      List.Forall₂ (fun (r : ℝ × ℝ) (x : Flt) => r.1 < r.2 ∧
        Flt.fin r.1 ≤ x ∧ x ≤ Flt.fin r.2) (List.replicate n r) (List.replicate n x) := by
    intro n r x h
    induction n with
    | zero => simp
    | succ n ih => simp [List.replicate_succ, h, ih]
  cases use_gp <;> cases fix_noise <;> cases use_ard <;>
    (apply Exists.intro; apply Exists.intro; apply Exists.intro; apply And.intro
     · simp only [getRangeHyps, pyAssert, hcov, hcov', bind, Except.bind, pure, Except.pure,
          if_true, Bool.not_true, Bool.not_false, Bool.false_eq_true, if_false]
       rfl
     apply And.intro
     · simp only [getHyps, pyAssert, hcov, hcov', bind, Except.bind, pure, Except.pure,
          if_true, Bool.not_true, Bool.not_false, Bool.false_eq_true, if_false]
       rfl
     apply And.intro
     · simp only [convertHyps, pyAssert, hcov, hcov', getKey, HVal.scalar, bind, Except.bind, pure,
          Except.pure, if_true, Bool.not_true, Bool.not_false, Bool.false_eq_true, if_false]
       rfl
     try rw [show RANGE_LENGTHSCALES = [(1e-2, 1e3)] from rfl, foldl_ranges]
     simp only [RANGE_NOISE, RANGE_DOF, RANGE_SIGNAL, RANGE_LENGTHSCALES, List.nil_append,
       List.cons_append, List.forall₂_cons, Flt.fin_le_fin, GP_NOISE]
     norm_num
     try exact hrep _ _ _ (by simp only [Flt.fin_le_fin]; norm_num))

/-- Concrete case of C20. -/
example : ∃ r, getRangeHyps "se" 2 = .ok r ∧ r.length = 4 :=
  ⟨_, rfl, rfl⟩

theorem validate_ok_iff (h h' : HypDict) (str_cov : String) (dim : ℕ) (use_gp : Bool)
    (hcov : str_cov ∈ ALLOWED_COV) :
    (validateHypsDict h str_cov dim use_gp).2 = .ok h' ↔
      ∃ h₁, validateNoise h = some h₁ ∧ validateDof h₁ use_gp = some h' ∧
        validLengthscales h' dim = true ∧ validSignal h' = true := by
  unfold validateHypsDict
  rw [if_neg (by simpa using hcov)]
  cases h1 : validateNoise h with
  | none => simp
  | some h₁ =>
    simp only [Option.some.injEq, exists_eq_left']
    cases h2 : validateDof h₁ use_gp with
    | none => simp
    | some h₂ =>
      simp only [Option.some.injEq]
      cases h3 : validLengthscales h₂ dim <;> cases h4 : validSignal h₂
      all_goals simp
      all_goals try (rintro rfl; simp_all)

theorem validateNoise_some (h h₁ : HypDict) :
    validateNoise h = some h₁ ↔ ∃ x, h.noise = some (.flt x) ∧
      h₁ = { h with noise := some (.flt (if x = .pinf ∨ x = .ninf then .pinf else x)) } := by
  obtain ⟨hn, hd, hs, hl⟩ := h
  have hb : ∀ x, (BOUND_UPPER_GP_NOISE ≤ absF x) ↔ (x = .pinf ∨ x = .ninf) := by
    intro x; cases x <;> simp [BOUND_UPPER_GP_NOISE, absF]
  rcases hn with _ | (x | v | _)
  · simp [validateNoise]
  · have hif : (if BOUND_UPPER_GP_NOISE ≤ absF x then BOUND_UPPER_GP_NOISE else x) =
        (if x = .pinf ∨ x = .ninf then .pinf else x) := by
      by_cases hx : x = .pinf ∨ x = .ninf
      · rw [if_pos hx, if_pos ((hb x).2 hx)]; rfl
      · rw [if_neg hx, if_neg (fun h => hx ((hb x).1 h))]
    simp only [validateNoise, hif, Option.some.injEq, HVal.flt.injEq, exists_eq_left']
    exact eq_comm
  · simp [validateNoise]
  · simp [validateNoise]

theorem validateDof_some (h h₁ : HypDict) (use_gp : Bool) :
    validateDof h use_gp = some h₁ ↔
      (use_gp = true ∧ h₁ = h) ∨ (use_gp = false ∧ ∃ x, h.dof = some (.flt x) ∧
        h₁ = { h with dof := some (.flt (if x ≤ Flt.fin 2 then .fin 2.00001 else x)) }) := by
  obtain ⟨hn, hd, hs, hl⟩ := h
  cases use_gp
  · rcases hd with _ | (x | v | _)
    · simp [validateDof]
    · simp only [validateDof, Bool.not_false, if_true, Option.some.injEq, Bool.false_eq_true,
        false_and, false_or, true_and, HVal.flt.injEq, exists_eq_left']
      exact eq_comm
    · simp [validateDof]
    · simp [validateDof]
  · simp [validateDof, eq_comm]

private theorem validLengthscales_iff (h : HypDict) (dim : ℕ) :
    validLengthscales h dim = true ↔
      (∃ v : List Flt, v.length = dim ∧ h.lengthscales = some (.arr v)) ∨
        ∃ x, h.lengthscales = some (.flt x) := by
  obtain ⟨hn, hd, hs, hl⟩ := h
  rcases hl with _ | (x | v | _) <;> simp [validLengthscales]

private theorem validSignal_iff (h : HypDict) :
    validSignal h = true ↔ ∃ x, h.signal = some (.flt x) := by
  obtain ⟨hn, hd, hs, hl⟩ := h
  rcases hs with _ | (x | v | _) <;> simp [validSignal]

/-- C21. A dictionary is accepted exactly when it is well formed. -/
theorem C21_accepts_iff (h : HypDict) (str_cov : String) (dim : ℕ) (use_gp : Bool) :
    (∃ h', (validateHypsDict h str_cov dim use_gp).2 = .ok h') ↔
      str_cov ∈ ALLOWED_COV ∧ Acceptable h use_gp dim := by
  by_cases hcov : str_cov ∈ ALLOWED_COV
  case neg => simp [validateHypsDict, hcov]
  simp only [hcov, true_and, validate_ok_iff _ _ _ _ _ hcov, validateNoise_some,
    validateDof_some, validLengthscales_iff, validSignal_iff]
  constructor
  · rintro ⟨h', h₁, ⟨x, hx, rfl⟩, (⟨hu, rfl⟩ | ⟨hu, y, hy, rfl⟩), hl, hs⟩
    · exact ⟨⟨x, hx⟩, hs, by simp [hu], hl⟩
    · exact ⟨⟨x, hx⟩, hs, fun _ => ⟨y, hy⟩, hl⟩
  · rintro ⟨⟨x, hx⟩, hs, hd, hl⟩
    cases use_gp with
    | true => exact ⟨_, _, ⟨x, hx, rfl⟩, Or.inl ⟨rfl, rfl⟩, hl, hs⟩
    | false =>
      obtain ⟨y, hy⟩ := hd rfl
      exact ⟨_, _, ⟨x, hx, rfl⟩, Or.inr ⟨rfl, y, hy, rfl⟩, hl, hs⟩

/-- C21. Nothing is changed but an infinite noise (made `+inf`) and, for a Student-t process,
degrees of freedom of at most 2 (made 2.00001); the caller's dictionary is the one returned. -/
theorem C21_effect (h h' : HypDict) (str_cov : String) (dim : ℕ) (use_gp : Bool)
    (hok : (validateHypsDict h str_cov dim use_gp).2 = .ok h') :
    (validateHypsDict h str_cov dim use_gp).1 = h' ∧
    h'.signal = h.signal ∧ h'.lengthscales = h.lengthscales ∧
    (∀ x, h.noise = some (.flt x) →
      h'.noise = some (.flt (if x = .pinf ∨ x = .ninf then .pinf else x))) ∧
    (use_gp = true → h'.dof = h.dof) ∧
    (use_gp = false → ∀ x, h.dof = some (.flt x) →
      h'.dof = some (.flt (if x ≤ Flt.fin 2 then .fin 2.00001 else x))) := by
  by_cases hcov : str_cov ∈ ALLOWED_COV
  case neg => simp [validateHypsDict, hcov] at hok
  have hfst : (validateHypsDict h str_cov dim use_gp).1 = h' := by
    revert hok
    unfold validateHypsDict
    repeat' split
    all_goals simp
  refine ⟨hfst, ?_⟩
  obtain ⟨h₁, h1, h2, _⟩ := (validate_ok_iff _ _ _ _ _ hcov).1 hok
  obtain ⟨x, hx, rfl⟩ := (validateNoise_some _ _).1 h1
  rcases (validateDof_some _ _ _).1 h2 with ⟨hu, rfl⟩ | ⟨hu, y, hy, rfl⟩
  · refine ⟨rfl, rfl, ?_, fun _ => rfl, by simp [hu]⟩
    intro z hz
    rw [hx] at hz
    cases hz; rfl
  · refine ⟨rfl, rfl, ?_, by simp [hu], ?_⟩
    · intro z hz
      rw [hx] at hz
      cases hz; rfl
    · intro _ z hz
      simp only at hy
      rw [hy] at hz
      cases hz; rfl

/-- C21. Validation is idempotent. -/
theorem C21_idempotent (h h' : HypDict) (str_cov : String) (dim : ℕ) (use_gp : Bool)
    (hok : (validateHypsDict h str_cov dim use_gp).2 = .ok h') :
    (validateHypsDict h' str_cov dim use_gp).2 = .ok h' := by
  obtain ⟨hcov, ⟨x, hx⟩, ⟨s, hsg⟩, hdof, hls⟩ :=
    (C21_accepts_iff h str_cov dim use_gp).1 ⟨h', hok⟩
  obtain ⟨_, e1, e2, e3, e4, e5⟩ := C21_effect h h' str_cov dim use_gp hok
  have hacc : ∃ h'', (validateHypsDict h' str_cov dim use_gp).2 = .ok h'' := by
    rw [C21_accepts_iff]
    refine ⟨hcov, ⟨_, e3 x hx⟩, ⟨s, by rw [e1]; exact hsg⟩, ?_, by rw [e2]; exact hls⟩
    intro hu
    obtain ⟨w, hw⟩ := hdof hu
    exact ⟨_, e5 hu w hw⟩
  obtain ⟨h'', hok'⟩ := hacc
  obtain ⟨_, f1, f2, f3, f4, f5⟩ := C21_effect h' h'' str_cov dim use_gp hok'
  rw [hok']
  congr 1
  have hn : h''.noise = h'.noise := by
    rw [f3 _ (e3 x hx), e3 x hx]
    split_ifs <;> simp_all
  have hd : h''.dof = h'.dof := by
    cases use_gp with
    | true => exact f4 rfl
    | false =>
      obtain ⟨w, hw⟩ := hdof rfl
      rw [f5 rfl _ (e5 rfl w hw), e5 rfl w hw]
      by_cases hw2 : w ≤ Flt.fin 2
      · have : ¬ (Flt.fin 2.00001 ≤ Flt.fin 2) := by
          simp only [Flt.fin_le_fin]; norm_num
        simp [hw2, this]
      · simp [hw2]
  obtain ⟨a, b, c, d⟩ := h''
  obtain ⟨a', b', c', d'⟩ := h'
  simp only at hn hd f1 f2
  rw [hn, hd, f1, f2]

/-- C21. `validate_hyps_arr` accepts nothing: an unknown name of a covariance function fails its
assertion, a known one is answered by `NotImplementedError`. -/
theorem C21_array (hyps : List Flt) (str_cov : String) (dim : ℕ) :
    validateHypsArr hyps str_cov dim = .error
      (if str_cov ∈ ["eq", "se", "matern32", "matern52", "set_eq", "set_se", "set_matern32",
        "set_matern52"] then .notImplemented else .assertion) := by
  have e : ALLOWED_COV = ["eq", "se", "matern32", "matern52", "set_eq", "set_se", "set_matern32",
    "set_matern52"] := rfl
  simp only [validateHypsArr, e]
  split_ifs with hc
  · simp [pyAssert, hc, bind, Except.bind]
  · simp only [pyAssert, hc, if_false, bind, Except.bind]

/-- Concrete case of C21: a rejected and an accepted dictionary. -/
example : (∃ e, (validateHypsDict { noise := some (.flt (.fin 1)) } "se" 1).2 = .error e) ∧
    (validateHypsDict ⟨some (.flt .ninf), none, some (.flt (.fin 1)), some (.flt (.fin 1))⟩ "se" 3).2
      = .ok ⟨some (.flt .pinf), none, some (.flt (.fin 1)), some (.flt (.fin 1))⟩ := by
  constructor
  · exact ⟨.value, by simp [validateHypsDict, validateNoise, validateDof, validLengthscales,
      ALLOWED_COV, ALLOWED_COV_BASE]⟩
  · simp [validateHypsDict, validateNoise, validateDof, validLengthscales, validSignal,
      BOUND_UPPER_GP_NOISE, absF, ALLOWED_COV, ALLOWED_COV_BASE]

end Verif.Props
