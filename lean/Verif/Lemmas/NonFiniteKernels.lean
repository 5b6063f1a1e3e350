import Verif.Lemmas.Likelihood
import Verif.Model.NonFiniteKernels
import Verif.Spec.NonFiniteKernels

/-! Covariances with hyperparameters that are any floats, in closed form. -/

namespace Verif.Lemmas

open Verif.Spec Verif.Covariance Verif.UtilsCovariance Verif.Constants
open Verif.NonFinite (div)
open Verif.NonFiniteAcquisition (mul)
open Verif.NonFiniteKernels (Lengths lengthsKey floatKey)

variable {n m d : ℕ}

/-- Lengthscales `L` of the model stand for the floats `l`. -/
def StandsFloats (L : Lengths d) (l : Fin d → Flt) : Prop :=
  L = .ard l ∨ ∃ a, (∀ k, l k = a) ∧ L = .iso a

theorem lengthsKey_ok {h : HypDict} {σ s : Flt} {l : Fin d → Flt} (hd : DescribesFloats h σ s l) :
    ∃ L, lengthsKey d h.lengthscales = .ok L ∧ StandsFloats L l := by
  rcases hd.lengthscales with hl | ⟨a, hla, hl⟩
  · refine ⟨.ard l, ?_, .inl rfl⟩
    rw [hl]
    simp [lengthsKey, getKey, bind, Except.bind, pure, Except.pure]
  · refine ⟨.iso a, ?_, .inr ⟨a, hla, rfl⟩⟩
    rw [hl]
    simp [lengthsKey, getKey, bind, Except.bind, pure, Except.pure]

theorem StandsFloats.scale {L : Lengths d} {l : Fin d → Flt} (h : StandsFloats L l) (x : Point d) (k : Fin d) :
    NonFiniteKernels.scale L x k = div (.fin (x k)) (l k) := by
  rcases h with rfl | ⟨a, hl, rfl⟩
  · rfl
  · simp [NonFiniteKernels.scale, hl]

/-- Dictionaries of floats pass the validation; only the noise may be replaced, an infinity by an infinity. -/
theorem validate_floats {h : HypDict} {σ s : Flt} {l : Fin d → Flt} (hd : DescribesFloats h σ s l)
    {name : String} (hn : name ∈ ALLOWED_COV) :
    ∃ h' σ', validateHypsDict h name d = (h', .ok h') ∧ DescribesFloats h' σ' s l ∧ σ'.sq = σ.sq := by
  obtain ⟨hno, hsi, hl⟩ := hd
  rcases h with ⟨noise, dof, signal, ls⟩
  simp only at hno hsi hl
  subst hno hsi
  let σ' : Flt := if BOUND_UPPER_GP_NOISE ≤ absF σ then BOUND_UPPER_GP_NOISE else σ
  refine ⟨⟨some (.flt σ'), dof, some (.flt s), ls⟩, σ', ?_, ⟨rfl, rfl, hl⟩, ?_⟩
  · have hv : validLengthscales ⟨some (.flt σ'), dof, some (.flt s), ls⟩ d = true := by
      rcases hl with hl | ⟨a, _, hl⟩ <;> subst hl <;> simp [validLengthscales]
    simp only [σ'] at hv
    simp [validateHypsDict, hn, validateNoise, validateDof, hv, validSignal, σ']
  · simp only [σ']
    split_ifs with hb
    · change Flt.le _ _ at hb
      cases σ <;> simp_all [BOUND_UPPER_GP_NOISE, absF, Flt.le, Flt.sq]
    · rfl

theorem floatKey_flt (x : Flt) : floatKey (some (.flt x)) = .ok x := by
  simp [floatKey, getKey, bind, Except.bind, pure, Except.pure]

/-! ### Sums -/

theorem add_nan (a : Flt) : Flt.add a .nan = .nan := by cases a <;> rfl

theorem nan_add (a : Flt) : Flt.add .nan a = .nan := by cases a <;> rfl

theorem mul_nan (a : Flt) : mul a .nan = .nan := by cases a <;> rfl

theorem nan_mul (a : Flt) : mul .nan a = .nan := by cases a <;> rfl

theorem foldl_nan (L : List Flt) : L.foldl Flt.add .nan = .nan := by
  induction L with
  | nil => rfl
  | cons a t ih => rw [List.foldl_cons, nan_add, ih]

theorem foldl_mem_nan {L : List Flt} (h : Flt.nan ∈ L) (a : Flt) : L.foldl Flt.add a = .nan := by
  induction L generalizing a with
  | nil => simp at h
  | cons b t ih =>
    rw [List.foldl_cons]
    rcases List.mem_cons.mp h with hb | ht
    · rw [← hb, add_nan, foldl_nan]
    · exact ih ht _

theorem foldl_fin (L : List ℝ) (a : ℝ) : (L.map Flt.fin).foldl Flt.add (.fin a) = .fin (a + L.sum) := by
  induction L generalizing a with
  | nil => simp
  | cons b t ih =>
    rw [List.map_cons, List.foldl_cons, show Flt.add (.fin a) (.fin b) = .fin (a + b) from rfl, ih,
      List.sum_cons, add_assoc]

theorem foldl_ofFn (f : Fin d → ℝ) : (List.ofFn fun k => Flt.fin (f k)).foldl Flt.add (.fin 0) =
    .fin (∑ k, f k) := by
  have e : (List.ofFn fun k => Flt.fin (f k)) = (List.ofFn f).map Flt.fin := by
    rw [List.map_ofFn]; rfl
  rw [e, foldl_fin, zero_add, List.sum_ofFn]

/-- Sums of numbers that are not negative and infinities, one infinity at least. -/
theorem foldl_pinf {L : List Flt} (hL : ∀ a ∈ L, a = .pinf ∨ ∃ x, a = .fin x) (a : Flt)
    (ha : a = .pinf ∨ (∃ x, a = .fin x) ∧ Flt.pinf ∈ L) : L.foldl Flt.add a = .pinf := by
  induction L generalizing a with
  | nil => simpa using ha
  | cons b t ih =>
    rw [List.foldl_cons]
    refine ih (fun c hc => hL c (List.mem_cons_of_mem _ hc)) _ ?_
    have hb := hL b (List.mem_cons_self ..)
    rcases ha with rfl | ⟨⟨x, rfl⟩, hm⟩
    · left
      rcases hb with rfl | ⟨y, rfl⟩ <;> rfl
    · rcases hb with rfl | ⟨y, rfl⟩
      · exact .inl rfl
      · refine .inr ⟨⟨x + y, rfl⟩, ?_⟩
        rcases List.mem_cons.mp hm with hc | hc
        · simp at hc
        · exact hc

/-! ### Distances -/

theorem part_of_divisor {a : Flt} (ha : Divisor a) (x y : ℝ) :
    ((div (.fin x) a).sub (div (.fin y) a)).sq = .fin (coordinatePart a x y) := by
  obtain ⟨h0, hn⟩ := ha
  cases a with
  | fin r =>
    have hr : r ≠ 0 := fun h => h0 (by rw [h])
    simp only [div, hr, if_false, Flt.sub, Flt.neg, Flt.add, Flt.sq, coordinatePart]
    congr 1
    ring
  | pinf => simp [div, Flt.sub, Flt.neg, Flt.add, Flt.sq, coordinatePart]
  | ninf => simp [div, Flt.sub, Flt.neg, Flt.add, Flt.sq, coordinatePart]
  | nan => exact absurd rfl hn

theorem part_nan (x y : ℝ) : ((div (.fin x) .nan).sub (div (.fin y) .nan)).sq = .nan := rfl

/-- Coordinates with lengthscale zero: infinitely far apart if one is negative and the other positive, NaN in
all other cases. -/
theorem part_zero (x y : ℝ) : ((div (.fin x) (.fin 0)).sub (div (.fin y) (.fin 0))).sq =
    if x * y < 0 then .pinf else .nan := by
  rcases lt_trichotomy x 0 with hx | hx | hx <;> rcases lt_trichotomy y 0 with hy | hy | hy
  · have : ¬ x * y < 0 := not_lt.mpr (mul_pos_of_neg_of_neg hx hy).le
    simp [div, Flt.sub, Flt.neg, Flt.add, Flt.sq, hx, hy, hx.not_gt, hy.not_gt, this]
  · simp [div, Flt.sub, Flt.neg, Flt.add, Flt.sq, hx, hy, hx.not_gt]
  · simp [div, Flt.sub, Flt.neg, Flt.add, Flt.sq, hx, hy, hx.not_gt, mul_neg_of_neg_of_pos hx hy]
  · simp [div, Flt.sub, Flt.neg, Flt.add, Flt.sq, hx]
  · simp [div, Flt.sub, Flt.neg, Flt.add, Flt.sq, hx]
  · simp [div, Flt.sub, Flt.neg, Flt.add, Flt.sq, hx]
  · simp [div, Flt.sub, Flt.neg, Flt.add, Flt.sq, hx, hy, hy.not_gt, mul_neg_of_pos_of_neg hx hy]
  · simp [div, Flt.sub, Flt.neg, Flt.add, Flt.sq, hx, hy]
  · have : ¬ x * y < 0 := not_lt.mpr (mul_pos hx hy).le
    simp [div, Flt.sub, Flt.neg, Flt.add, Flt.sq, hx, hy, this]

theorem dist_list {L : Lengths d} {l : Fin d → Flt} (h : StandsFloats L l) (X : Fin n → Point d)
    (Xp : Fin m → Point d) (i : Fin n) (j : Fin m) : NonFiniteKernels.scaledDist X Xp L i j =
      ((List.ofFn fun k => ((div (.fin (X i k)) (l k)).sub (div (.fin (Xp j k)) (l k))).sq).foldl
        Flt.add (.fin 0)).sqrt := by
  simp [NonFiniteKernels.scaledDist, h.scale]

theorem part_nonneg (a : Flt) (x y : ℝ) : 0 ≤ coordinatePart a x y := by
  unfold coordinatePart
  split <;> positivity

theorem dist_divisors {L : Lengths d} {l : Fin d → Flt} (h : StandsFloats L l) (hl : ∀ k, Divisor (l k))
    (X : Fin n → Point d) (Xp : Fin m → Point d) (i : Fin n) (j : Fin m) :
    NonFiniteKernels.scaledDist X Xp L i j = .fin √(∑ k, coordinatePart (l k) (X i k) (Xp j k)) := by
  rw [dist_list h]
  simp only [part_of_divisor (hl _)]
  rw [foldl_ofFn]
  have : ¬ ∑ k, coordinatePart (l k) (X i k) (Xp j k) < 0 :=
    not_lt.mpr (Finset.sum_nonneg fun k _ => part_nonneg ..)
  simp [Flt.sqrt, this]

theorem dist_nan {L : Lengths d} {l : Fin d → Flt} (h : StandsFloats L l) {X : Fin n → Point d}
    {Xp : Fin m → Point d} {i : Fin n} {j : Fin m} {k : Fin d}
    (hk : l k = .nan ∨ l k = .fin 0 ∧ 0 ≤ X i k * Xp j k) :
    NonFiniteKernels.scaledDist X Xp L i j = .nan := by
  rw [dist_list h, foldl_mem_nan, Flt.sqrt]
  refine List.mem_ofFn.mpr ⟨k, ?_⟩
  rcases hk with hk | ⟨hk, hp⟩
  · rw [hk]
    exact part_nan _ _
  · rw [hk, part_zero, if_neg hp.not_gt]

theorem dist_pinf {L : Lengths d} {l : Fin d → Flt} (h : StandsFloats L l) {X : Fin n → Point d}
    {Xp : Fin m → Point d} {i : Fin n} {j : Fin m} (hl : ∀ k, l k ≠ .nan)
    (hz : ∀ k, l k = .fin 0 → X i k * Xp j k < 0) (he : ∃ k, l k = .fin 0) :
    NonFiniteKernels.scaledDist X Xp L i j = .pinf := by
  rw [dist_list h, foldl_pinf, Flt.sqrt]
  · intro a ha
    obtain ⟨k, rfl⟩ := List.mem_ofFn.mp ha
    by_cases hk : l k = .fin 0
    · left
      rw [hk, part_zero, if_pos (hz k hk)]
    · right
      exact ⟨_, part_of_divisor ⟨hk, hl k⟩ _ _⟩
  · refine .inr ⟨⟨0, rfl⟩, List.mem_ofFn.mpr ?_⟩
    obtain ⟨k, hk⟩ := he
    exact ⟨k, by rw [hk, part_zero, if_pos (hz k hk)]⟩

/-! ### Covariances -/

/-- Every covariance function on a distance that is a number, NaN or infinite. -/
theorem floatCov_ok {name : String} (hn : name ∈ baseNames) : ∃ c, chooseFunCov name = .ok c ∧
    ∀ {n m d : ℕ} (X : Fin n → Point d) (Xp : Fin m → Point d) (L : Lengths d) (i : Fin n) (j : Fin m),
      (∀ (s r : ℝ), NonFiniteKernels.scaledDist X Xp L i j = .fin r →
        NonFiniteKernels.cov c X Xp L (.fin s) i j = .fin (s ^ 2 * profile name r)) ∧
      (∀ s, NonFiniteKernels.scaledDist X Xp L i j = .nan → NonFiniteKernels.cov c X Xp L s i j = .nan) ∧
      (∀ s : ℝ, NonFiniteKernels.scaledDist X Xp L i j = .pinf → NonFiniteKernels.cov c X Xp L (.fin s) i j =
        if name = "eq" ∨ name = "se" then .fin 0 else .nan) := by
  have h3 : (0 : ℝ) < √3 := by positivity
  have h5 : (0 : ℝ) < √5 := by positivity
  have hse : ∀ {n m d : ℕ} (X : Fin n → Point d) (Xp : Fin m → Point d) (L : Lengths d) (i : Fin n) (j : Fin m),
      (∀ (s r : ℝ), NonFiniteKernels.scaledDist X Xp L i j = .fin r →
        NonFiniteKernels.covSe X Xp L (.fin s) i j = .fin (s ^ 2 * seProfile r)) ∧
      (∀ s, NonFiniteKernels.scaledDist X Xp L i j = .nan → NonFiniteKernels.covSe X Xp L s i j = .nan) ∧
      (∀ s : ℝ, NonFiniteKernels.scaledDist X Xp L i j = .pinf →
        NonFiniteKernels.covSe X Xp L (.fin s) i j = .fin 0) := by
    intro n m d X Xp L i j
    refine ⟨fun s r hr => ?_, fun s hr => ?_, fun s hr => ?_⟩
    · simp only [NonFiniteKernels.covSe, hr, Flt.sq, mul, NonFiniteKernels.exp, seProfile]
      congr 2
      · ring
      · congr 1
        ring
    · simp only [NonFiniteKernels.covSe, hr, Flt.sq, mul_nan, NonFiniteKernels.exp]
    · simp only [NonFiniteKernels.covSe, hr, Flt.sq, mul, NonFiniteKernels.exp]
      norm_num
  simp only [baseNames, List.mem_cons, List.not_mem_nil, or_false] at hn
  rcases hn with rfl | rfl | rfl | rfl
  · refine ⟨.se, by simp [chooseFunCov], fun X Xp L i j => ?_⟩
    simpa [profile, NonFiniteKernels.cov] using hse X Xp L i j
  · refine ⟨.se, by simp [chooseFunCov], fun X Xp L i j => ?_⟩
    simpa [profile, NonFiniteKernels.cov] using hse X Xp L i j
  · refine ⟨.matern32, by simp [chooseFunCov], fun X Xp L i j => ⟨fun s r hr => ?_, fun s hr => ?_, fun s hr => ?_⟩⟩
    · simp only [NonFiniteKernels.cov, NonFiniteKernels.covMatern32, hr, Flt.sq, mul, NonFiniteKernels.exp,
        profile, m32Profile, if_true, Flt.add]
      congr 1
      rw [← mul_assoc]
      congr 2
      · ring
      · ring
    · simp only [NonFiniteKernels.cov, NonFiniteKernels.covMatern32, hr, mul_nan, NonFiniteKernels.exp]
    · have h1 : mul (.fin √3) .pinf = .pinf := by simp [mul]
      have h2 : mul (.fin (-1 * √3)) .pinf = .ninf := by
        have : ¬ (0 : ℝ) < -1 * √3 := by linarith
        have : (-1 : ℝ) * √3 < 0 := by linarith
        simp [mul, *]
      have h4 : mul (mul (Flt.sq (.fin s)) .pinf) (.fin 0) = .nan := by
        simp only [Flt.sq, mul]
        split_ifs <;> simp
      simp only [NonFiniteKernels.cov, NonFiniteKernels.covMatern32, hr, h1, h2, NonFiniteKernels.exp,
        Flt.add, h4]
      simp
  · refine ⟨.matern52, by simp [chooseFunCov], fun X Xp L i j => ⟨fun s r hr => ?_, fun s hr => ?_, fun s hr => ?_⟩⟩
    · simp only [NonFiniteKernels.cov, NonFiniteKernels.covMatern52, hr, Flt.sq, mul, NonFiniteKernels.exp,
        profile, m52Profile, if_true, Flt.add, String.reduceEq, if_false]
      congr 1
      rw [show -1 * √5 * r = -(√5 * r) by ring]
      ring
    · simp only [NonFiniteKernels.cov, NonFiniteKernels.covMatern52, hr, mul_nan, NonFiniteKernels.exp]
    · have h1 : mul (.fin √5) .pinf = .pinf := by simp [mul]
      have h2 : mul (.fin (-1 * √5)) .pinf = .ninf := by
        have : ¬ (0 : ℝ) < -1 * √5 := by linarith
        have : (-1 : ℝ) * √5 < 0 := by linarith
        simp [mul, *]
      have h3 : mul (.fin (5 / 3)) (Flt.sq .pinf) = .pinf := by
        have : (0 : ℝ) < 5 / 3 := by norm_num
        simp [mul, Flt.sq]
      have h4 : mul (mul (Flt.sq (.fin s)) .pinf) (.fin 0) = .nan := by
        simp only [Flt.sq, mul]
        split_ifs <;> simp
      simp only [NonFiniteKernels.cov, NonFiniteKernels.covMatern52, hr, h1, h2, h3, NonFiniteKernels.exp,
        Flt.add, h4]
      simp

/-- Every covariance function with a signal that is not a number, at distance zero. -/
theorem floatCov_signal {c : CovName} {X : Fin n → Point d} {L : Lengths d} {i : Fin n} {s : Flt}
    (hs : ∀ x, s ≠ .fin x) (hz : NonFiniteKernels.scaledDist X X L i i = .fin 0) (x : ℝ) :
    NonFiniteKernels.cov c X X L s i i ≠ .fin x := by
  cases s with
  | fin y => exact absurd rfl (hs y)
  | nan => cases c <;> simp [NonFiniteKernels.cov, NonFiniteKernels.covSe, NonFiniteKernels.covMatern32,
      NonFiniteKernels.covMatern52, Flt.sq, nan_mul]
  | pinf => cases c <;> simp [NonFiniteKernels.cov, NonFiniteKernels.covSe, NonFiniteKernels.covMatern32,
      NonFiniteKernels.covMatern52, Flt.sq, hz, mul, NonFiniteKernels.exp, Flt.add]
  | ninf => cases c <;> simp [NonFiniteKernels.cov, NonFiniteKernels.covSe, NonFiniteKernels.covMatern32,
      NonFiniteKernels.covMatern52, Flt.sq, hz, mul, NonFiniteKernels.exp, Flt.add]

/-- `cov_main` for dictionaries of floats. -/
theorem floatCovMain_ok {name : String} (hn : name ∈ baseNames) {h : HypDict} {σ s : Flt} {l : Fin d → Flt}
    (hd : DescribesFloats h σ s l) {c : CovName} (hc : chooseFunCov name = .ok c) :
    ∃ L, StandsFloats L l ∧ ∀ {n m : ℕ} (X : Fin n → Point d) (Xp : Fin m → Point d) (same : Bool)
      (_ : same = true → n = m) (jit : ℝ),
      NonFiniteKernels.covMain name X Xp h same jit = .ok (fun i j =>
        Flt.add (.fin (if same = true ∧ i.val = j.val then jit else 0))
          (NonFiniteKernels.cov c X Xp L s i j)) := by
  obtain ⟨h', σ', hv, hd', -⟩ := validate_floats hd (base_allowed' hn)
  obtain ⟨L, hL, hst⟩ := lengthsKey_ok hd'
  have hsig : floatKey h'.signal = .ok s := by rw [hd'.signal]; exact floatKey_flt s
  have h1 := base_allowed' hn
  have h2 := base_allowed hn
  refine ⟨L, hst, fun X Xp same hs jit => ?_⟩
  cases same with
  | false =>
    simp only [NonFiniteKernels.covMain, pyAssert, h1, if_true, h2, hv, hc, hL, hsig, bind, Except.bind, pure,
      Except.pure, Bool.false_eq_true, if_false, false_and]
    rfl
  | true =>
    have hnm := hs rfl
    simp only [NonFiniteKernels.covMain, pyAssert, h1, if_true, h2, hv, hc, hL, hsig, bind, Except.bind, pure,
      Except.pure, hnm, true_and]
    refine congrArg Except.ok ?_
    ext1 i
    ext1 j
    simp [npEye]

/-! ### The matrix that is decomposed -/

/-- Numbers in place of the lengthscales, zeros in place of the coordinates that are ignored. -/
theorem ignoring_eq (l : Fin d → Flt) : ∃ (r : Fin d → ℝ) (f : Point d → Point d), ∀ (name : String) (s : ℝ)
    (x y : Point d), kernelIgnoring name s l x y = kernel name s r (f x) (f y) := by
  refine ⟨fun k => match l k with | .fin r => r | _ => 1, fun x k => match l k with | .fin _ => x k | _ => 0,
    fun name s x y => ?_⟩
  unfold kernelIgnoring kernel scaledDistance
  congr 3
  refine Finset.sum_congr rfl fun k _ => ?_
  unfold coordinatePart
  rcases hk : l k with r | _ | _ | _ <;> simp [hk]

theorem noisyIgnoring_posDef (name : String) (σ s : ℝ) (l : Fin d → Flt) (X : Fin n → Point d) :
    (noisyIgnoring name σ s l X).PosDef := by
  obtain ⟨r, f, hf⟩ := ignoring_eq l
  have e : noisyIgnoring name σ s l X = noisyGram name σ s r (.vec fun i => f (X i)) := by
    ext i j
    have hg : gram name s r (.vec fun i => f (X i)) (.vec fun i => f (X i)) i j =
        kernel name s r (f (X i)) (f (X j)) := by
      change (∑ _a : Fin 1, ∑ _b : Fin 1, kernel name s r (f (X i)) (f (X j))) / ((1 : ℕ) * (1 : ℕ)) = _
      simp
    simp [noisyIgnoring, noisyGram, hg, hf, Matrix.one_apply]
  rw [e]
  exact noisyGram_posDef ..

theorem part_symm (a : Flt) (x y : ℝ) : coordinatePart a x y = coordinatePart a y x := by
  unfold coordinatePart
  split
  · ring
  · rfl

theorem ignoring_symm (name : String) (s : ℝ) (l : Fin d → Flt) (x y : Point d) :
    kernelIgnoring name s l x y = kernelIgnoring name s l y x := by
  simp only [kernelIgnoring, part_symm _ (x _)]

theorem checkFinite_fin {A : Fin n → Fin n → Flt} {B : Matrix (Fin n) (Fin n) ℝ}
    (h : ∀ i j, A i j = .fin (B i j)) : OverflowKernels.checkFinite A = .ok B := by
  have h' : ∀ i j, ∃ x, A i j = .fin x := fun i j => ⟨_, h i j⟩
  rw [OverflowKernels.checkFinite, dif_pos h']
  refine congrArg Except.ok ?_
  ext i j
  exact (Flt.fin.inj ((h i j).symm.trans (h' i j).choose_spec)).symm

theorem checkFinite_bad {A : Fin n → Fin n → Flt} {i : Fin n} (h : ∀ x, A i i ≠ .fin x) :
    OverflowKernels.checkFinite A = .error .value := by
  rw [OverflowKernels.checkFinite, dif_neg]
  intro h'
  obtain ⟨x, hx⟩ := h' i i
  exact h x hx

theorem floatNoisyCov_ok {name : String} (hn : name ∈ baseNames) {h : HypDict} {σ s : Flt} {l : Fin d → Flt}
    (hd : DescribesFloats h σ s l) {c : CovName} (hc : chooseFunCov name = .ok c) (X : Fin n → Point d) :
    ∃ L, StandsFloats L l ∧ NonFiniteKernels.noisyCov X h name = .ok (fun i j =>
      let A : Fin n → Fin n → Flt := fun i j =>
        Flt.add (Flt.add (.fin (if i = j then JITTER_COV else 0)) (NonFiniteKernels.cov c X X L s i j))
          (mul σ.sq (.fin (if i = j then 1 else 0)))
      (Flt.add (A i j) (A j i)).divPos 2) := by
  obtain ⟨L, hL, hk⟩ := floatCovMain_ok hn hd hc
  obtain ⟨h', σ', hv, hd', hsq⟩ := validate_floats hd (base_allowed' hn)
  have hno : floatKey (validateHypsDict h name d).1.noise = .ok σ' := by
    rw [hv, hd'.noise]
    exact floatKey_flt σ'
  refine ⟨L, hL, ?_⟩
  simp only [NonFiniteKernels.noisyCov, hk X X true (fun _ => rfl), hno, bind, Except.bind, pure, Except.pure,
    hsq, npEye, true_and, Fin.val_inj]

theorem floatCholesky_ok {name : String} (hn : name ∈ baseNames) {h : HypDict} {σ s : ℝ} {l : Fin d → Flt}
    (hd : DescribesFloats h (.fin σ) (.fin s) l) (hl : ∀ k, Divisor (l k)) (X : Fin n → Point d) :
    ∃ L, IsCholesky (noisyIgnoring name σ s l X) L ∧
      NonFiniteKernels.getKernelCholesky X h name = .ok (noisyIgnoring name σ s l X, L) := by
  obtain ⟨c, hc, hcov⟩ := floatCov_ok hn
  obtain ⟨L, hL, hA⟩ := floatNoisyCov_ok hn hd hc X
  obtain ⟨C, hC, hC'⟩ := spCholesky_posDef (noisyIgnoring_posDef name σ s l X)
  refine ⟨C, hC', ?_⟩
  have hk : ∀ i j, NonFiniteKernels.cov c X X L (.fin s) i j = .fin (kernelIgnoring name s l (X i) (X j)) :=
    fun i j => (hcov X X L i j).1 s _ (dist_divisors hL hl X X i j)
  have hch : checkStrCov name 2 = .ok () := by
    simp [checkStrCov, base_allowed hn, pyAssert, bind, Except.bind, pure, Except.pure]
  simp only [NonFiniteKernels.getKernelCholesky, hch, hA, bind, Except.bind]
  rw [checkFinite_fin (B := noisyIgnoring name σ s l X)]
  · simp [choleskyLoop, jitters, hC]
  · intro i j
    have hJ : JITTER_COV = 1 / 100000 := by norm_num [JITTER_COV]
    by_cases hij : i = j
    · subst hij
      simp only [if_true, hk, Flt.add, Flt.sq, mul, Flt.divPos, noisyIgnoring, hJ, Matrix.of_apply]
      congr 1
      ring
    · simp only [if_neg hij, if_neg (Ne.symm hij), hk, Flt.add, Flt.sq, mul, Flt.divPos, noisyIgnoring,
        Matrix.of_apply, ignoring_symm name s l (X j) (X i)]
      congr 1
      ring

theorem divPos_add_self {a : Flt} (h : ∀ x, a ≠ .fin x) (x : ℝ) : (Flt.add a a).divPos 2 ≠ .fin x := by
  cases a with
  | fin y => exact absurd rfl (h y)
  | _ => simp [Flt.add, Flt.divPos]

theorem floatCholesky_bad {name : String} (hn : name ∈ baseNames) {h : HypDict} {σ s : Flt} {l : Fin d → Flt}
    (hd : DescribesFloats h σ s l)
    (hbad : (∀ x, σ ≠ .fin x) ∨ (∀ x, s ≠ .fin x) ∨ ∃ k, ¬ Divisor (l k)) (i : Fin n) (X : Fin n → Point d) :
    NonFiniteKernels.getKernelCholesky X h name = .error .value := by
  obtain ⟨c, hc, hcov⟩ := floatCov_ok hn
  obtain ⟨L, hL, hA⟩ := floatNoisyCov_ok hn hd hc X
  have hch : checkStrCov name 2 = .ok () := by
    simp [checkStrCov, base_allowed hn, pyAssert, bind, Except.bind, pure, Except.pure]
  simp only [NonFiniteKernels.getKernelCholesky, hch, hA, bind, Except.bind]
  rw [checkFinite_bad (i := i)]
  refine divPos_add_self ?_
  simp only [if_true]
  by_cases hl : ∀ k, Divisor (l k)
  · by_cases hs : ∀ x, s ≠ .fin x
    · have hz : NonFiniteKernels.scaledDist X X L i i = .fin 0 := by
        rw [dist_divisors hL hl]
        have : ∀ k, coordinatePart (l k) (X i k) (X i k) = 0 := by
          intro k
          unfold coordinatePart
          split <;> simp
        simp [this]
      have := floatCov_signal (c := c) hs hz
      cases he : NonFiniteKernels.cov c X X L s i i with
      | fin x => exact absurd he (this x)
      | nan => simp [add_nan, nan_add]
      | pinf => cases σ <;> simp [Flt.add, mul, Flt.sq]
      | ninf => cases σ <;> simp [Flt.add, mul, Flt.sq]
    · have hσ : ∀ x, σ ≠ .fin x := by
        rcases hbad with h | h | ⟨k, h⟩
        · exact h
        · exact absurd h hs
        · exact absurd (hl k) h
      have hm : mul σ.sq (.fin 1) = .pinf ∨ mul σ.sq (.fin 1) = .nan := by
        cases σ with
        | fin x => exact absurd rfl (hσ x)
        | _ => simp [mul, Flt.sq]
      intro x
      rcases hm with hm | hm
      · rw [hm]
        cases Flt.add (.fin JITTER_COV) (NonFiniteKernels.cov c X X L s i i) <;> simp [Flt.add]
      · rw [hm, add_nan]
        simp
  · push Not at hl
    obtain ⟨k, hk⟩ := hl
    have hk' : l k = .nan ∨ l k = .fin 0 ∧ 0 ≤ X i k * X i k := by
      unfold Divisor at hk
      by_cases h0 : l k = .fin 0
      · exact .inr ⟨h0, mul_self_nonneg _⟩
      · by_cases h1 : l k = .nan
        · exact .inl h1
        · exact absurd ⟨h0, h1⟩ hk
    rw [(hcov X X L i i).2.1 s (dist_nan hL hk')]
    simp [add_nan, nan_add]

end Verif.Lemmas
