import Verif.Lemmas.OverflowKernels
import Verif.Props.RoundedKernels

/-! # Covariances of inputs that are far apart (C130) -/

namespace Verif.Props

open Verif.Spec Verif.Covariance Verif.UtilsCovariance Verif.Lemmas
open Verif.Rounded (SumOrder)

section

variable {fl ex : ℝ → ℝ} {n m d : ℕ} {o : SumOrder} {name : String} {h : HypDict} {σ s η : ℝ}
  {l : Fin d → ℝ}

private theorem se_of {name : String} (hse : name = "eq" ∨ name = "se") {c : CovName}
    (hc : chooseFunCov name = .ok c) : c = .se := by
  rcases hse with rfl | rfl <;> simpa [chooseFunCov] using hc.symm

private theorem matern_of {name : String} (hm : name = "matern32" ∨ name = "matern52") {c : CovName}
    (hc : chooseFunCov name = .ok c) : c ≠ .se := by
  rintro rfl
  rcases hm with rfl | rfl <;> simp [chooseFunCov] at hc

private theorem sq_small (hf : Nearest fl) {s : ℝ} (hs : |s| ≤ (2 : ℝ) ^ (500 : ℤ)) :
    fl (s ^ 2) ≤ (2 : ℝ) ^ (1000 : ℤ) := by
  refine fl_le_of_le hf (double_half (by norm_num)) ?_
  rw [← sq_abs, pow_two, show (1000 : ℤ) = 500 + 500 by norm_num, zpow_add₀ (by norm_num)]
  exact mul_le_mul hs hs (abs_nonneg _) (by positivity)

/-- C130, what holds of it for all finite inputs: squared exponential covariances are numbers between zero
and the signal variance, however far the inputs are apart, as long as the scaled inputs are finite. -/
theorem C130_squared_exponential (hf : Nearest fl) (hex : ExpWithin η ex) (ho : o.Covers d)
    (hse : name = "eq" ∨ name = "se") (hh : Describes h σ s l) (hs : |s| ≤ (2 : ℝ) ^ (500 : ℤ))
    {X : Fin n → Point d} {Xp : Fin m → Point d} (hX : ∀ i k, |X i k / l k| ≤ (2 : ℝ) ^ (1023 : ℤ))
    (hXp : ∀ j k, |Xp j k / l k| ≤ (2 : ℝ) ^ (1023 : ℤ)) :
    ∃ v : Matrix (Fin n) (Fin m) ℝ,
      OverflowKernels.covMain fl ex o name X Xp h false = .ok (fun i j => .fin (v i j)) ∧
      ∀ i j, 0 ≤ v i j ∧ v i j ≤ fl (s ^ 2) ∧
        ((∃ k, (2 : ℝ) ^ (513 : ℤ) ≤ |X i k / l k - Xp j k / l k| ∧
          |X i k / l k| + |Xp j k / l k| ≤ 2 ^ 50 * |X i k / l k - Xp j k / l k|) → v i j = 0) := by
  have hn : name ∈ baseNames := by rcases hse with rfl | rfl <;> simp [baseNames]
  obtain ⟨c, L, hc, hL, hk, -⟩ := overflowCovMain_ok (fl := fl) (ex := ex) (o := o) hn hh X Xp false
    (by simp)
  obtain rfl := se_of hse hc
  have hlt : fl (s ^ 2) < 2 ^ 1024 := (sq_small hf hs).trans_lt (zpow_lt_overflow (by norm_num))
  choose v hv h0 h1 hD using fun i j => covSe_up (s := s) hf hex (dist_up hf ho hL (hX i) (hXp j)) hlt
  refine ⟨v, ?_, fun i j => ⟨h0 i j, h1 i j, fun hfar => ?_⟩⟩
  · rw [hk]
    refine congrArg Except.ok ?_
    ext1 i
    ext1 j
    have hb : |v i j| < 2 ^ 1024 := by
      rw [abs_of_nonneg (h0 i j)]
      exact (h1 i j).trans_lt hlt
    rw [hv i j, if_neg (by simp), add_fin, zero_add, round_fin] <;> rw [fl_of_mem hf (hD i j)]
    exact hb
  · have := covSe_far (ex := ex) (s := s) hf (dist_overflows hf ho hL (hX i) (hXp j) hfar) hlt
    rw [hv i j] at this
    exact Flt.fin.inj this

/-- C130: the kernel matrix of squared exponential covariances is handed to the decomposition. -/
theorem C130_squared_exponential_decomposed (hf : Nearest fl) (hex : ExpWithin η ex) (ho : o.Covers d)
    (hse : name = "eq" ∨ name = "se") (hh : Describes h σ s l) (hs : |s| ≤ (2 : ℝ) ^ (500 : ℤ))
    (hσ : |σ| ≤ (2 : ℝ) ^ (500 : ℤ)) {X : Fin n → Point d}
    (hX : ∀ i k, |X i k / l k| ≤ (2 : ℝ) ^ (1023 : ℤ)) :
    ∃ K, OverflowKernels.matrixToDecompose fl ex o X h name = .ok K := by
  have hn : name ∈ baseNames := by rcases hse with rfl | rfl <;> simp [baseNames]
  obtain ⟨c, L, hc, hL, hk, -⟩ := overflowCovMain_ok (fl := fl) (ex := ex) (o := o) hn hh X X true
    fun _ => rfl
  obtain rfl := se_of hse hc
  have hsq := sq_small hf hs
  have hlt : fl (s ^ 2) < 2 ^ 1024 := hsq.trans_lt (zpow_lt_overflow (by norm_num))
  choose v hv h0 h1 hD using fun i j => covSe_up (s := s) hf hex (dist_up hf ho hL (hX i) (hX j)) hlt
  have hb : ∀ i j, |v i j| ≤ (2 : ℝ) ^ (1000 : ℤ) := fun i j => by
    rw [abs_of_nonneg (h0 i j)]
    exact (h1 i j).trans hsq
  refine ⟨_, matrixToDecompose_fin (overflowKernelMatrix_fin hf hn hh hσ
    (v := fun i j => fl ((if true = true ∧ i.val = j.val then fl Constants.JITTER_COV else 0) + v i j))
    (fun i j => (jitter_fin hf (hb i j) _).2) (hk.trans (congrArg Except.ok ?_)))⟩
  ext1 i
  ext1 j
  rw [hv i j]
  exact (jitter_fin hf (hb i j) _).1

/-- C130 is violated: Matérn covariances of finite inputs that are far apart are NaN, an infinity times
zero, where the exact covariance is next to zero. -/
theorem C130_matern_nan (hf : Nearest fl) (ho : o.Covers d)
    (hm : name = "matern32" ∨ name = "matern52") (hh : Describes h σ s l)
    (hs : |s| ≤ (2 : ℝ) ^ (500 : ℤ)) (hs0 : (2 : ℝ) ^ (-500 : ℤ) ≤ |s|)
    {X : Fin n → Point d} {Xp : Fin m → Point d} {i : Fin n} {j : Fin m}
    (hX : ∀ k, |X i k / l k| ≤ (2 : ℝ) ^ (1023 : ℤ)) (hXp : ∀ k, |Xp j k / l k| ≤ (2 : ℝ) ^ (1023 : ℤ))
    (hfar : ∃ k, (2 : ℝ) ^ (513 : ℤ) ≤ |X i k / l k - Xp j k / l k| ∧
      |X i k / l k| + |Xp j k / l k| ≤ 2 ^ 50 * |X i k / l k - Xp j k / l k|) {same : Bool}
    (hnm : same = true → n = m) :
    ∃ A, OverflowKernels.covMain fl ex o name X Xp h same = .ok A ∧ A i j = .nan := by
  have hn : name ∈ baseNames := by rcases hm with rfl | rfl <;> simp [baseNames]
  obtain ⟨c, L, hc, hL, hk, -⟩ := overflowCovMain_ok (fl := fl) (ex := ex) (o := o) hn hh X Xp same hnm
  refine ⟨_, hk, ?_⟩
  have hlt : fl (s ^ 2) < 2 ^ 1024 := (sq_small hf hs).trans_lt (zpow_lt_overflow (by norm_num))
  have hpos : 0 < fl (s ^ 2) := by
    refine lt_of_lt_of_le (by positivity : (0 : ℝ) < (2 : ℝ) ^ (-1000 : ℤ))
      (le_fl_of_le hf (double_half (by norm_num)) ?_)
    rw [← sq_abs, pow_two, show (-1000 : ℤ) = -500 + -500 by norm_num, zpow_add₀ (by norm_num)]
    exact mul_le_mul hs0 hs0 (by positivity) (abs_nonneg _)
  rw [covMatern_far hf (dist_overflows hf ho hL hX hXp hfar) hlt hpos (matern_of hm hc)]
  rfl

/-- C130 is violated: a fit with a Matérn covariance raises a `ValueError` if two of its inputs are far apart. -/
theorem C130_matern_raises (hf : Nearest fl) (ho : o.Covers d)
    (hm : name = "matern32" ∨ name = "matern52") (hh : Describes h σ s l)
    (hs : |s| ≤ (2 : ℝ) ^ (500 : ℤ)) (hs0 : (2 : ℝ) ^ (-500 : ℤ) ≤ |s|)
    {X : Fin n → Point d} {i j : Fin n} (hX : ∀ k, |X i k / l k| ≤ (2 : ℝ) ^ (1023 : ℤ))
    (hXp : ∀ k, |X j k / l k| ≤ (2 : ℝ) ^ (1023 : ℤ))
    (hfar : ∃ k, (2 : ℝ) ^ (513 : ℤ) ≤ |X i k / l k - X j k / l k| ∧
      |X i k / l k| + |X j k / l k| ≤ 2 ^ 50 * |X i k / l k - X j k / l k|) :
    OverflowKernels.matrixToDecompose fl ex o X h name = .error .value := by
  have hn : name ∈ baseNames := by rcases hm with rfl | rfl <;> simp [baseNames]
  obtain ⟨A, hA, hij⟩ := C130_matern_nan (ex := ex) hf ho hm hh hs hs0 hX hXp hfar (same := true)
    fun _ => rfl
  refine matrixToDecompose_nan (i := i) (j := j) (overflowKernelMatrix_ok hn hh hA) ?_
  rw [hij]
  rfl

/-- C130, what holds of it for all kernels: if no scaled input exceeds `2^200`, and signal and noise are at
most `2^250`, nothing overflows; covariances and kernel matrix are those of C127. -/
theorem C130_finite_partial (hf : Nearest fl) (hex : ExpWithin η ex) (ho : o.Covers d) (hd : d ≤ 2 ^ 20)
    (hn : name ∈ baseNames) (hh : Describes h σ s l) (hs : |s| ≤ (2 : ℝ) ^ (250 : ℤ))
    (hσ : |σ| ≤ (2 : ℝ) ^ (250 : ℤ)) {X : Fin n → Point d} {Xp : Fin m → Point d}
    (hX : ∀ i k, |X i k / l k| ≤ (2 : ℝ) ^ (200 : ℤ)) (hXp : ∀ j k, |Xp j k / l k| ≤ (2 : ℝ) ^ (200 : ℤ)) :
    ∃ (k : Matrix (Fin n) (Fin m) ℝ) (K : Matrix (Fin n) (Fin n) ℝ),
      OverflowKernels.covMain fl ex o name X Xp h false = .ok (fun i j => .fin (k i j)) ∧
      RoundedKernels.covMain fl ex o name X Xp h false = .ok k ∧
      OverflowKernels.matrixToDecompose fl ex o X h name = .ok K ∧
      RoundedKernels.kernelMatrix fl ex o X h name = .ok K := by
  have hle : (2 : ℝ) ^ (930 : ℤ) ≤ (2 : ℝ) ^ (1000 : ℤ) := zpow_le_zpow_right₀ (by norm_num) (by norm_num)
  obtain ⟨c, L, hc, hL, hk, hk'⟩ := overflowCovMain_ok (fl := fl) (ex := ex) (o := o) hn hh X Xp false
    (by simp)
  obtain ⟨c', L', hc', hL', hK, hK'⟩ := overflowCovMain_ok (fl := fl) (ex := ex) (o := o) hn hh X X true
    fun _ => rfl
  refine ⟨_, _, hk.trans (congrArg Except.ok ?_), hk', matrixToDecompose_fin (overflowKernelMatrix_fin hf
    hn hh (hσ.trans (zpow_le_zpow_right₀ (by norm_num) (by norm_num)))
    (v := fun i j => fl ((if true = true ∧ i.val = j.val then fl Constants.JITTER_COV else 0) +
      RoundedKernels.cov fl ex o c' X X L' s i j)) (fun i j => ?_) (hK.trans (congrArg Except.ok ?_))),
    roundedKernelMatrix_of hn hh hK'⟩
  · ext1 i
    ext1 j
    obtain ⟨a1, a2⟩ := cov_agrees hf hex ho hd hL (hX i) (hXp j) hs c
    rw [a1]
    exact (jitter_fin hf (a2.trans hle) _).1
  · exact (jitter_fin hf ((cov_agrees hf hex ho hd hL' (hX i) (hX j) hs c').2.trans hle) _).2
  · ext1 i
    ext1 j
    obtain ⟨a1, a2⟩ := cov_agrees hf hex ho hd hL' (hX i) (hX j) hs c'
    rw [a1]
    exact (jitter_fin hf (a2.trans hle) _).1

end

private noncomputable def okPoints : Fin 3 → Point 1 := ![![0], ![1], ![(2 : ℝ) ^ (600 : ℤ)]]

private noncomputable def okHyps : HypDict :=
  ⟨some (.flt (.fin (1 / 10))), none, some (.flt (.fin 1)), some (.flt (.fin 1))⟩

private theorem okHyps_describes : Describes okHyps (1 / 10) 1 (fun _ : Fin 1 => (1 : ℝ)) where
  noise := rfl
  signal := rfl
  lengthscales := .inr ⟨1, one_ne_zero, fun _ => rfl, rfl⟩
  nonzero := fun _ => one_ne_zero

private theorem ok_one {m : ℤ} (hm : 0 ≤ m) : |(1 : ℝ)| ≤ (2 : ℝ) ^ m := by
  rw [abs_one]
  exact one_le_zpow₀ (by norm_num) hm

private theorem okPoints_finite (i : Fin 3) (k : Fin 1) :
    |okPoints i k / 1| ≤ (2 : ℝ) ^ (1023 : ℤ) := by
  have h1 : (2 : ℝ) ^ (600 : ℤ) ≤ (2 : ℝ) ^ (1023 : ℤ) := zpow_le_zpow_right₀ (by norm_num) (by norm_num)
  have h2 := ok_one (m := 1023) (by norm_num)
  rw [div_one]
  fin_cases k
  fin_cases i
  · exact abs_zero.trans_le (by positivity)
  · exact h2
  · exact (abs_of_pos (by positivity : (0 : ℝ) < (2 : ℝ) ^ (600 : ℤ))).trans_le h1

private theorem okPoints_far : (2 : ℝ) ^ (513 : ℤ) ≤ |okPoints 0 0 / 1 - okPoints 2 0 / 1| ∧
    |okPoints 0 0 / 1| + |okPoints 2 0 / 1| ≤ 2 ^ 50 * |okPoints 0 0 / 1 - okPoints 2 0 / 1| := by
  have h0 : okPoints 0 0 = 0 := rfl
  have h2 : okPoints 2 0 = (2 : ℝ) ^ (600 : ℤ) := rfl
  have h1 : (2 : ℝ) ^ (513 : ℤ) ≤ (2 : ℝ) ^ (600 : ℤ) := zpow_le_zpow_right₀ (by norm_num) (by norm_num)
  have hp : (0 : ℝ) < (2 : ℝ) ^ (600 : ℤ) := by positivity
  rw [h0, h2, div_one, div_one, zero_sub, abs_neg, abs_zero, abs_of_pos hp, zero_add]
  refine ⟨h1, ?_⟩
  generalize (2 : ℝ) ^ (600 : ℤ) = M at hp
  linarith

private theorem ok_covers : (SumOrder.entry 0).Covers 1 := by
  simp [SumOrder.Covers, SumOrder.entries, List.range_succ]

/-- Three inputs on a line, one of them far away: with a Matérn covariance the fit raises, with the squared
exponential covariance it goes on. -/
example (ex : ℝ → ℝ) : OverflowKernels.matrixToDecompose roundAway ex (.entry 0) okPoints okHyps "matern52" =
    .error .value :=
  C130_matern_raises roundAway_nearest ok_covers (.inr rfl) okHyps_describes (ok_one (by norm_num))
    (by rw [abs_one]; exact zpow_le_one_of_nonpos₀ (by norm_num) (by norm_num))
    (okPoints_finite 0) (okPoints_finite 2) ⟨0, okPoints_far⟩

example : ∃ K, OverflowKernels.matrixToDecompose roundAway (fun x => roundAway (Real.exp x)) (.entry 0)
    okPoints okHyps "se" = .ok K :=
  C130_squared_exponential_decomposed roundAway_nearest (expWithin_round roundAway_nearest) ok_covers
    (.inr rfl) okHyps_describes (ok_one (by norm_num))
    (by
      refine le_trans ?_ (ok_one (m := 500) (by norm_num))
      norm_num [abs_of_nonneg]) okPoints_finite

/-- Without the input that is far away all kernels agree with C127. -/
example : ∃ (k : Matrix (Fin 2) (Fin 1) ℝ) (K : Matrix (Fin 2) (Fin 2) ℝ),
    OverflowKernels.covMain roundAway (fun x => roundAway (Real.exp x)) (.entry 0) "matern52"
      (fun i : Fin 2 => okPoints i.castSucc) (fun _ : Fin 1 => okPoints 1) okHyps false =
        .ok (fun i j => .fin (k i j)) ∧
      RoundedKernels.covMain roundAway (fun x => roundAway (Real.exp x)) (.entry 0) "matern52"
        (fun i : Fin 2 => okPoints i.castSucc) (fun _ : Fin 1 => okPoints 1) okHyps false = .ok k ∧
      OverflowKernels.matrixToDecompose roundAway (fun x => roundAway (Real.exp x)) (.entry 0)
        (fun i : Fin 2 => okPoints i.castSucc) okHyps "matern52" = .ok K ∧
      RoundedKernels.kernelMatrix roundAway (fun x => roundAway (Real.exp x)) (.entry 0)
        (fun i : Fin 2 => okPoints i.castSucc) okHyps "matern52" = .ok K := by
  have h1 := ok_one (m := 200) (by norm_num)
  refine C130_finite_partial roundAway_nearest (expWithin_round roundAway_nearest) ok_covers (by norm_num)
    (by simp [baseNames]) okHyps_describes (ok_one (by norm_num))
    (le_trans (by norm_num [abs_of_nonneg]) (ok_one (m := 250) (by norm_num))) ?_ ?_
  · intro i k
    rw [div_one]
    fin_cases k
    fin_cases i
    · exact abs_zero.trans_le (by positivity)
    · exact h1
  · intro j k
    rw [div_one]
    fin_cases k
    exact h1

end Verif.Props
