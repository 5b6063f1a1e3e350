import Verif.Lemmas.Replicates
import Verif.Props.Likelihood
import Verif.Props.Tp

/-! C96, C97: what the predictions and the likelihoods make of repeated observations at the same
inputs. -/

namespace Verif.Props

open Verif.Spec Verif.Lemmas Verif.Covariance Verif.UtilsCovariance Verif.Constants
open Matrix hiding gram

variable {n m d : ℕ}

/-! ### C96 -/

/-- C96: two sets of responses with the same total at every input give the same prediction: means,
standard deviations and covariances. -/
theorem C96_totals {name base : String} {X : Inputs n d} {Xs : Inputs m d} (hX : Suits name base X)
    (hXs : Suits name base Xs) {h : HypDict} {σ s : ℝ} {l : Fin d → ℝ} (hd : Describes h σ s l)
    {prior : Gp.PriorMu d} {μ : Fin n → ℝ} {μs : Fin m → ℝ} (hμ : Gp.getPriorMu prior X = .ok μ)
    (hμs : Gp.getPriorMu prior Xs = .ok μs) {Y Y' : Fin n → ℝ} (hY : SameTotals X Y Y') :
    ∃ r, Gp.predictWithHyps X Y Xs h name prior = .ok r ∧
      Gp.predictWithHyps X Y' Xs h name prior = .ok r := by
  refine ⟨_, predictWithHyps_ok hX hXs hd Y hμ hμs, ?_⟩
  rw [predictWithHyps_ok hX hXs hd Y' hμ hμs]
  have h1 : SameTotals X (Y' - μ) (Y - μ) := fun i => by
    simp only [Pi.sub_apply, Finset.sum_sub_distrib, hY i]
  rw [postMean_repeats base σ s l Xs h1]

/-- C96: in particular every response may be replaced by the average at its input. -/
theorem C96_average {name base : String} {X : Inputs n d} {Xs : Inputs m d} (hX : Suits name base X)
    (hXs : Suits name base Xs) {h : HypDict} {σ s : ℝ} {l : Fin d → ℝ} (hd : Describes h σ s l)
    {prior : Gp.PriorMu d} {μ : Fin n → ℝ} {μs : Fin m → ℝ} (hμ : Gp.getPriorMu prior X = .ok μ)
    (hμs : Gp.getPriorMu prior Xs = .ok μs) (Y : Fin n → ℝ) :
    ∃ r, Gp.predictWithHyps X Y Xs h name prior = .ok r ∧
      Gp.predictWithHyps X (avgAt X Y) Xs h name prior = .ok r :=
  C96_totals hX hXs hd hμ hμs (sameTotals_avgAt X Y)

/-- C96: if every input is observed `k` times, the prediction is the one from a single observation
of the average at each input with a `k`-th of the noise variance (the `1e-5` on the diagonal counts as
noise). -/
theorem C96_copies {N k : ℕ} {name base : String} {X : Inputs n d} {X' : Inputs N d}
    {Xs : Inputs m d} (hX : Suits name base X) (hX' : Suits name base X') (hXs : Suits name base Xs)
    {e : Fin N → Fin n} (he : ∀ a, item X' a = item X (e a)) (hk0 : k ≠ 0)
    (hk : ∀ i, (Finset.univ.filter fun a => e a = i).card = k) {h h' : HypDict} {σ σ' s : ℝ}
    {l : Fin d → ℝ} (hd : Describes h σ s l) (hd' : Describes h' σ' s l)
    (hσ : σ' ^ 2 + 1 / 100000 = (σ ^ 2 + 1 / 100000) / k) {prior : Gp.PriorMu d} {μ : Fin n → ℝ}
    {μs : Fin m → ℝ} (hμ : Gp.getPriorMu prior X = .ok μ)
    (hμ' : Gp.getPriorMu prior X' = .ok fun a => μ (e a)) (hμs : Gp.getPriorMu prior Xs = .ok μs)
    (Y : Fin N → ℝ) :
    ∃ r, Gp.predictWithHyps X' Y Xs h name prior = .ok r ∧
      Gp.predictWithHyps X (fun i => (∑ a with e a = i, Y a) / k) Xs h' name prior = .ok r := by
  refine ⟨_, predictWithHyps_ok hX' hXs hd Y hμ' hμs, ?_⟩
  rw [predictWithHyps_ok hX hXs hd' _ hμ hμs, postCov_copies base l Xs he hk0 hk hσ,
    postMean_copies base l Xs he hk0 hk hσ (Y - fun a => μ (e a))]
  intro i
  have hkr : (k : ℝ) ≠ 0 := by exact_mod_cast hk0
  have h1 : ∑ a with e a = i, μ (e a) = k * μ i := by
    rw [Finset.sum_congr rfl fun a ha => by rw [(Finset.mem_filter.1 ha).2], Finset.sum_const, hk i,
      nsmul_eq_mul]
  simp only [Pi.sub_apply, Finset.sum_sub_distrib, h1]
  field_simp

/-- The same input three times with responses `1, 2, 6`: predicted as if all three were `3`, and as a
single response `3` with a third of the noise. -/
example : (∃ r, Gp.predictWithHyps exTrain3 ![1, 2, 6] exTrain exHyps "matern32" none = .ok r ∧
      Gp.predictWithHyps exTrain3 ![3, 3, 3] exTrain exHyps "matern32" none = .ok r) ∧
    ∃ r, Gp.predictWithHyps exTrain3 ![1, 2, 6] exTrain
        ⟨some (.flt (.fin 1)), none, some (.flt (.fin 2)), some (.flt (.fin 3))⟩ "matern32" none =
          .ok r ∧
      Gp.predictWithHyps exTrain (fun _ => 3) exTrain
        ⟨some (.flt (.fin (√((1 + 1 / 100000) / 3 - 1 / 100000)))), none, some (.flt (.fin 2)),
          some (.flt (.fin 3))⟩ "matern32" none = .ok r := by
  refine ⟨C96_totals exTrain3_suits exTrain_suits exHyps_describes (μ := 0) (μs := 0) rfl rfl ?_, ?_⟩
  · intro i
    have : repeats exTrain3 i = Finset.univ := by
      ext j; simp [repeats, item, exTrain3]
    rw [this]
    simp [Fin.sum_univ_three]
    norm_num
  · obtain ⟨r, h1, h2⟩ := C96_copies (k := 3) (X := exTrain) (X' := exTrain3) (Xs := exTrain)
      (e := fun _ => 0) exTrain_suits exTrain3_suits exTrain_suits (fun _ => rfl) (by norm_num)
      (fun i => by fin_cases i; simp)
      (h := ⟨some (.flt (.fin 1)), none, some (.flt (.fin 2)), some (.flt (.fin 3))⟩)
      (h' := ⟨some (.flt (.fin (√((1 + 1 / 100000) / 3 - 1 / 100000)))), none, some (.flt (.fin 2)),
          some (.flt (.fin 3))⟩) (σ := 1) (σ' := √((1 + 1 / 100000) / 3 - 1 / 100000)) (s := 2)
      (l := fun _ => 3)
      ⟨rfl, rfl, .inr ⟨3, by norm_num, fun _ => rfl, rfl⟩, fun _ => by norm_num⟩
      ⟨rfl, rfl, .inr ⟨3, by norm_num, fun _ => rfl, rfl⟩, fun _ => by norm_num⟩
      (by rw [Real.sq_sqrt (by norm_num)]; norm_num) (μ := 0) (μs := 0) (prior := none) rfl rfl rfl
      ![1, 2, 6]
    refine ⟨r, h1, ?_⟩
    rw [← h2]
    congr 1
    funext i
    fin_cases i
    simp [Fin.sum_univ_three]
    norm_num

/-! ### C97 -/

/-- C97: replacing the responses by their averages at each input leaves the mean and the degrees of
freedom of the Student-t process as they are; its covariances are greater the more the responses at
the same inputs disagree, by the covariances of the Gaussian process times the sum of squared
deviations from the averages, over the noise variance times `ν + n - 2`. -/
theorem C97_student {name base : String} {X : Inputs n d} {Xs : Inputs m d} (hX : Suits name base X)
    (hXs : Suits name base Xs) {h : HypDict} {σ s : ℝ} {l : Fin d → ℝ} (hd : Describes h σ s l)
    {ν : ℝ} (hν : 2 < ν) (hdof : h.dof = some (.flt (.fin ν))) {prior : Gp.PriorMu d}
    {μ : Fin n → ℝ} {μs : Fin m → ℝ} (hμ : Gp.getPriorMu prior X = .ok μ)
    (hμs : Gp.getPriorMu prior Xs = .ok μs) (hc : ∀ i j, item X i = item X j → μ i = μ j)
    (Y : Fin n → ℝ) :
    ∃ mu sd sd' sd'' S S' V, Tp.predictWithHyps X Y Xs h name prior = .ok (ν + n, mu, sd, S) ∧
      Tp.predictWithHyps X (avgAt X Y) Xs h name prior = .ok (ν + n, mu, sd', S') ∧
      Gp.predictWithHyps X Y Xs h name prior = .ok (mu, sd'', V) ∧
      (∀ i j, S i j = S' i j +
        (∑ a, (Y a - avgAt X Y a) ^ 2) / ((σ ^ 2 + 1 / 100000) * (ν + n - 2)) * V i j) ∧
      ∀ i, sd' i ≤ sd i ∧ (Y ≠ avgAt X Y → sd' i < sd i) := by
  have hz : ∀ i, ∑ j ∈ repeats X i, (Y - avgAt X Y) j = 0 := fun i => by
    simp only [Pi.sub_apply, Finset.sum_sub_distrib, sameTotals_avgAt X Y i, sub_self]
  have h1 : misfit (noisyGram base σ s l X) (Y - μ) =
      misfit (noisyGram base σ s l X) (avgAt X Y - μ) +
        (∑ a, (Y a - avgAt X Y a) ^ 2) / (σ ^ 2 + 1 / 100000) := by
    have := misfit_repeats base σ s l (y := avgAt X Y - μ) hz fun i j hij => by
      simp only [Pi.sub_apply, hc i j hij, avgAt_const Y hij]
    rw [show avgAt X Y - μ + (Y - avgAt X Y) = Y - μ by abel] at this
    exact this
  have h2 : SameTotals X (avgAt X Y - μ) (Y - μ) := fun i => by
    simp only [Pi.sub_apply, Finset.sum_sub_distrib, sameTotals_avgAt X Y i]
  have hn : (0 : ℝ) ≤ n := Nat.cast_nonneg n
  have hD : 0 < ν + n - 2 := by linarith
  have hcc : (0 : ℝ) < σ ^ 2 + 1 / 100000 := by positivity
  have e1 := tpPredictWithHyps_ok hX hXs hd hν hdof Y hμ hμs
  have e2 := tpPredictWithHyps_ok hX hXs hd hν hdof (avgAt X Y) hμ hμs
  simp only at e1 e2
  rw [postMean_repeats base σ s l Xs h2] at e2
  set A := misfit (noisyGram base σ s l X) (avgAt X Y - μ) with hA
  have hA0 : 0 ≤ A := misfit_nonneg (noisyGram_posDef base σ s l X) _
  set W := ∑ a, (Y a - avgAt X Y a) ^ 2 with hW
  have hW0 : 0 ≤ W := Finset.sum_nonneg fun a _ => sq_nonneg _
  have e3 : (ν + misfit (noisyGram base σ s l X) (Y - μ) - 2) / (ν + n - 2) =
      (ν + A - 2) / (ν + n - 2) + W / ((σ ^ 2 + 1 / 100000) * (ν + n - 2)) := by
    rw [h1]
    field_simp
    ring
  have hq : 0 ≤ W / ((σ ^ 2 + 1 / 100000) * (ν + n - 2)) := by positivity
  have hb : 0 < (ν + A - 2) / (ν + n - 2) := div_pos (by linarith) hD
  refine ⟨_, _, _, _, _, _, _, e1, e2, predictWithHyps_ok hX hXs hd Y hμ hμs, fun i j => ?_,
    fun i => ?_⟩
  · simp only [Matrix.smul_apply, smul_eq_mul, e3]
    ring
  · have hi : 0 < postCov base σ s l X Xs i i := (postCov_posDef base σ s l X Xs).diag_pos
    simp only [Matrix.smul_apply, smul_eq_mul, e3]
    rw [max_eq_left (mul_pos hb hi).le, max_eq_left (mul_pos (by linarith) hi).le]
    refine ⟨Real.sqrt_le_sqrt (by nlinarith), fun hne => Real.sqrt_lt_sqrt (mul_pos hb hi).le ?_⟩
    have hWp : 0 < W := by
      refine lt_of_le_of_ne hW0 fun h0 => hne ?_
      funext a
      have := (Finset.sum_eq_zero_iff_of_nonneg fun a _ => sq_nonneg (Y a - avgAt X Y a)).1 h0.symm a
        (Finset.mem_univ a)
      have := pow_eq_zero_iff (two_ne_zero) |>.1 this
      linarith
    have : 0 < W / ((σ ^ 2 + 1 / 100000) * (ν + n - 2)) := by positivity
    nlinarith

/-- C97: the value minimised when fitting a Gaussian process does see the disagreement: it exceeds
that of the averaged responses by the sum of squared deviations over twice the noise variance, per
observation. -/
theorem C97_likelihood {name base : String} {X : Inputs n d} (hX : Suits name base X) {v : List Flt}
    {ard fix : Bool} {h : HypDict} (hr : restoreHyps name v true ard fix = .ok h) {σ s : ℝ}
    {l : Fin d → ℝ} (hd : Describes h σ s l) (hn : n ≠ 0) (Y : Fin n → ℝ) {μ : Fin n → ℝ}
    (hc : ∀ i j, item X i = item X j → μ i = μ j) :
    ∃ a b, Gp.negLogMl X Y v name μ ard fix false false = .ok (a, none) ∧
      Gp.negLogMl X (avgAt X Y) v name μ ard fix false false = .ok (b, none) ∧
      a = b + (∑ i, (Y i - avgAt X Y i) ^ 2) / (2 * (σ ^ 2 + 1 / 100000) * n) := by
  refine ⟨_, _, negLogMl_inverse_ok hX hr hd hn Y μ false,
    negLogMl_inverse_ok hX hr hd hn (avgAt X Y) μ false, ?_⟩
  have hz : ∀ i, ∑ j ∈ repeats X i, (Y - avgAt X Y) j = 0 := fun i => by
    simp only [Pi.sub_apply, Finset.sum_sub_distrib, sameTotals_avgAt X Y i, sub_self]
  have h1 := misfit_repeats base σ s l (y := avgAt X Y - μ) hz fun i j hij => by
      simp only [Pi.sub_apply, hc i j hij, avgAt_const Y hij]
  rw [show avgAt X Y - μ + (Y - avgAt X Y) = Y - μ by abel, misfit, misfit] at h1
  have hnr : (n : ℝ) ≠ 0 := by exact_mod_cast hn
  have hcc : (σ ^ 2 + 1 / 100000 : ℝ) ≠ 0 := by positivity
  rw [nllExact, nllExact, h1]
  simp only [Pi.sub_apply]
  field_simp
  ring

/-- C97: so does the value minimised when fitting a Student-t process: it never falls below that of
the averaged responses, and exceeds it as soon as two responses at the same input differ. -/
theorem C97_student_likelihood {name base : String} {X : Inputs n d} (hX : Suits name base X)
    {v : List Flt} {ard fix : Bool} {h : HypDict} (hr : restoreHyps name v false ard fix = .ok h)
    {σ s : ℝ} {l : Fin d → ℝ} (hd : Describes h σ s l) {ν : ℝ} (hν : 2 < ν)
    (hdof : h.dof = some (.flt (.fin ν))) (hn : n ≠ 0) (Y : Fin n → ℝ) {μ : Fin n → ℝ}
    (hc : ∀ i j, item X i = item X j → μ i = μ j) :
    ∃ a b, Tp.negLogMl X Y v name μ ard fix false = .ok (a, none) ∧
      Tp.negLogMl X (avgAt X Y) v name μ ard fix false = .ok (b, none) ∧ b ≤ a ∧
      ((∃ i j, item X i = item X j ∧ Y i ≠ Y j) → b < a) := by
  have hp := noisyGram_posDef base σ s l X
  refine ⟨_, _, tpNegLogMl_of_noisyCov hX hr hν hdof (noisyCov_ok hX hd) hp.det_pos hn Y μ,
    tpNegLogMl_of_noisyCov hX hr hν hdof (noisyCov_ok hX hd) hp.det_pos hn (avgAt X Y) μ, ?_⟩
  have hz : ∀ i, ∑ j ∈ repeats X i, (Y - avgAt X Y) j = 0 := fun i => by
    simp only [Pi.sub_apply, Finset.sum_sub_distrib, sameTotals_avgAt X Y i, sub_self]
  have h1 := misfit_repeats base σ s l (y := avgAt X Y - μ) hz fun i j hij => by
      simp only [Pi.sub_apply, hc i j hij, avgAt_const Y hij]
  rw [show avgAt X Y - μ + (Y - avgAt X Y) = Y - μ by abel] at h1
  have hA0 := misfit_nonneg hp (avgAt X Y - μ)
  set A := misfit (noisyGram base σ s l X) (avgAt X Y - μ) with hA
  set W := ∑ i, (Y - avgAt X Y) i ^ 2 with hW
  have hW0 : 0 ≤ W := Finset.sum_nonneg fun a _ => sq_nonneg _
  have hnr : (0 : ℝ) < n := by positivity
  have hcc : (0 : ℝ) < σ ^ 2 + 1 / 100000 := by positivity
  have hν2 : 0 < ν - 2 := by linarith
  have hq : 0 ≤ W / (σ ^ 2 + 1 / 100000) := by positivity
  have key : tllExact ν (noisyGram base σ s l X) (Y - μ) -
      tllExact ν (noisyGram base σ s l X) (avgAt X Y - μ) =
      (ν + n) / 2 / n * (Real.log (1 + (A + W / (σ ^ 2 + 1 / 100000)) / (ν - 2)) -
        Real.log (1 + A / (ν - 2))) := by
    rw [tllExact, tllExact, h1, ← hA]
    field_simp
    ring
  have hf : 0 < (ν + n) / 2 / n := by positivity
  have hl1 : 0 < 1 + A / (ν - 2) := by positivity
  constructor
  · have h2 := key
    have h3 : Real.log (1 + A / (ν - 2)) ≤
        Real.log (1 + (A + W / (σ ^ 2 + 1 / 100000)) / (ν - 2)) := by
      refine Real.log_le_log hl1 ?_
      gcongr
      linarith
    have h4 := mul_nonneg hf.le (sub_nonneg.2 h3)
    linarith
  · rintro ⟨i, j, hij, hne⟩
    have hWp : 0 < W := by
      refine lt_of_le_of_ne hW0 fun h0 => hne ?_
      have hall := (Finset.sum_eq_zero_iff_of_nonneg
        fun a _ => sq_nonneg ((Y - avgAt X Y) a)).1 h0.symm
      have h2 := pow_eq_zero_iff two_ne_zero |>.1 (hall i (Finset.mem_univ i))
      have h3 := pow_eq_zero_iff two_ne_zero |>.1 (hall j (Finset.mem_univ j))
      have h4 := avgAt_const Y hij
      simp only [Pi.sub_apply] at h2 h3
      linarith
    have h2 := key
    have hqp : 0 < W / (σ ^ 2 + 1 / 100000) := by positivity
    have h3 : Real.log (1 + A / (ν - 2)) <
        Real.log (1 + (A + W / (σ ^ 2 + 1 / 100000)) / (ν - 2)) := by
      refine Real.log_lt_log hl1 ?_
      gcongr
      linarith
    have h4 := mul_pos hf (sub_pos.2 h3)
    linarith

/-- Three responses `1, 2, 6` at the same input, five degrees of freedom: the Student-t process is
less certain than if all three were `3`. -/
example : ∃ mu sd sd' S S', Tp.predictWithHyps exTrain3 ![1, 2, 6] exTrain exHypsT "matern32" none =
      .ok (5 + (3 : ℕ), mu, sd, S) ∧
    Tp.predictWithHyps exTrain3 ![3, 3, 3] exTrain exHypsT "matern32" none =
      .ok (5 + (3 : ℕ), mu, sd', S') ∧ sd' 0 < sd 0 := by
  have ha : avgAt exTrain3 ![1, 2, 6] = ![3, 3, 3] := by
    funext i
    have : repeats exTrain3 i = Finset.univ := by
      ext j; simp [repeats, item, exTrain3]
    rw [avgAt, this]
    fin_cases i <;> simp [Fin.sum_univ_three] <;> norm_num
  obtain ⟨mu, sd, sd', sd'', S, S', V, h1, h2, -, -, h3⟩ := C97_student exTrain3_suits exTrain_suits
    exHypsT_describes (ν := 5) (by norm_num) rfl (prior := none) (μ := 0) (μs := 0) rfl rfl
    (fun _ _ _ => rfl) ![1, 2, 6]
  rw [ha] at h2 h3
  refine ⟨mu, sd, sd', S, S', h1, h2, (h3 0).2 fun hne => ?_⟩
  have := congrFun hne 0
  norm_num at this

end Verif.Props
