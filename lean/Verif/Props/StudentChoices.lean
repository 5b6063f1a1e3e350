import Verif.Lemmas.StudentChoices
import Verif.Props.GrowingWeight

/-! # Choices with the Student-t process (C141) -/

namespace Verif.Props

open Verif.Spec Verif.Covariance Verif.UtilsCovariance Verif.Lemmas Verif.Acquisition
  Verif.Constants
open Matrix hiding gram

/-- C141: pure exploration with the Student-t process makes the choices it makes with the Gaussian
process, whatever the responses. -/
theorem C141_explore {d : ℕ} {base : String} (hb : base ∈ baseNames) {h : HypDict} {σ s : ℝ}
    {l : Fin d → ℝ} (hd : Describes h σ s l) {ν : ℝ} (hν : 2 < ν)
    (hdof : h.dof = some (.flt (.fin ν))) {prior : Gp.PriorMu d} (hpr : PriorTotal prior)
    (C : Set (Point d)) (x : ℕ → Point d) (Y : ℕ → ℝ) (n : ℕ) :
    ChosenByStudent (fun _ sd _ => pureExplore sd) C x Y h base prior 0 n ↔
      ChosenBy (fun _ sd _ => pureExplore sd) C x Y h base prior 0 n := by
  refine forall₂_congr fun z _ => ?_
  obtain ⟨mu, sd, S, μ, c, h1, -, -, hc, h2⟩ := student_predicted hb hd hν hdof hpr
    (fun i : Fin n => x i) (fun i => Y i) ![x n, z]
  have hs := Real.sqrt_pos.2 hc
  rw [h1, h2]
  simp only [pureExplore, pure, Except.pure, Except.ok.injEq, Prod.mk.injEq, add_zero]
  constructor
  · rintro ⟨_, _, _, _, v, v', ⟨-, rfl, rfl, rfl⟩, hv, hle⟩
    refine ⟨_, _, _, sd 0, sd 1, ⟨rfl, rfl, rfl⟩, by simp [List.ofFn_succ], ?_⟩
    simp only [List.ofFn_succ, List.ofFn_zero, List.cons.injEq, and_true, Fin.succ_zero_eq_one] at hv
    obtain ⟨rfl, rfl⟩ := hv
    exact le_of_mul_le_mul_left hle hs
  · rintro ⟨_, _, _, v, v', ⟨rfl, rfl, rfl⟩, hv, hle⟩
    refine ⟨_, _, _, _, √c * sd 0, √c * sd 1, ⟨rfl, rfl, rfl, rfl⟩, by simp [List.ofFn_succ], ?_⟩
    simp only [List.ofFn_succ, List.ofFn_zero, List.cons.injEq, and_true, Fin.succ_zero_eq_one] at hv
    obtain ⟨rfl, rfl⟩ := hv
    exact mul_le_mul_of_nonneg_left hle hs.le

/-- C141: so it learns functions of bounded norm as C124 says. -/
theorem C141_learn {d : ℕ} {base : String} (hb : base ∈ baseNames) {h : HypDict} {σ s : ℝ}
    {l : Fin d → ℝ} (hd : Describes h σ s l) {ν : ℝ} (hν : 2 < ν)
    (hdof : h.dof = some (.flt (.fin ν))) {C : Set (Point d)} (hC : Bornology.IsBounded C)
    {R : ℝ} (hR : 0 ≤ R) {η : ℝ} (hη : 0 < η) :
    ∃ M : ℕ, ∀ (prior : Gp.PriorMu d) (m f : Point d → ℝ) (B : ℝ) (x : ℕ → Point d) (Y : ℕ → ℝ)
      (n₀ : ℕ), PriorFunction prior m → NormAtMost base s l B (fun z => f z - m z) →
      (∀ n, n₀ ≤ n → n < n₀ + M → x n ∈ C ∧
        ChosenByStudent (fun _ sd _ => pureExplore sd) C x Y h base prior 0 n) →
      ∀ T ≥ n₀ + M,
        B ^ 2 + (∑ j : Fin T, (Y j - f (x j)) ^ 2) / (σ ^ 2 + 1 / 100000) ≤ R ^ 2 →
        ∀ z ∈ C, ∀ ν' mu sd S, Tp.predictWithHyps (.vec fun i : Fin T => x i) (fun i => Y i)
          (.vec fun _ : Fin 1 => z) h base prior = .ok (ν', mu, sd, S) → |f z - mu 0| ≤ η := by
  obtain ⟨M, hM⟩ := C124_explore hb hd hC hR hη
  refine ⟨M, fun prior m f B x Y n₀ hm hf hx T hT hB z hz ν' mu sd S hp => ?_⟩
  have hpr := PriorFunction.total hm
  obtain ⟨mu', sd', S', μ, c, h1, -, -, -, h2⟩ := student_predicted hb hd hν hdof hpr
    (fun i : Fin T => x i) (fun i => Y i) fun _ : Fin 1 => z
  rw [h2] at hp
  simp only [Except.ok.injEq, Prod.mk.injEq] at hp
  obtain ⟨-, rfl, -, -⟩ := hp
  exact hM prior m f B x Y n₀ hm hf (fun n a b => ⟨(hx n a b).1,
    (C141_explore hb hd hν hdof hpr C x Y n).1 (hx n a b).2⟩) T hT hB z hz _ _ _ h1

/-- C141: for functions of bounded norm, the deviations that the Student-t process predicts fall with
the number of responses everywhere, wherever the inputs are. -/
theorem C141_deviation {n k d : ℕ} {base : String} (hb : base ∈ baseNames) {h : HypDict} {σ s : ℝ}
    {l : Fin d → ℝ} (hd : Describes h σ s l) {ν : ℝ} (hν : 2 < ν)
    (hdof : h.dof = some (.flt (.fin ν))) {prior : Gp.PriorMu d} {m : Point d → ℝ}
    (hm : PriorFunction prior m) {f : Point d → ℝ} {B R : ℝ}
    (hf : NormAtMost base s l B fun z => f z - m z) {x : Fin n → Point d} {Y : Fin n → ℝ}
    (hR : B ^ 2 + (∑ j, (Y j - f (x j)) ^ 2) / (σ ^ 2 + 1 / 100000) ≤ R ^ 2)
    {p : Fin k → Point d} {ν' mu sd S}
    (hp : Tp.predictWithHyps (.vec x) Y (.vec p) h base prior = .ok (ν', mu, sd, S)) (i : Fin k) :
    sd i ^ 2 ≤ (ν - 2 + R ^ 2) / (ν - 2 + n) * (s ^ 2 + 1 / 100000) := by
  have hpr := PriorFunction.total hm
  obtain ⟨mu', sd', S', μ, c, h1, hμ, hc, hc0, h2⟩ := student_predicted hb hd hν hdof hpr x Y p
  rw [h2] at hp
  simp only [Except.ok.injEq, Prod.mk.injEq] at hp
  obtain ⟨-, -, rfl, -⟩ := hp
  rw [hm n x] at hμ
  obtain rfl := Except.ok.inj hμ
  have hv : ∀ {n : ℕ} (v : Fin n → Point d), Suits base base (.vec v) :=
    fun v => ⟨hb, .inl ⟨rfl, _, rfl⟩⟩
  obtain ⟨_, _, _, h3, hle⟩ := C33_at_most_prior (hv x) (hv p) hd Y (hm _ _) (hm _ _)
  rw [h1] at h3
  simp only [Except.ok.injEq, Prod.mk.injEq] at h3
  obtain ⟨-, rfl, rfl⟩ := h3
  have hsd := predicted_sq hb hd hpr h1 i
  have hβ := (misfit_le_budget (σ := σ) (x := x) hf fun j => Y j - f (x j)).trans hR
  have e : (fun j => f (x j) - m (x j) + (Y j - f (x j))) = Y - fun j => m (x j) := by
    funext j
    simp
  rw [e] at hβ
  have hn : (0 : ℝ) ≤ n := Nat.cast_nonneg n
  beta_reduce
  rw [mul_pow, Real.sq_sqrt hc0.le, hc]
  have h4 : sd' i ^ 2 ≤ s ^ 2 + 1 / 100000 := by
    have := (Real.le_sqrt hsd.1.le (by positivity)).1 (hle i).2.2
    exact this
  have h5 : (ν - 2 + misfit (noisyGram base σ s l (.vec x)) (Y - fun j => m (x j))) / (ν - 2 + n) ≤
      (ν - 2 + R ^ 2) / (ν - 2 + n) :=
    div_le_div_of_nonneg_right (by linarith) (by linarith)
  refine mul_le_mul h5 h4 (sq_nonneg _) ?_
  rw [← hc] at h5
  linarith

private theorem log_sq_le (n : ℕ) : Real.log ((n : ℝ) + 1) ^ 2 ≤ 16 * √((n : ℝ) + 1) := by
  have hn : (0 : ℝ) ≤ n := Nat.cast_nonneg n
  have h0 : 0 < √√((n : ℝ) + 1) := by positivity
  have h1 := Real.log_le_sub_one_of_pos h0
  rw [Real.log_sqrt (Real.sqrt_nonneg _), Real.log_sqrt (by linarith)] at h1
  have h2 : 0 ≤ Real.log ((n : ℝ) + 1) := Real.log_nonneg (by linarith)
  have h3 : Real.log ((n : ℝ) + 1) ≤ 4 * √√((n : ℝ) + 1) := by linarith
  have h4 := pow_le_pow_left₀ h2 h3 2
  rw [mul_pow, Real.sq_sqrt (Real.sqrt_nonneg _)] at h4
  linarith

/-- C141: the growing weight of `ucb` does not make up for it. For all data of sufficient size, the
weight times the deviation is arbitrarily small everywhere. -/
theorem C141_weight {d : ℕ} {base : String} (hb : base ∈ baseNames) {h : HypDict} {σ s : ℝ}
    {l : Fin d → ℝ} (hd : Describes h σ s l) {ν : ℝ} (hν : 2 < ν)
    (hdof : h.dof = some (.flt (.fin ν))) (kappa R : ℝ) {ε : ℝ} (hε : 0 < ε) :
    ∃ N : ℕ, ∀ n ≥ N, ∀ (prior : Gp.PriorMu d) (m f : Point d → ℝ) (B : ℝ) (x : Fin n → Point d)
      (Y : Fin n → ℝ), PriorFunction prior m → NormAtMost base s l B (fun z => f z - m z) →
      B ^ 2 + (∑ j, (Y j - f (x j)) ^ 2) / (σ ^ 2 + 1 / 100000) ≤ R ^ 2 →
      ∀ (k : ℕ) (p : Fin k → Point d) ν' mu sd S,
        Tp.predictWithHyps (.vec x) Y (.vec p) h base prior = .ok (ν', mu, sd, S) →
        ∃ v, ucb (List.ofFn mu) (List.ofFn sd) (some (List.ofFn Y)) kappa = .ok v ∧
          v.length = k ∧ ∀ (i : Fin k) (vi : ℝ), v[(i : ℕ)]? = some vi → |vi + mu i| ≤ ε := by
  set A := (ν - 2 + R ^ 2) * (s ^ 2 + 1 / 100000) with hA
  have hA0 : 0 < A := mul_pos (by linarith [sq_nonneg R]) (by positivity)
  set q := 32 * kappa ^ 2 * A / ε ^ 2 with hq
  have hq0 : 0 ≤ q := by positivity
  refine ⟨⌈q ^ 2⌉₊ + 1, fun n hn prior m f B x Y hm hf hR k p ν' mu sd S hp => ?_⟩
  have hn1 : (1 : ℝ) ≤ n := by
    have : 1 ≤ n := by omega
    exact_mod_cast this
  have hnq : q ≤ √((n : ℝ) + 1) := by
    refine Real.le_sqrt_of_sq_le ?_
    have h1 := Nat.le_ceil (q ^ 2)
    have h2 : ((⌈q ^ 2⌉₊ + 1 : ℕ) : ℝ) ≤ n := by exact_mod_cast hn
    push_cast at h2
    linarith
  have hr : 0 < √((n : ℝ) + 1) := by positivity
  have hrr := Real.sq_sqrt (show (0 : ℝ) ≤ n + 1 by linarith)
  set L := Real.log ((n : ℝ) + 1) with hL
  have hmain : ∀ i, |kappa * L * sd i| ≤ ε := by
    intro i
    refine abs_le_of_sq_le_sq ?_ hε.le
    have h1 := C141_deviation hb hd hν hdof hm hf hR hp i
    have h2 := log_sq_le n
    rw [← hL] at h2
    set r := √((n : ℝ) + 1) with hrd
    have h3 : (ν - 2 + R ^ 2) / (ν - 2 + n) * (s ^ 2 + 1 / 100000) ≤ 2 * A / r ^ 2 := by
      rw [div_mul_eq_mul_div, ← hA, div_le_div_iff₀ (by linarith) (by positivity)]
      have : r ^ 2 ≤ 2 * (ν - 2 + n) := by rw [hrr]; linarith
      have := mul_le_mul_of_nonneg_left this hA0.le
      linarith
    calc (kappa * L * sd i) ^ 2 = kappa ^ 2 * L ^ 2 * sd i ^ 2 := by ring
      _ ≤ kappa ^ 2 * (16 * r) * (2 * A / r ^ 2) :=
        mul_le_mul (mul_le_mul_of_nonneg_left h2 (sq_nonneg _)) (h1.trans h3) (sq_nonneg _)
          (by positivity)
      _ = 32 * kappa ^ 2 * A / r := by field_simp; ring
      _ ≤ ε ^ 2 := by
        rw [div_le_iff₀ hr]
        rw [hq, div_le_iff₀ (by positivity)] at hnq
        linarith
  refine ⟨List.zipWith (fun m s => -m + kappa * Real.log ((n : ℝ) + 1) * s) (List.ofFn mu)
    (List.ofFn sd), by simp [ucb, pyAssert, bind, Except.bind, pure, Except.pure], by simp,
    fun i vi hvi => ?_⟩
  rw [List.getElem?_zipWith] at hvi
  simp only [List.getElem?_ofFn, i.2, dif_pos, Option.some.injEq, Fin.eta] at hvi
  rw [← hvi, ← hL, show -mu i + kappa * L * sd i + mu i = kappa * L * sd i by ring]
  exact hmain i

private theorem log_le_root {ν : ℝ} (hν : 146 ≤ ν) (n : ℕ) :
    Real.log ((n : ℝ) + 1) ^ 2 ≤ 1936 / 10000 * (ν - 2 + n) := by
  have hn : (0 : ℝ) ≤ n := Nat.cast_nonneg n
  set u := √(ν - 2 + n) with hu
  have hu2 : u ^ 2 = ν - 2 + n := Real.sq_sqrt (by linarith)
  have hu12 : 12 ≤ u := Real.le_sqrt_of_sq_le (by linarith)
  have he : (12 : ℝ) ≤ Real.exp (5 / 2) := by
    have h1 : (144 : ℝ) ≤ Real.exp 1 ^ 5 := by
      have := pow_le_pow_left₀ (by norm_num) Real.exp_one_gt_d9.le 5
      exact le_trans (by norm_num) this
    have h2 : Real.exp (5 / 2) ^ 2 = Real.exp 1 ^ 5 := by
      rw [← Real.exp_nat_mul, ← Real.exp_nat_mul]
      norm_num
    have h3 := Real.exp_pos (5 / 2)
    nlinarith
  have hlog : Real.log u ≤ 3 / 2 + u / 12 := by
    have h0 : 0 < u / Real.exp (5 / 2) := div_pos (by linarith) (Real.exp_pos _)
    have h1 := Real.log_le_sub_one_of_pos h0
    rw [Real.log_div (by linarith) (Real.exp_pos _).ne', Real.log_exp] at h1
    have h2 : u / Real.exp (5 / 2) ≤ u / 12 := div_le_div_of_nonneg_left (by linarith) (by norm_num) he
    linarith
  have h1 : Real.log ((n : ℝ) + 1) ≤ 2 * Real.log u := by
    have := Real.log_le_log (show (0 : ℝ) < n + 1 by linarith) (show (n : ℝ) + 1 ≤ u ^ 2 by linarith)
    rwa [Real.log_pow] at this
  have h2 : Real.log ((n : ℝ) + 1) ≤ 44 / 100 * u := by linarith
  have h3 := pow_le_pow_left₀ (Real.log_nonneg (show (1 : ℝ) ≤ n + 1 by linarith)) h2 2
  rw [mul_pow, hu2] at h3
  linarith

/-- C141: `ucb` with its default arguments can stay at its first point forever with the Student-t
process, whatever the value at the other one: the score of the point seen is the greater one after
every number of responses. (Two points that are hardly correlated, a large response at the first, 146
or more degrees of freedom.) -/
theorem C141_stuck {d : ℕ} {base : String} (hb : base ∈ baseNames) {h : HypDict} {σ s : ℝ}
    {l : Fin d → ℝ} (hd : Describes h σ s l) {ν : ℝ} (hν : 146 ≤ ν)
    (hdof : h.dof = some (.flt (.fin ν))) (hs : 1 ≤ s) (hσ : σ ^ 2 + 1 / 100000 ≤ s ^ 2 / 50)
    {a b : Point d} (hab : kernel base s l a b ≤ s ^ 2 / 20) {f : Point d → ℝ} (hfa : f a < 0)
    (hM : ν * s ^ 2 ≤ f a ^ 2 / 100) {n : ℕ} (hn : 1 ≤ n) :
    ChosenByStudent (fun mu sd Y => ucb mu sd (some Y)) {a, b} (fun _ => a) (fun _ => f a) h base
      none 0 n := by
  have hm : PriorFunction (none : Gp.PriorMu d) fun _ => 0 := fun n X => rfl
  have hpr := PriorFunction.total hm
  have hn1 : (1 : ℝ) ≤ n := by exact_mod_cast hn
  have hτ : (0 : ℝ) < σ ^ 2 + 1 / 100000 := by positivity
  have hs2 : 1 ≤ s ^ 2 := one_le_pow₀ hs
  set τ := σ ^ 2 + 1 / 100000 with hτd
  have hden : 0 < n * s ^ 2 + τ := by positivity
  set M := -f a with hMd
  have hM0 : 0 < M := by linarith
  have hkaa : kernel base s l a a = s ^ 2 := by
    have h0 : profile base 0 = 1 := by
      unfold profile
      split_ifs <;> simp [m32Profile, m52Profile, seProfile]
    simp [kernel, scaledDistance, h0]
  intro z hz
  obtain ⟨mu, sd, S, μ, c, h1, hμ, hc, hc0, h2⟩ := student_predicted hb hd (by linarith) hdof hpr
    (fun _ : Fin n => a) (fun _ => f a) ![a, z]
  rw [hm n] at hμ
  obtain rfl := Except.ok.inj hμ
  refine ⟨_, _, _, _, -mu 0 + 2 * Real.log ((n : ℝ) + 1) * (√c * sd 0),
    -mu 1 + 2 * Real.log ((n : ℝ) + 1) * (√c * sd 1), h2, ?_, ?_⟩
  · simp [ucb, pyAssert, List.ofFn_succ, bind, Except.bind, pure, Except.pure]
  -- what is predicted
  have hKy : (noisyGram base σ s l (.vec fun _ : Fin n => a))⁻¹ *ᵥ (fun _ => f a) =
      fun _ => f a / (n * s ^ 2 + τ) := by
    have : (fun _ : Fin n => f a) = f a • fun _ => 1 := by
      funext
      simp
    rw [this, mulVec_smul, noisyGram_inv_same]
    funext i
    rw [Pi.smul_apply, smul_eq_mul, ← hτd, mul_one_div]
  have hmu : ∀ i, mu i = n * kernel base s l a (![a, z] i) * f a / (n * s ^ 2 + τ) := by
    intro i
    have hv : ∀ {n : ℕ} (v : Fin n → Point d), Suits base base (.vec v) :=
      fun v => ⟨hb, .inl ⟨rfl, _, rfl⟩⟩
    rw [predictWithHyps_ok (hv _) (hv _) hd _ (hm _ _) (hm _ _)] at h1
    simp only [Except.ok.injEq, Prod.mk.injEq] at h1
    obtain ⟨rfl, -, -⟩ := h1
    rw [Pi.add_apply, add_zero, postMean, ← mulVec_mulVec,
      show ((fun _ => f a) - fun _ => 0 : Fin n → ℝ) = fun _ => f a by funext; simp, hKy]
    simp only [mulVec, dotProduct, transpose_apply, gram, item, itemKernel_one, Matrix.of_apply,
      Finset.sum_const, Finset.card_univ, Fintype.card_fin, nsmul_eq_mul]
    ring
  have hβ : c = (ν - 2 + n * M ^ 2 / (n * s ^ 2 + τ)) / (ν - 2 + n) := by
    rw [hc, misfit, show ((fun _ => f a) - fun _ => 0 : Fin n → ℝ) = fun _ => f a by funext; simp,
      hKy]
    simp only [dotProduct, Finset.sum_const, Finset.card_univ, Fintype.card_fin, nsmul_eq_mul]
    rw [hMd]
    ring
  have hsc := Real.sqrt_pos.2 hc0
  have hL : 0 ≤ Real.log ((n : ℝ) + 1) := Real.log_nonneg (by linarith)
  have hsd := fun i => predicted_sq hb hd hpr h1 i
  have m0 := hmu 0
  have m1 := hmu 1
  simp only [Matrix.cons_val_zero, Matrix.cons_val_one, hkaa] at m0 m1
  rcases hz with rfl | hz
  · have e1 : sd 0 = sd 1 := by
      have a1 := (hsd 0).2
      have a2 := (hsd 1).2
      simp only [Matrix.cons_val_zero, Matrix.cons_val_one] at a1 a2
      rw [← a2] at a1
      exact (pow_left_inj₀ (hsd 0).1.le (hsd 1).1.le two_ne_zero).1 a1
    have e2 : mu 0 = mu 1 := by rw [m0, m1, hkaa]
    rw [e1, e2, add_zero]
  obtain rfl : z = b := hz
  have hceil : sd 1 ^ 2 ≤ s ^ 2 + 1 / 100000 := by
    have hv : ∀ {n : ℕ} (v : Fin n → Point d), Suits base base (.vec v) :=
      fun v => ⟨hb, .inl ⟨rfl, _, rfl⟩⟩
    obtain ⟨_, _, _, hp', hle⟩ := C33_at_most_prior (hv fun _ : Fin n => a)
      (hv (![a, z] : Fin 2 → Point d)) hd (fun _ : Fin n => f a) (hm _ _) (hm _ _)
    rw [h1] at hp'
    simp only [Except.ok.injEq, Prod.mk.injEq] at hp'
    obtain ⟨-, rfl, -⟩ := hp'
    exact (Real.le_sqrt (hsd 1).1.le (by positivity)).1 (hle 1).2.2
  -- the means differ by more than the deviations count
  have hgap : 93 / 100 * M ≤ mu 1 - mu 0 := by
    have e : mu 1 - mu 0 = M * (n * (s ^ 2 - kernel base s l a z) / (n * s ^ 2 + τ)) := by
      rw [m0, m1, hMd]
      ring
    rw [e]
    have h3 : 93 / 100 ≤ n * (s ^ 2 - kernel base s l a z) / (n * s ^ 2 + τ) := by
      rw [le_div_iff₀ hden]
      have a1 := mul_le_mul_of_nonneg_left hab (show (0 : ℝ) ≤ n by linarith)
      have a2 := mul_le_mul_of_nonneg_right hn1 (show 0 ≤ s ^ 2 / 50 by linarith)
      have a3 : 0 ≤ (n : ℝ) * s ^ 2 := by positivity
      linarith
    have := mul_le_mul_of_nonneg_left h3 hM0.le
    linarith
  have hdev : 2 * Real.log ((n : ℝ) + 1) * (√c * sd 1) ≤ 93 / 100 * M := by
    refine abs_le_of_sq_le_sq' ?_ (by positivity) |>.2
    have h3 := log_le_root hν n
    have hνn : 0 < ν - 2 + n := by linarith
    have h4 : n * M ^ 2 / (n * s ^ 2 + τ) ≤ M ^ 2 / s ^ 2 := by
      rw [div_le_div_iff₀ hden (by linarith)]
      have := mul_nonneg (sq_nonneg M) hτ.le
      linarith
    have h5 : ν ≤ M ^ 2 / s ^ 2 / 100 := by
      rw [div_div, le_div_iff₀ (by linarith), hMd, neg_sq]
      linarith
    have hQ0 : 0 ≤ M ^ 2 / s ^ 2 := by positivity
    have h6 : c * (ν - 2 + n) ≤ 101 / 100 * (M ^ 2 / s ^ 2) := by
      rw [hβ, div_mul_cancel₀ _ hνn.ne']
      linarith
    have h7 : s ^ 2 + 1 / 100000 ≤ 100001 / 100000 * s ^ 2 := by linarith
    have h8 : M ^ 2 / s ^ 2 * s ^ 2 = M ^ 2 := div_mul_cancel₀ _ (by linarith)
    calc (2 * Real.log ((n : ℝ) + 1) * (√c * sd 1)) ^ 2
        = 4 * Real.log ((n : ℝ) + 1) ^ 2 * c * sd 1 ^ 2 := by
          rw [mul_pow, mul_pow, mul_pow, Real.sq_sqrt hc0.le]
          ring
      _ ≤ 4 * (1936 / 10000 * (ν - 2 + n)) * c * (100001 / 100000 * s ^ 2) := by
          refine mul_le_mul (mul_le_mul_of_nonneg_right (by linarith) hc0.le) (hceil.trans h7)
            (sq_nonneg _) (by positivity)
      _ = 4 * (1936 / 10000) * (100001 / 100000) * s ^ 2 * (c * (ν - 2 + n)) := by ring
      _ ≤ 4 * (1936 / 10000) * (100001 / 100000) * s ^ 2 * (101 / 100 * (M ^ 2 / s ^ 2)) :=
          mul_le_mul_of_nonneg_left h6 (by positivity)
      _ = 4 * (1936 / 10000) * (100001 / 100000) * (101 / 100) * (M ^ 2 / s ^ 2 * s ^ 2) := by ring
      _ ≤ (93 / 100 * M) ^ 2 := by
          rw [h8, mul_pow]
          have := sq_nonneg M
          linarith
  have hpos : 0 ≤ 2 * Real.log ((n : ℝ) + 1) * (√c * sd 0) :=
    mul_nonneg (by linarith) (mul_nonneg hsc.le (hsd 0).1.le)
  linarith

/-- C141: with the Gaussian process the better of the two points is chosen again and again. -/
theorem C141_gaussian {d : ℕ} {base : String} (hb : base ∈ baseNames) {h : HypDict} {σ s : ℝ}
    {l : Fin d → ℝ} (hd : Describes h σ s l) {a b : Point d} {f : Point d → ℝ} {B : ℝ}
    (hf : NormAtMost base s l B f) (hfab : f b < f a) {x : ℕ → Point d}
    (hx : ∀ n, 1 ≤ n → x n ∈ ({a, b} : Set (Point d)) ∧
      ChosenBy (fun mu sd Y => ucb mu sd (some Y)) {a, b} x (fun i => f (x i)) h base none 0 n) :
    {n | x n = b}.Infinite := by
  have hm : PriorFunction (none : Gp.PriorMu d) fun _ => 0 := fun n X => rfl
  have h1 := C140_again hb hd (Set.toFinite {a, b}).isBounded two_pos hm (f := f) (B := B) (R := B)
    (δ := 0) (x := x) (Y := fun i => f (x i)) (by simpa using hf) (by simp) (n₀ := 1) hx
    (η := (f a - f b) / 2) (by linarith)
  have h2 : ({n | ∀ z ∈ ({a, b} : Set (Point d)), f (x n) ≤ f z + 0 + (f a - f b) / 2} \ {0}).Infinite :=
    h1.diff (Set.finite_singleton 0)
  refine h2.mono fun n hn => ?_
  obtain ⟨hn1, hn0⟩ := hn
  have h3 := hn1 b (by simp)
  rcases (hx n (Nat.one_le_iff_ne_zero.2 hn0)).1 with h4 | h4
  · rw [h4] at h3
    linarith
  · exact h4

/-- Two points ten lengthscales apart, a combination of the two kernel functions that is lower at the
second, and 150 degrees of freedom: the Student-t process never leaves the first point, while the
Gaussian process has endless choices as C141 describes. -/
example : ∃ (h : HypDict) (a b : Point 1) (f : Point 1 → ℝ) (B : ℝ) (x : ℕ → Point 1),
    Describes h (1 / 100) 1 (fun _ : Fin 1 => 1) ∧ h.dof = some (.flt (.fin 150)) ∧
    kernel "se" 1 (fun _ => 1) a b ≤ 1 ^ 2 / 20 ∧ NormAtMost "se" 1 (fun _ => 1) B f ∧
    f a < 0 ∧ 150 * 1 ^ 2 ≤ f a ^ 2 / 100 ∧ f b < f a - 900 ∧
    (∀ n, 1 ≤ n → ChosenByStudent (fun mu sd Y => ucb mu sd (some Y)) {a, b} (fun _ => a)
      (fun _ => f a) h "se" none 0 n) ∧
    ∀ n, 1 ≤ n → x n ∈ ({a, b} : Set (Point 1)) ∧
      ChosenBy (fun mu sd Y => ucb mu sd (some Y)) {a, b} x (fun i => f (x i)) h "se" none 0 n := by
  have hb : "se" ∈ baseNames := by simp [baseNames]
  have hd : Describes ⟨some (.flt (.fin (1 / 100))), some (.flt (.fin 150)), some (.flt (.fin 1)),
      some (.arr [.fin 1])⟩ (1 / 100) 1 (fun _ : Fin 1 => 1) := ⟨rfl, rfl, .inl rfl, by intro; norm_num⟩
  have hexp : Real.exp (-50) ≤ 1 / 50 := by
    rw [Real.exp_neg, inv_eq_one_div]
    refine one_div_le_one_div_of_le (by norm_num) ?_
    linarith [Real.add_one_le_exp (50 : ℝ)]
  let k : Point 1 → Point 1 → ℝ := kernel "se" 1 fun _ => 1
  have hk2 : ∀ u v, k u v = Real.exp (-(scaledDistance (fun _ => 1) u v ^ 2 / 2)) := by
    intro u v
    have h1 : ¬ ("se" : String) = "matern32" := by decide
    have h2 : ¬ ("se" : String) = "matern52" := by decide
    simp only [k, kernel, profile, h1, h2, if_false, seProfile]
    ring_nf
  have hk : k (fun _ => 0) (fun _ => 10) = Real.exp (-50) := by
    rw [hk2]
    norm_num [scaledDistance]
  have hk' : k (fun _ => 10) (fun _ => 0) = Real.exp (-50) := by
    rw [hk2]
    norm_num [scaledDistance]
  have hk0 : k (fun _ => 0) (fun _ => 0) = 1 := by
    rw [hk2]
    norm_num [scaledDistance]
  have hk1 : k (fun _ => 10) (fun _ => 10) = 1 := by
    rw [hk2]
    norm_num [scaledDistance]
  let y : Fin 2 → Point 1 := ![fun _ => 0, fun _ => 10]
  let w : Fin 2 → ℝ := ![-1000, -2000]
  let f : Point 1 → ℝ := fun z => ∑ j, w j * kernel "se" 1 (fun _ => 1) (y j) z
  have hfa : f (fun _ => 0) = -1000 - 2000 * Real.exp (-50) := by
    simp only [f, Fin.sum_univ_two, y, w, Matrix.cons_val_zero, Matrix.cons_val_one]
    rw [show kernel "se" 1 (fun _ => 1) (fun _ => 0) (fun _ => 0) = 1 from hk0,
      show kernel "se" 1 (fun _ => 1) (fun _ => 10) (fun _ => 0) = Real.exp (-50) from hk']
    ring
  have hfb : f (fun _ => 10) = -1000 * Real.exp (-50) - 2000 := by
    simp only [f, Fin.sum_univ_two, y, w, Matrix.cons_val_zero, Matrix.cons_val_one]
    rw [show kernel "se" 1 (fun _ => 1) (fun _ => 0) (fun _ => 10) = Real.exp (-50) from hk,
      show kernel "se" 1 (fun _ => 1) (fun _ => 10) (fun _ => 10) = 1 from hk1]
    ring
  have h0 := Real.exp_pos (-50)
  obtain ⟨x, -, hx⟩ := exists_chosen (base := "se") hb hd
    (Set.toFinite {(fun _ => 0 : Point 1), fun _ => 10}) ⟨fun _ => 0, by simp⟩
    (acq := fun mu sd Y => ucb mu sd (some Y))
    (g := fun Y m t => -m + 2 * Real.log ((Y.length : ℝ) + 1) * t)
    (fun _ _ _ _ _ _ _ _ => rfl) f (fun _ => 0)
  have hM : 150 * 1 ^ 2 ≤ f (fun _ => 0) ^ 2 / 100 := by
    rw [hfa]
    nlinarith
  refine ⟨_, fun _ => 0, fun _ => 10, f, _, x, hd, rfl, ?_, normAtMost_expansion y w, by
    rw [hfa]; linarith, hM, by rw [hfa, hfb]; linarith, fun n hn => C141_stuck hb hd (by norm_num) rfl
    le_rfl (by norm_num) ?_ (by rw [hfa]; linarith) hM hn, hx⟩
  all_goals
    rw [show kernel "se" 1 (fun _ => 1) (fun _ => 0) (fun _ => 10) = Real.exp (-50) from hk]
    linarith

end Verif.Props
