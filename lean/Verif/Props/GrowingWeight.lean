import Verif.Lemmas.HypSearch
import Verif.Lemmas.GrowingWeight
import Verif.Props.WorstCase

/-! # The upper confidence bound with its default, growing weight (C140, C142) -/

namespace Verif.Props

open Verif.Spec Verif.Covariance Verif.UtilsCovariance Verif.Lemmas Verif.Acquisition
  Verif.Constants
open Matrix hiding gram

/-- What one choice with weight `w` says: beside the slack, the error at the choice, the share of
the deviation there above its floor, and a term that falls with the weight. -/
theorem growing_step {f f' m m' t t' δ w R D j : ℝ} (hw : 0 < w) (hD : 0 < D) (hj : 0 < j)
    (ht : √j ≤ t) (ht' : √j ≤ t') (htD : t' ≤ D) (hs : -m' + w * t' ≤ -m + w * t + δ)
    (e : |f - m| ≤ R * √(t ^ 2 - j)) (e' : |f' - m'| ≤ R * √(t' ^ 2 - j)) :
    f ≤ f' + δ + R * √(t ^ 2 - j) + w * (t - √j) + R ^ 2 * D / (2 * w) := by
  have hj0 := Real.sqrt_pos.2 hj
  have hjj := Real.sq_sqrt hj.le
  have hpos : 0 ≤ t' ^ 2 - j := by nlinarith
  have hsq := Real.sq_sqrt hpos
  set τ := √(t' ^ 2 - j) with hτ
  have h1 : τ ^ 2 ≤ 2 * D * (t' - √j) := by
    rw [hsq]
    have a := mul_le_mul_of_nonneg_left (show t' + √j ≤ 2 * D by linarith)
      (show 0 ≤ t' - √j by linarith)
    nlinarith only [a, hjj]
  have h2 : R * τ ≤ w * (t' - √j) + R ^ 2 * D / (2 * w) := by
    have a := sq_nonneg (w * τ - R * D)
    have b := mul_le_mul_of_nonneg_left h1 (sq_nonneg w)
    have c : 2 * w * D * (R * τ) ≤ 2 * w * D * (w * (t' - √j) + R ^ 2 * D / (2 * w)) := by
      have e1 : 2 * w * D * (w * (t' - √j) + R ^ 2 * D / (2 * w)) =
          w ^ 2 * (2 * D * (t' - √j)) + R ^ 2 * D ^ 2 := by
        field_simp
      rw [e1]
      nlinarith only [a, b]
    exact le_of_mul_le_mul_left c (by positivity)
  have b1 := (abs_le.1 e).2
  have b2 := (abs_le.1 e').1
  linarith

/-- C142: the upper confidence bound with a growing weight, for hyperparameters, prior means, functions
and responses that are others at every choice, as they are when hyperparameters are fitted and
responses are normalised anew. Signals and noises are bounded and lengthscales are bounded away from
zero; the functions have bounded norms on a set `D` that holds all points. Nothing relates the
functions at different choices. -/
theorem C142_refit {d : ℕ} {base : String} (hb : base ∈ baseNames) {C : Set (Point d)}
    (hC : Bornology.IsBounded C) {kappa : ℝ} (hk : 0 < kappa) {R : ℝ} (hR : 0 ≤ R)
    {σmax smax lmin : ℝ} (hl : 0 < lmin) {η : ℝ} (hη : 0 < η) (n₀ : ℕ) :
    ∃ N : ℕ, ∀ (h : ℕ → HypDict) (σ s : ℕ → ℝ) (l : ℕ → Fin d → ℝ) (prior : ℕ → Gp.PriorMu d)
      (m f : ℕ → Point d → ℝ) (D : Set (Point d)) (B : ℕ → ℝ) (δ : ℝ) (x : ℕ → Point d)
      (Y : ℕ → ℕ → ℝ), C ⊆ D → (∀ n, x n ∈ D) →
      (∀ n, n₀ ≤ n → n < N → Describes (h n) (σ n) (s n) (l n) ∧
        |σ n| ≤ σmax ∧ |s n| ≤ smax ∧ (∀ k, lmin ≤ |l n k|) ∧ PriorFunction (prior n) (m n) ∧
        NormAtMostOn D base (s n) (l n) (B n) (fun z => f n z - m n z) ∧
        B n ^ 2 + (∑ j : Fin n, (Y n j - f n (x j)) ^ 2) / (σ n ^ 2 + 1 / 100000) ≤ R ^ 2 ∧ x n ∈ C ∧
        ChosenBy (fun mu sd Y => ucb mu sd (some Y) kappa) C x (Y n) (h n) base (prior n) δ n) →
      ∃ n, n₀ ≤ n ∧ n < N ∧ ∀ z ∈ C, f n (x n) ≤ f n z + δ + η := by
  have hj : (0 : ℝ) < 1 / 100000 := by norm_num
  have hj0 := Real.sqrt_pos.2 hj
  have hjj := Real.sq_sqrt hj.le
  set D := √(smax ^ 2 + 1 / 100000) with hD
  have hD0 : 0 < D := Real.sqrt_pos.2 (by positivity)
  set W := 3 * R ^ 2 * D / (2 * η) + 1 with hW
  have hW0 : 0 < W := by positivity
  set n₁ := max n₀ ⌈Real.exp (W / kappa)⌉₊ with hn₁
  obtain ⟨c, hc, hpow⟩ := exists_small_power base hC (σmax := σmax) (smax := smax) hl
  obtain ⟨θ, hθ, hθ1, hθε, hθl⟩ := exists_accuracy hk.le hc
    (lt_min (show 0 < 2 * √(1 / 100000) * (η / 3) by positivity)
      (show 0 < (η / (3 * (R + 1))) ^ 2 by positivity)) n₁ (d + 1)
  obtain ⟨M, hM, hsmall⟩ := hpow θ hθ hθ1
  refine ⟨n₁ + M, fun h σ s l prior m f D₀ B δ x Y hCD hxD hx => ?_⟩
  obtain ⟨n, hn1, hn2, hn3⟩ := hsmall σ s l x n₁ fun n hn hn' => by
    obtain ⟨-, a1, a2, a3, -, -, -, a4, -⟩ := hx n ((le_max_left _ _).trans hn) hn'
    exact ⟨a1, a2, a3, a4⟩
  have hn0 : n₀ ≤ n := (le_max_left _ _).trans hn1
  refine ⟨n, hn0, hn2, fun z hz => ?_⟩
  obtain ⟨hd, -, hsn, -, hm, hf, hB, -, hch⟩ := hx n hn0 hn2
  obtain ⟨mu, sd, S, v, v', hp, hu1, hu2⟩ := hch z hz
  have hpr := PriorFunction.total hm
  have hRk : √(B n ^ 2 + (∑ j : Fin n, (Y n j - f n (x j)) ^ 2) / (σ n ^ 2 + 1 / 100000)) ≤ R := by
    rw [Real.sqrt_le_left hR]
    exact hB
  have herr : ∀ i, |f n ((![x n, z] : Fin 2 → Point d) i) - mu i| ≤ R * √(sd i ^ 2 - 1 / 100000) :=
    fun i => (predicted_error_on hb hd hm hf (fun i => hxD i) hp (i := i) (by
      fin_cases i
      · exact hxD n
      · exact hCD hz)).trans
      (mul_le_mul_of_nonneg_right hRk (Real.sqrt_nonneg _))
  have e0 := herr 0
  have e1 := herr 1
  simp only [Matrix.cons_val_zero, Matrix.cons_val_one] at e0 e1
  obtain ⟨h1, h2⟩ := predicted_sq hb hd hpr hp 0
  have hfloor : ∀ i, √(1 / 100000) ≤ sd i := fun i => by
    obtain ⟨a, b⟩ := predicted_sq hb hd hpr hp i
    rw [Real.sqrt_le_left a.le, b]
    have := postCov_diag_ge base (σ n) (s n) (l n) (.vec fun i : Fin n => x i)
      (.vec fun _ : Fin 1 => (![x n, z] : Fin 2 → Point d) i) 0
    linarith
  have hceil : sd 1 ≤ D := by
    have hv : ∀ {n : ℕ} (v : Fin n → Point d), Suits base base (.vec v) :=
      fun v => ⟨hb, .inl ⟨rfl, _, rfl⟩⟩
    obtain ⟨mu', sd', S', hp', hle⟩ := C33_at_most_prior (hv fun i : Fin n => x i)
      (hv (![x n, z] : Fin 2 → Point d)) hd (fun i : Fin n => Y n i) (hm _ _) (hm _ _)
    rw [hp] at hp'
    simp only [Except.ok.injEq, Prod.mk.injEq] at hp'
    obtain ⟨-, rfl, -⟩ := hp'
    refine (hle 1).2.2.trans (Real.sqrt_le_sqrt ?_)
    have : s n ^ 2 ≤ smax ^ 2 := sq_le_sq' (by linarith [(abs_le.1 hsn).1]) (abs_le.1 hsn).2
    linarith
  simp only [Matrix.cons_val_zero] at h2
  rw [← h2] at hn3
  simp only [ucb, pyAssert, List.length_ofFn, if_true, bind, Except.bind, pure, Except.pure,
    Except.ok.injEq, List.ofFn_succ, List.ofFn_zero, List.zipWith_cons_cons, List.zipWith_nil_left,
    List.cons.injEq, and_true] at hu1
  obtain ⟨rfl, rfl⟩ := hu1
  simp only [Fin.succ_zero_eq_one] at hu2
  set w := kappa * Real.log ((n : ℝ) + 1) with hw
  have hw1 : W ≤ w := by
    have a : Real.exp (W / kappa) ≤ (n : ℝ) + 1 := by
      have a1 := Nat.le_ceil (Real.exp (W / kappa))
      have a2 : (⌈Real.exp (W / kappa)⌉₊ : ℝ) ≤ n := by exact_mod_cast (le_max_right _ _).trans hn1
      linarith
    have b := (Real.le_log_iff_exp_le (by positivity)).2 a
    rw [div_le_iff₀ hk] at b
    rw [hw]
    linarith
  have hw0 : 0 < w := hW0.trans_le hw1
  have hw2 : w * θ ≤ min (2 * √(1 / 100000) * (η / 3)) ((η / (3 * (R + 1))) ^ 2) := by
    refine le_trans (mul_le_mul_of_nonneg_right (mul_le_mul_of_nonneg_left
      (Real.log_le_log (by positivity) ?_) hk.le) hθ.le) hθl
    have : (n : ℝ) ≤ n₁ + M := by exact_mod_cast hn2.le
    linarith
  have hstep := growing_step hw0 hD0 hj (hfloor 0) (hfloor 1) hceil hu2 e0 e1
  have t1 : R * √(sd 0 ^ 2 - 1 / 100000) ≤ η / 3 := by
    have a : √(sd 0 ^ 2 - 1 / 100000) ≤ η / (3 * (R + 1)) := by
      rw [Real.sqrt_le_left (by positivity)]
      linarith [hθε.trans (min_le_right _ _)]
    refine (mul_le_mul_of_nonneg_left a hR).trans ?_
    rw [mul_div_assoc', div_le_iff₀ (by positivity)]
    nlinarith
  have t2 : w * (sd 0 - √(1 / 100000)) ≤ η / 3 := by
    have a : (sd 0 - √(1 / 100000)) * (2 * √(1 / 100000)) ≤ θ := by
      have := mul_le_mul_of_nonneg_left
        (show 2 * √(1 / 100000) ≤ sd 0 + √(1 / 100000) by linarith [hfloor 0])
        (show 0 ≤ sd 0 - √(1 / 100000) by linarith [hfloor 0])
      nlinarith only [this, hjj, hn3]
    have b := (mul_le_mul_of_nonneg_left a hw0.le).trans (hw2.trans (min_le_left _ _))
    refine le_of_mul_le_mul_left (a := 2 * √(1 / 100000)) ?_ (by positivity)
    linarith
  have t3 : R ^ 2 * D / (2 * w) ≤ η / 3 := by
    rw [div_le_iff₀ (by positivity)]
    have a : 3 * R ^ 2 * D / (2 * η) ≤ w := by linarith
    rw [div_le_iff₀ (by positivity)] at a
    linarith
  linarith

/-- C140: the upper confidence bound with a weight that grows with the logarithm of the number of
responses, as it does by default, finds the best value of a bounded region, and loses nothing to the
jitter of the predicted deviations. From any number `n₀` of points on there is a number of points,
depending on `n₀`, the region, the kernel, the factor of the weight, the bound `R` for norm and
errors, and `η > 0` alone, among which, when every choice scores at most `δ` less than any point of
the region, one has a value at most `δ` and `η` above the values everywhere in the region. -/
theorem C140_growing {d : ℕ} {base : String} (hb : base ∈ baseNames) {h : HypDict} {σ s : ℝ}
    {l : Fin d → ℝ} (hd : Describes h σ s l) {C : Set (Point d)} (hC : Bornology.IsBounded C)
    {kappa : ℝ} (hk : 0 < kappa) {R : ℝ} (hR : 0 ≤ R) {η : ℝ} (hη : 0 < η) (n₀ : ℕ) :
    ∃ N : ℕ, ∀ (prior : Gp.PriorMu d) (m f : Point d → ℝ) (B δ : ℝ) (x : ℕ → Point d) (Y : ℕ → ℝ),
      PriorFunction prior m → NormAtMost base s l B (fun z => f z - m z) →
      (∀ n, n₀ ≤ n → n < N → x n ∈ C ∧
        ChosenBy (fun mu sd Y => ucb mu sd (some Y) kappa) C x Y h base prior δ n ∧
        B ^ 2 + (∑ j : Fin n, (Y j - f (x j)) ^ 2) / (σ ^ 2 + 1 / 100000) ≤ R ^ 2) →
      ∃ n, n₀ ≤ n ∧ n < N ∧ ∀ z ∈ C, f (x n) ≤ f z + δ + η := by
  obtain ⟨lmin, hl0, hl⟩ : ∃ lmin : ℝ, 0 < lmin ∧ ∀ k, lmin ≤ |l k| := by
    rcases isEmpty_or_nonempty (Fin d) with he | he
    · exact ⟨1, one_pos, fun k => he.elim k⟩
    · obtain ⟨k₀, hk₀⟩ := Finite.exists_min fun k => |l k|
      exact ⟨|l k₀|, abs_pos.2 (hd.nonzero k₀), hk₀⟩
  obtain ⟨N, hN⟩ := C142_refit hb hC hk hR (σmax := |σ|) (smax := |s|) hl0 hη n₀
  refine ⟨N, fun prior m f B δ x Y hm hf hx => ?_⟩
  exact hN (fun _ => h) (fun _ => σ) (fun _ => s) (fun _ => l) (fun _ => prior) (fun _ => m)
    (fun _ => f) Set.univ (fun _ => B) δ x (fun _ => Y) (Set.subset_univ _) (fun _ => trivial)
    fun n h1 h2 => ⟨hd, le_rfl, le_rfl, hl, hm, ⟨hf.1, fun n z _ => hf.2 n z⟩, (hx n h1 h2).2.2,
      (hx n h1 h2).1, (hx n h1 h2).2.1⟩

/-- C140: with the default arguments and exact responses, the best response tends to the best value
of the region. -/
theorem C140_default {d : ℕ} {base : String} (hb : base ∈ baseNames) {h : HypDict} {σ s : ℝ}
    {l : Fin d → ℝ} (hd : Describes h σ s l) {C : Set (Point d)} (hC : Bornology.IsBounded C)
    {R : ℝ} (hR : 0 ≤ R) {η : ℝ} (hη : 0 < η) (n₀ : ℕ) :
    ∃ N : ℕ, ∀ (prior : Gp.PriorMu d) (m f : Point d → ℝ) (x : ℕ → Point d),
      PriorFunction prior m → NormAtMost base s l R (fun z => f z - m z) →
      (∀ n, n₀ ≤ n → n < N → x n ∈ C ∧
        ChosenBy (fun mu sd Y => ucb mu sd (some Y)) C x (fun i => f (x i)) h base prior 0 n) →
      ∀ T ≥ N, ∀ b, IsLeast (Set.range fun i : Fin T => f (x i)) b → ∀ z ∈ C, b ≤ f z + η := by
  obtain ⟨N, hN⟩ := C140_growing hb hd hC two_pos hR hη n₀
  refine ⟨N, fun prior m f x hm hf hx T hT b hb' z hz => ?_⟩
  obtain ⟨n, -, hn, hle⟩ := hN prior m f R 0 x (fun i => f (x i)) hm hf fun n h1 h2 =>
    ⟨(hx n h1 h2).1, (hx n h1 h2).2, by simp⟩
  have h1 := hle z hz
  have h2 := hb'.2 ⟨⟨n, hn.trans_le hT⟩, rfl⟩
  simp only at h2
  linarith

/-- C140: and choices that good are made again and again. -/
theorem C140_again {d : ℕ} {base : String} (hb : base ∈ baseNames) {h : HypDict} {σ s : ℝ}
    {l : Fin d → ℝ} (hd : Describes h σ s l) {C : Set (Point d)} (hC : Bornology.IsBounded C)
    {kappa : ℝ} (hk : 0 < kappa) {prior : Gp.PriorMu d} {m f : Point d → ℝ} {B R δ : ℝ}
    {x : ℕ → Point d} {Y : ℕ → ℝ} (hm : PriorFunction prior m)
    (hf : NormAtMost base s l B (fun z => f z - m z))
    (hR : ∀ n, B ^ 2 + (∑ j : Fin n, (Y j - f (x j)) ^ 2) / (σ ^ 2 + 1 / 100000) ≤ R ^ 2) {n₀ : ℕ}
    (hx : ∀ n, n₀ ≤ n → x n ∈ C ∧
      ChosenBy (fun mu sd Y => ucb mu sd (some Y) kappa) C x Y h base prior δ n)
    {η : ℝ} (hη : 0 < η) : {n | ∀ z ∈ C, f (x n) ≤ f z + δ + η}.Infinite := by
  refine Set.infinite_of_not_bddAbove fun ⟨u, hu⟩ => ?_
  obtain ⟨N, hN⟩ := C140_growing hb hd hC hk (abs_nonneg R) hη (max n₀ (u + 1))
  obtain ⟨n, h1, -, h2⟩ := hN prior m f B δ x Y hm hf fun n h1 _ =>
    ⟨(hx n ((le_max_left _ _).trans h1)).1, (hx n ((le_max_left _ _).trans h1)).2, by
      rw [sq_abs]
      exact hR n⟩
  have := hu h2
  omega

/-- C142: with exact responses that are normalised before every choice. The values of the function on
the set differ by at most `spread`, and its normalised images have bounded norms there. -/
theorem C142_normalized {d : ℕ} {base : String} (hb : base ∈ baseNames) {C : Set (Point d)}
    (hC : Bornology.IsBounded C) {kappa : ℝ} (hk : 0 < kappa) {R : ℝ} (hR : 0 ≤ R)
    {σmax smax lmin : ℝ} (hl : 0 < lmin) {spread : ℝ} {η : ℝ} (hη : 0 < η) (n₀ : ℕ) :
    ∃ N : ℕ, ∀ (h : ℕ → HypDict) (σ s : ℕ → ℝ) (l : ℕ → Fin d → ℝ) (prior : ℕ → Gp.PriorMu d)
      (m : ℕ → Point d → ℝ) (f : Point d → ℝ) (D : Set (Point d)) (x : ℕ → Point d)
      (Y : ℕ → ℕ → ℝ), C ⊆ D → (∀ n, x n ∈ D) → (∀ u ∈ D, ∀ v ∈ D, |f u - f v| ≤ spread) →
      (∀ n, n₀ ≤ n → n < N → Describes (h n) (σ n) (s n) (l n) ∧
        |σ n| ≤ σmax ∧ |s n| ≤ smax ∧ (∀ k, lmin ≤ |l n k|) ∧ PriorFunction (prior n) (m n) ∧
        (∃ lo hi, IsLeast (Set.range fun i : Fin n => f (x i)) lo ∧
          IsGreatest (Set.range fun i : Fin n => f (x i)) hi ∧
          NormAtMostOn D base (s n) (l n) R (fun z => minMaxImage lo hi (f z) - m n z)) ∧
        UtilsBo.normalizeMinMax (List.ofFn fun i : Fin n => f (x i)) =
          .ok (List.ofFn fun i : Fin n => Y n i) ∧ x n ∈ C ∧
        ChosenBy (fun mu sd Y => ucb mu sd (some Y) kappa) C x (Y n) (h n) base (prior n) 0 n) →
      ∃ n, n₀ ≤ n ∧ n < N ∧ ∀ z ∈ C, f (x n) ≤ f z + η := by
  have hsp : 0 < max 1 (spread / 10) := lt_max_of_lt_left one_pos
  obtain ⟨N, hN⟩ := C142_refit hb hC hk hR (σmax := σmax) (smax := smax) hl
    (η := η / max 1 (spread / 10)) (by positivity) n₀
  refine ⟨N, fun h σ s l prior m f D x Y hCD hxD hspread hx => ?_⟩
  have hlohi : ∀ n, ∃ p : ℝ × ℝ, n₀ ≤ n → n < N →
      IsLeast (Set.range fun i : Fin n => f (x i)) p.1 ∧
      IsGreatest (Set.range fun i : Fin n => f (x i)) p.2 ∧
      NormAtMostOn D base (s n) (l n) R (fun z => minMaxImage p.1 p.2 (f z) - m n z) := by
    intro n
    by_cases hn : n₀ ≤ n ∧ n < N
    · obtain ⟨-, -, -, -, -, ⟨lo, hi, h1, h2, h3⟩, -⟩ := hx n hn.1 hn.2
      exact ⟨(lo, hi), fun _ _ => ⟨h1, h2, h3⟩⟩
    · exact ⟨(0, 0), fun a b => absurd ⟨a, b⟩ hn⟩
  choose p hp using hlohi
  obtain ⟨n, hn1, hn2, hle⟩ := hN h σ s l prior m (fun n z => minMaxImage (p n).1 (p n).2 (f z)) D
    (fun _ => R) 0 x Y hCD hxD fun n h1 h2 => by
      obtain ⟨a1, a2, a3, a4, a5, -, a7, a8, a9⟩ := hx n h1 h2
      obtain ⟨b1, b2, b3⟩ := hp n h1 h2
      refine ⟨a1, a2, a3, a4, a5, b3, ?_, a8, a9⟩
      have hY : ∀ i : Fin n, Y n i = minMaxImage (p n).1 (p n).2 (f (x i)) := by
        have hmin := (npMin_ok (l := List.ofFn fun i : Fin n => f (x i)) (m := (p n).1)).2
          ⟨by simpa [List.mem_ofFn] using b1.1, fun y hy => b1.2 (by simpa [List.mem_ofFn] using hy)⟩
        have hmax := (npMax_ok (l := List.ofFn fun i : Fin n => f (x i)) (m := (p n).2)).2
          ⟨by simpa [List.mem_ofFn] using b2.1, fun y hy => b2.2 (by simpa [List.mem_ofFn] using hy)⟩
        simp only [UtilsBo.normalizeMinMax, hmin, hmax, bind, Except.bind, pure, Except.pure] at a7
        intro i
        unfold minMaxImage
        by_cases hc : (p n).2 = (p n).1
        · rw [if_neg (not_not.2 hc)] at a7
          rw [if_pos hc]
          exact (congrFun (List.ofFn_injective (Except.ok.inj a7)) i).symm
        · rw [if_pos hc, List.map_ofFn] at a7
          rw [if_neg hc, ← congrFun (List.ofFn_injective (Except.ok.inj a7)) i]
          simp only [Function.comp, MULTIPLIER_RESPONSE]
          ring
      have hz : ∑ j : Fin n, (Y n j - minMaxImage (p n).1 (p n).2 (f (x j))) ^ 2 = 0 :=
        Finset.sum_eq_zero fun j _ => by rw [hY j, sub_self, zero_pow two_ne_zero]
      rw [hz, zero_div, add_zero]
  refine ⟨n, hn1, hn2, fun z hz => ?_⟩
  have h1 := hle z hz
  obtain ⟨b1, b2, -⟩ := hp n hn1 hn2
  have hηs : η / max 1 (spread / 10) * max 1 (spread / 10) = η := div_mul_cancel₀ _ hsp.ne'
  have hη1 : 0 < η / max 1 (spread / 10) := by positivity
  simp only [minMaxImage, add_zero] at h1
  split_ifs at h1 with hc
  · have := mul_le_mul_of_nonneg_left (le_max_left 1 (spread / 10)) hη1.le
    linarith
  · have hlt : 0 < (p n).2 - (p n).1 := by
      obtain ⟨i, hi⟩ := b1.1
      have := b2.2 ⟨i, rfl⟩
      simp only [hi] at this
      rcases this.lt_or_eq with h | h
      · linarith
      · exact absurd h.symm hc
    have hw : (p n).2 - (p n).1 ≤ spread := by
      obtain ⟨i, hi⟩ := b1.1
      obtain ⟨j, hj⟩ := b2.1
      rw [← hi, ← hj]
      exact (le_abs_self _).trans (hspread _ (hxD j) _ (hxD i))
    rw [div_add' _ _ _ hlt.ne', div_le_div_iff_of_pos_right hlt] at h1
    have h2 : ((p n).2 - (p n).1) / 10 ≤ max 1 (spread / 10) :=
      le_trans (by linarith) (le_max_right _ _)
    have h3 := mul_le_mul_of_nonneg_left h2 hη1.le
    linarith

/-- C142: hyperparameters within the ranges that the package passes to the bounded optimisers keep
to the bounds of C142, with 10 for the noise, 1000 for the signal and 1/100 for the lengthscales. -/
theorem C142_range {d : ℕ} {name : String} (hn : name ∈ ALLOWED_COV) (ard fix : Bool)
    {r : List (ℝ × ℝ)} (hr : UtilsCovariance.getRangeHyps name d true ard fix = .ok r) {v : List ℝ}
    (hv : Within r v) :
    ∃ (h : HypDict) (σ s : ℝ) (l : Fin d → ℝ),
      UtilsCovariance.restoreHyps name (v.map .fin) true ard fix = .ok h ∧
      (UtilsCovariance.validateHypsDict h name d).2 = .ok h ∧ Describes h σ s l ∧
      |σ| ≤ 10 ∧ |s| ≤ 1000 ∧ ∀ k, 1 / 100 ≤ |l k| := by
  have hcov' : name ∈ UtilsCovariance.getListFirst := Props.listFirst_eq ▸ hn
  obtain ⟨r', h1, h2, h3, -⟩ := ranges_positive (d := d) hn true ard fix
  obtain rfl : r' = r := Except.ok.inj (h1.symm.trans hr)
  have hfold : ∀ (L : List (ℝ × ℝ)) (k : ℕ), (List.range k).foldl
      (fun acc _ => acc ++ RANGE_LENGTHSCALES) L = L ++ List.replicate k (1e-2, 1e3) := by
    intro L k
    induction k with
    | zero => simp
    | succ k ih =>
      rw [List.range_succ, List.foldl_append, ih, List.replicate_succ']
      simp [RANGE_LENGTHSCALES]
  have hrow : r' = (if fix then [] else [(1e-3, 1e1)]) ++ [(1e-2, 1e3)] ++
      List.replicate (if ard then d else 1) ((1e-2, 1e3) : ℝ × ℝ) := by
    have := hr
    cases ard <;> cases fix <;>
      simp only [UtilsCovariance.getRangeHyps, pyAssert, hn, hcov', bind, Except.bind, pure,
        Except.pure, if_true, Bool.not_true, Bool.not_false, Bool.false_eq_true, if_false, hfold,
        RANGE_NOISE, RANGE_SIGNAL] at this <;>
      simp [← Except.ok.inj this, RANGE_LENGTHSCALES]
  have hlen : v.length = vectorLength true ard fix d := by
    rw [← h2]
    exact (List.Forall₂.length_eq hv).symm
  have hat : ∀ (i : ℕ) (p : ℝ × ℝ), r'[i]? = some p → ∃ hi : i < v.length, p.1 ≤ v[i] ∧ v[i] ≤ p.2 := by
    intro i p hp
    obtain ⟨hi, rfl⟩ := List.getElem?_eq_some_iff.1 hp
    have hi' : i < v.length := by rw [hlen, ← h2]; exact hi
    exact ⟨hi', (List.forall₂_iff_get.1 hv).2 i hi hi'⟩
  obtain ⟨w, hw⟩ : ∃ w : ℕ → ℝ, ∀ i (hi : i < v.length), w i = v[i] :=
    ⟨fun i => if hi : i < v.length then v[i] else 0, fun i hi => by simp [hi]⟩
  have hvw : v = (List.range (vectorLength true ard fix d)).map w := by
    rw [← hlen]
    exact List.ext_getElem (by simp) fun i h _ => by simp [hw i h]
  have hne : ∀ k < vectorLength true ard fix d, w k ≠ 0 := by
    intro k hk
    have hk' : k < r'.length := by rw [h2]; exact hk
    obtain ⟨hi, h5, -⟩ := hat k r'[k] (List.getElem?_eq_getElem hk')
    rw [hw k hi]
    exact ((h3 _ (List.getElem_mem hk')).1.trans_le h5).ne'
  have hres : UtilsCovariance.restoreHyps name (v.map .fin) true ard fix =
      .ok (vecDict d true ard fix w) := by
    rw [hvw]
    exact restore_range hn true ard fix w
  refine ⟨_, _, _, _, hres, ?_, vecDict_describes hne, ?_, ?_, ?_⟩
  · cases ard <;> simp [UtilsCovariance.validateHypsDict, hn, UtilsCovariance.validateNoise, vecDict,
      UtilsCovariance.validateDof, UtilsCovariance.validLengthscales, UtilsCovariance.validSignal,
      BOUND_UPPER_GP_NOISE, UtilsCovariance.absF]
  · cases hfix : fix
    · obtain ⟨hi, h5, h6⟩ := hat 0 (1e-3, 1e1) (by rw [hrow]; cases ard <;> simp [hfix])
      rw [show vecNoise false w = v[0] by simp [vecNoise, hw 0 hi], abs_le]
      norm_num at h5 h6 ⊢
      constructor <;> linarith
    · norm_num [vecNoise, GP_NOISE, abs_le]
  · obtain ⟨hi, h5, h6⟩ := hat (signalPlace true fix) (1e-2, 1e3) (by
      rw [hrow]; cases ard <;> cases fix <;> simp [signalPlace])
    rw [hw _ hi, abs_le]
    norm_num at h5 h6 ⊢
    constructor <;> linarith
  · intro k
    obtain ⟨hi, h5, h6⟩ := hat (if ard then signalPlace true fix + 1 + k else signalPlace true fix + 1)
      (1e-2, 1e3) (by
        rw [hrow]
        have := k.2
        cases ard <;> cases fix <;> simp [signalPlace, List.getElem?_cons, List.getElem?_append,
          List.getElem?_replicate] <;> omega)
    rw [show vecScale true ard fix w k = v[_] from hw _ hi]
    norm_num at h5 h6 ⊢
    exact h5.trans (le_abs_self _)

/-- A kernel function and endless choices among three points by `ucb` with its default arguments. -/
example : ∃ (h : HypDict) (C : Set (Point 1)) (f : Point 1 → ℝ) (x : ℕ → Point 1),
    Describes h GP_NOISE 2 (fun _ : Fin 1 => 3) ∧ Bornology.IsBounded C ∧
    (∀ j : Fin 3, (fun _ => (j : ℝ)) ∈ C) ∧ PriorFunction (none : Gp.PriorMu 1) (fun _ => 0) ∧
    NormAtMost "matern32" 2 (fun _ : Fin 1 => 3) 2 (fun z => f z - 0) ∧ f (fun _ => 0) = 4 ∧
    (∀ n, 1 ≤ n → x n ∈ C ∧
      ChosenBy (fun mu sd Y => ucb mu sd (some Y)) C x (fun i => f (x i)) h "matern32" none 0 n) := by
  have hb : "matern32" ∈ baseNames := by simp [baseNames]
  have hd : Describes ⟨some (.flt (.fin GP_NOISE)), none, some (.flt (.fin 2)), some (.arr [.fin 3])⟩
      GP_NOISE 2 (fun _ : Fin 1 => 3) := ⟨rfl, rfl, .inl rfl, by intro; norm_num⟩
  let f : Point 1 → ℝ := fun z => kernel "matern32" 2 (fun _ => 3) (fun _ => 0) z
  have hC := Set.finite_range fun j : Fin 3 => fun _ : Fin 1 => (j : ℝ)
  have hne := Set.range_nonempty fun j : Fin 3 => fun _ : Fin 1 => (j : ℝ)
  obtain ⟨x, -, hx⟩ := exists_chosen (base := "matern32") hb hd hC hne
    (acq := fun mu sd Y => ucb mu sd (some Y))
    (g := fun Y m t => -m + 2 * Real.log ((Y.length : ℝ) + 1) * t)
    (fun _ _ _ _ _ _ _ _ => rfl) f (fun _ => 5)
  refine ⟨_, _, f, x, hd, hC.isBounded, fun j => ⟨j, rfl⟩, fun n X => rfl, ?_, ?_, hx⟩
  · have := normAtMost_expansion (base := "matern32") (s := 2) (l := fun _ : Fin 1 => 3) (k := 1)
      (fun _ _ => 0) fun _ => 1
    have e : kernel "matern32" 2 (fun _ : Fin 1 => 3) (fun _ => 0) (fun _ => 0) = 2 * 2 := by
      norm_num [kernel, scaledDistance, profile, m32Profile]
    simpa [f, e] using this
  · norm_num [f, kernel, scaledDistance, profile, m32Profile]

/-- Two points, hyperparameters that alternate, and endless choices by `ucb` with its default
arguments from responses normalised anew: the hypotheses of C142 hold for every number of choices. -/
example : ∃ (a b : Point 1) (f : Point 1 → ℝ) (h : ℕ → HypDict) (σ s : ℕ → ℝ)
    (l : ℕ → Fin 1 → ℝ) (x : ℕ → Point 1) (Y : ℕ → ℕ → ℝ), f b < f a ∧ x 0 = a ∧ h 1 ≠ h 2 ∧
    (∀ n, x n ∈ ({a, b} : Set (Point 1))) ∧
    (∀ u ∈ ({a, b} : Set (Point 1)), ∀ v ∈ ({a, b} : Set (Point 1)), |f u - f v| ≤ 6) ∧
    ∀ n, 1 ≤ n → Describes (h n) (σ n) (s n) (l n) ∧
      |σ n| ≤ 1 ∧ |s n| ≤ 2 ∧ (∀ k, 2 ≤ |l n k|) ∧ PriorFunction (none : Gp.PriorMu 1) (fun _ => 0) ∧
      (∃ lo hi, IsLeast (Set.range fun i : Fin n => f (x i)) lo ∧
        IsGreatest (Set.range fun i : Fin n => f (x i)) hi ∧
        NormAtMostOn {a, b} "se" (s n) (l n) 15 (fun z => minMaxImage lo hi (f z) - 0)) ∧
      UtilsBo.normalizeMinMax (List.ofFn fun i : Fin n => f (x i)) =
        .ok (List.ofFn fun i : Fin n => Y n i) ∧ x n ∈ ({a, b} : Set (Point 1)) ∧
      ChosenBy (fun mu sd Y => ucb mu sd (some Y) 2) {a, b} x (Y n) (h n) "se" none 0 n := by
  classical
  have hb : "se" ∈ baseNames := by simp [baseNames]
  let a : Point 1 := fun _ => 0
  let b : Point 1 := fun _ => 6
  have hab : a ≠ b := fun h => by have := congrFun h 0; norm_num [a, b] at this
  let f : Point 1 → ℝ := fun z => 5 - z 0
  let s : ℕ → ℝ := fun n => if Even n then 1 else 2
  let σ : ℕ → ℝ := fun n => if Even n then 1 / 100 else 1 / 10
  let l : ℕ → Fin 1 → ℝ := fun n _ => if Even n then 2 else 3
  let h : ℕ → HypDict := fun n => ⟨some (.flt (.fin (σ n))), none, some (.flt (.fin (s n))),
    some (.arr [.fin (l n 0)])⟩
  have hd : ∀ n, Describes (h n) (σ n) (s n) (l n) := fun n =>
    ⟨rfl, rfl, .inl rfl, by intro k; simp only [l]; split_ifs <;> norm_num⟩
  -- the normalised responses
  have hT : ∀ (n : ℕ) (p : Fin n → Point 1), ∃ t : Fin n → ℝ, 1 ≤ n →
      UtilsBo.normalizeMinMax (List.ofFn fun i : Fin n => f (p i)) = .ok (List.ofFn t) := by
    intro n p
    rcases Nat.eq_zero_or_pos n with rfl | hn
    · exact ⟨0, fun h => absurd h (by norm_num)⟩
    · obtain ⟨mx, h1⟩ := npMax_exists (l := List.ofFn fun i : Fin n => f (p i)) (by simp; omega)
      obtain ⟨mn, h2⟩ := npMin_exists (l := List.ofFn fun i : Fin n => f (p i)) (by simp; omega)
      by_cases hz : mx = mn
      · exact ⟨fun i => f (p i), fun _ => by
          simp [UtilsBo.normalizeMinMax, h1, h2, bind, Except.bind, pure, Except.pure, hz]⟩
      · exact ⟨fun i => (f (p i) - mn) / (mx - mn) * MULTIPLIER_RESPONSE, fun _ => by
          simp [UtilsBo.normalizeMinMax, h1, h2, bind, Except.bind, pure, Except.pure, hz]
          rfl⟩
  choose T hT using hT
  obtain ⟨x, hx0, hx⟩ := exists_chosen_seq hb hd (Set.toFinite {a, b}) ⟨a, by simp⟩
    (acq := fun mu sd Y => ucb mu sd (some Y) 2)
    (g := fun Y m t => -m + 2 * Real.log ((Y.length : ℝ) + 1) * t)
    (fun _ _ _ _ _ _ _ _ => rfl) T a
  have hxC : ∀ n, x n ∈ ({a, b} : Set (Point 1)) := fun n => by
    rcases Nat.eq_zero_or_pos n with rfl | hn
    · rw [hx0]
      simp
    · exact (hx n hn).1
  have hfa : f a = 5 := by norm_num [f, a]
  have hfb : f b = -1 := by norm_num [f, b]
  have hk : ∀ n, kernel "se" (s n) (l n) a b = s n ^ 2 * Real.exp (-(18 / l n 0 ^ 2)) := by
    intro n
    have h1 : ¬ ("se" : String) = "matern32" := by decide
    have h2 : ¬ ("se" : String) = "matern52" := by decide
    have h3 : scaledDistance (l n) a b ^ 2 = 36 / l n 0 ^ 2 := by
      rw [scaledDistance, Real.sq_sqrt (by positivity)]
      simp only [Finset.univ_unique, Finset.sum_singleton, Fin.default_eq_zero, Fin.isValue, a, b]
      ring
    simp only [kernel, profile, h1, h2, if_false, seProfile]
    rw [show scaledDistance (l n) a b ^ 2 / 2 = 18 / l n 0 ^ 2 by rw [h3]; ring]
  have hexp : ∀ n, Real.exp (-(18 / l n 0 ^ 2)) ≤ 1 / 3 := by
    intro n
    have h1 : 2 ≤ 18 / l n 0 ^ 2 := by
      simp only [l]
      split_ifs <;> norm_num
    rw [Real.exp_neg, inv_eq_one_div]
    refine one_div_le_one_div_of_le (by norm_num) ?_
    linarith [Real.add_one_le_exp (18 / l n 0 ^ 2)]
  refine ⟨a, b, f, h, σ, s, l, x, fun n i => if hi : i < n then T n (fun i => x i) ⟨i, hi⟩ else 0, by
    rw [hfa, hfb]; norm_num, hx0, ?_, hxC, ?_, fun n hn => ⟨hd n, ?_, ?_, ?_, fun n X => rfl, ?_, ?_,
      hxC n, (hx n hn).2 _ fun i => by simp⟩⟩
  · intro he
    have := congrArg HypDict.noise he
    norm_num [h, σ] at this
  · intro u hu v hv
    rcases hu with rfl | hu <;> rcases hv with rfl | hv
    · norm_num
    · obtain rfl : v = b := hv
      rw [hfa, hfb]; norm_num
    · obtain rfl : u = b := hu
      rw [hfa, hfb]; norm_num
    · obtain rfl : u = b := hu
      obtain rfl : v = b := hv
      norm_num
  · simp only [σ]
    split_ifs <;> norm_num
  · simp only [s]
    split_ifs <;> norm_num
  · intro k
    simp only [l]
    split_ifs <;> norm_num
  · have hne : (Set.range fun i : Fin n => f (x i)).Nonempty := ⟨_, ⟨0, hn⟩, rfl⟩
    have hfin := Set.finite_range fun i : Fin n => f (x i)
    refine ⟨_, _, hfin.isCompact.isLeast_sInf hne, hfin.isCompact.isGreatest_sSup hne, ?_⟩
    have hlo := (hfin.isCompact.isLeast_sInf hne).1
    have hhi := (hfin.isCompact.isGreatest_sSup hne).1
    have hle : sInf (Set.range fun i : Fin n => f (x i)) ≤ sSup (Set.range fun i : Fin n => f (x i)) :=
      (hfin.isCompact.isGreatest_sSup hne).2 hlo
    generalize sInf (Set.range fun i : Fin n => f (x i)) = lo at *
    generalize sSup (Set.range fun i : Fin n => f (x i)) = hi at *
    have hval : ∀ t ∈ Set.range fun i : Fin n => f (x i), t = 5 ∨ t = -1 := by
      rintro _ ⟨i, rfl⟩
      rcases hxC i with h | h
      · left
        simp only [h, hfa]
      · right
        have h : x i = b := h
        simp only [h, hfb]
    have hs1 : 1 ≤ s n ^ 2 := by
      simp only [s]
      split_ifs <;> norm_num
    have h2 := mul_le_mul_of_nonneg_left (hexp n) (show 0 ≤ s n ^ 2 by linarith)
    refine normAtMostOn_pair hab (hk n) (mul_nonneg (by linarith) (Real.exp_pos _).le) (by linarith)
      (by norm_num) ?_
    simp only [hfa, hfb, sub_zero, minMaxImage]
    rcases hval lo hlo with rfl | rfl <;> rcases hval hi hhi with rfl | rfl
    · norm_num
      linarith
    · norm_num at hle
    · norm_num
      linarith
    · norm_num
      linarith
  · rw [hT n (fun i => x i) hn]
    congr 2
    funext i
    simp

/-- A vector within the ranges of two dimensions: noise, signal and two lengthscales. -/
example : ∃ r, UtilsCovariance.getRangeHyps "matern52" 2 true true false = .ok r ∧
    Within r [1 / 2, 20, 3, 700] := by
  refine ⟨_, rfl, ?_⟩
  norm_num [Within, RANGE_NOISE, RANGE_SIGNAL, RANGE_LENGTHSCALES, List.range_succ]

end Verif.Props
