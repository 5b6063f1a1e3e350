import Verif.Lemmas.RoundedChoice

/-! # C157: choices in double precision -/

namespace Verif.Props

open Verif.Spec Verif.Covariance Verif.UtilsCovariance Verif.Lemmas Verif.Rounded Verif.RoundedPredict
  Verif.Acquisition
  Verif.Constants Verif.BoCommon Verif.BoWGp Verif.UtilsBo

section

variable {fl ex cdf pdf lg : ℝ → ℝ} {n d : ℕ} {o : SumOrder} {mm : MatMul} {name : String} {h : HypDict}
  {σ s : ℝ} {l : Fin d → ℝ}

/-- At every candidate, `mean` and `dev` are the exact prediction, and the computed one is within `em` and
`es` of it. -/
def PredictsWithin (fl ex : ℝ → ℝ) (o : SumOrder) (mm : MatMul) (X : Fin n → Point d) (Y : Fin n → ℝ)
    (K V : Matrix (Fin n) (Fin n) ℝ) (h : HypDict) (name : String) (prior : Gp.PriorMu d)
    (ps : List (Point d)) (mean dev : Point d → ℝ) (em es : ℝ) : Prop :=
  ∀ x ∈ ps, ∃ S mu' sd' S',
    Gp.predictWithHyps (.vec X) Y (.vec fun _ : Fin 1 => x) h name prior =
      .ok (fun _ => mean x, fun _ => dev x, S) ∧
    RoundedPredict.predictWithCov fl ex o mm X Y (fun _ : Fin 1 => x) K V h name prior =
      .ok (mu', sd', S') ∧ |mu' 0 - mean x| ≤ em ∧ |sd' 0 - dev x| ≤ es

/-- C157: with a kernel matrix and an inverse as in C129, predictions at candidates are computed with errors
that do not depend on the candidate, and exact deviations and means have known size. -/
theorem C157_predictions {η R : ℝ} (hf : Nearest fl) (hex : ExpWithin η ex) (hη : 0 ≤ η)
    (hη1 : η ≤ 1 / 2) (ho : o.Covers d) (hd : d ≤ 2 ^ 20) (hn : name ∈ baseNames)
    (hh : Describes h σ s l) {X : Fin n → Point d} {ps : List (Point d)}
    (hX : ∀ i, scaledLength l (X i) ≤ R) (hps : ∀ x ∈ ps, scaledLength l x ≤ R)
    (hR : (d + 1) * R ≤ 2 ^ 39) {γ t : ℝ} (hγ : 0 ≤ γ) (hγ1 : γ ≤ 1) (ht : 0 ≤ t)
    (hmm : MultipliesWithin n γ t mm) {prior : Gp.PriorMu d} {p : Point d → ℝ}
    (hp : PriorFunction prior p) (hpd : ∀ x, p x ∈ Double) {P : ℝ} (hP : ∀ x ∈ ps, |p x| ≤ P)
    {Y : Fin n → ℝ} (hY : ∀ i, Y i ∈ Double) {K V : Matrix (Fin n) (Fin n) ℝ}
    (hK : RoundedKernels.kernelMatrix fl ex o X h name = .ok K) (hVd : ∀ i j, V i j ∈ Double) {θ : ℝ}
    (hθ0 : 0 ≤ θ) (hθ : ∀ i j, |V i j - K⁻¹ i j| ≤ θ) {E e u B κ ρ Q F G M W : ℝ} (hu : u = 1 / 2 ^ 53)
    (hE : E = s ^ 2 * (2 * η + (1 + (d + 1) * R) / 2 ^ 44) + (σ ^ 2 + 1) / 2 ^ 49)
    (he : e = s ^ 2 * (2 * η + (1 + (d + 1) * R) / 2 ^ 45) + (2 : ℝ) ^ (-1070 : ℤ))
    (hlt : n * E < σ ^ 2 + 1 / 100000)
    (hB : B = 1 / (σ ^ 2 + 1 / 100000 - n * E) + θ) (hκ : κ = s ^ 2 + e)
    (hρ : ρ = n * E / ((σ ^ 2 + 1 / 100000) * (σ ^ 2 + 1 / 100000 - n * E)) + n * θ)
    (hQ : Q = √n * √(∑ i, (Y i - p (X i)) ^ 2))
    (hF : F = Q * (s ^ 2 * ρ + n * B * (e + (6 * γ + u) * κ) + 4 * t) + t)
    (hG : G = s ^ 4 * n * ρ + n * κ * (n * B * (2 * e + 3 * γ * κ) + 2 * t) + t +
      (s ^ 2 * (2 * η + (1 + (d + 1) * R) / 2 ^ 44) + 1 / 2 ^ 49))
    (hM : M = s ^ 2 * Q / (σ ^ 2 + 1 / 100000) + P) (hW : W = √(s ^ 2 + 1 / 100000)) :
    ∃ mean dev, PredictsWithin fl ex o mm X Y K V h name prior ps mean dev ((1 + u) * F + u * M)
        ((1 + u) * √((1 + u) * G + u * W ^ 2) + u * W + (2 : ℝ) ^ (-1075 : ℤ)) ∧
      ∀ x ∈ ps, |mean x| ≤ M ∧ 0 < dev x ∧ dev x ≤ W := by
  have hu0 : 0 ≤ u := by rw [hu]; positivity
  have hW2 : W ^ 2 = s ^ 2 + 1 / 100000 := by
    rw [hW]
    exact Real.sq_sqrt (by positivity)
  have hex' := fun x : Point d => predict_point hn hh X Y x (hp _ X) (hp _ fun _ : Fin 1 => x)
  choose mean dev S hpred using hex'
  have hsize : ∀ x ∈ ps, |mean x| ≤ M ∧ 0 < dev x ∧ dev x ≤ W ∧ |S x 0 0| ≤ W ^ 2 := fun x hx => by
    obtain ⟨h1, -, h2, h3, h4⟩ := deviation_bounds hn hh (hp _ X) (hp _ _) (hpred x)
    refine ⟨?_, h1, hW ▸ h3, hW2 ▸ h2⟩
    have h5 := postMean_size name σ s l X x (Y - fun i => p (X i))
    have e1 : (Y - fun i => p (X i)) ⬝ᵥ (Y - fun i => p (X i)) = ∑ i, (Y i - p (X i)) ^ 2 := by
      simp [dotProduct, pow_two]
    have e2 : √n * s ^ 2 * (√(∑ i, (Y i - p (X i)) ^ 2) / (σ ^ 2 + 1 / 100000)) =
        s ^ 2 * Q / (σ ^ 2 + 1 / 100000) := by
      rw [hQ]
      ring
    rw [e1, e2] at h5
    rw [h4, hM]
    exact (abs_add_le _ _).trans (add_le_add h5 (hP x hx))
  refine ⟨mean, dev, fun x hx => ?_, fun x hx => ⟨(hsize x hx).1, (hsize x hx).2.1, (hsize x hx).2.2.1⟩⟩
  obtain ⟨mu, sd, S₀, mu', sd', S', h1, h2, h3, -, h4⟩ := C129_predictions hf hex hη hη1 ho hd hn hh hX
    (Xs := fun _ : Fin 1 => x) (fun _ => hps x hx) hR hγ hγ1 ht hmm (hp _ X) (hp _ _) (fun i => hpd _)
    (fun _ => hpd _) hY hK hVd hθ0 hθ hu hE he hlt hB hκ hρ hQ hF hG
  have hinj := Except.ok.inj (h1.symm.trans (hpred x))
  rw [Prod.mk.injEq, Prod.mk.injEq] at hinj
  obtain ⟨rfl, rfl, rfl⟩ := hinj
  obtain ⟨k1, -, k2, k3⟩ := hsize x hx
  refine ⟨S x, mu', sd', S', hpred x, h2, (h3 0).trans ?_, (h4 0).trans ?_⟩
  · exact add_le_add le_rfl (mul_le_mul_of_nonneg_left k1 hu0)
  · refine add_le_add (add_le_add (mul_le_mul_of_nonneg_left (Real.sqrt_le_sqrt ?_) (by linarith))
      (mul_le_mul_of_nonneg_left k2 hu0)) le_rfl
    exact add_le_add le_rfl (mul_le_mul_of_nonneg_left k3 hu0)

theorem isBest_ofFn {Y : Fin n → ℝ} {b : ℝ} (hb : ∃ i, Y i = b) (hb' : ∀ i, b ≤ Y i) :
    IsBest (List.ofFn Y) b := by
  constructor
  · obtain ⟨i, hi⟩ := hb
    exact (List.mem_ofFn' ..).2 ⟨i, hi⟩
  · intro y hy
    obtain ⟨i, rfl⟩ := (List.mem_ofFn' ..).1 hy
    exact hb' i

theorem doubles_ofFn {Y : Fin n → ℝ} (hY : ∀ i, Y i ∈ Double) : Doubles (List.ofFn Y) := fun y hy => by
  obtain ⟨i, rfl⟩ := (List.mem_ofFn' ..).1 hy
  exact hY i

variable {bo : BOwGP d} {X : Fin n → Point d} {Y : Fin n → ℝ} {K V : Matrix (Fin n) (Fin n) ℝ}
  {ps : List (Point d)} {mean dev : Point d → ℝ} {em es : ℝ}

/-- The value that the search for the next point sees at one point: minus ten times a number that is close to
the expected improvement under the exact posterior. -/
theorem ei_point {η D Δ b : ℝ} (hf : Nearest fl) (hη : 0 ≤ η) (hη1 : η ≤ 1 / 2) (hc : CdfWithin η cdf)
    (hd : PdfWithin η pdf) (hacq : bo.str_acq = "ei") (hh : Describes h σ s l) {x : Point d}
    (hpred : PredictsWithin fl ex o mm X Y K V h bo.str_cov bo.prior_mu [x] mean dev em es)
    (hdev : 0 < dev x) (hY : ∀ i, Y i ∈ Double) (hb : ∃ i, Y i = b) (hb' : ∀ i, b ≤ Y i)
    (hD : |b - mean x| + dev x ≤ D)
    (hΔ : Δ = 3 / 2 * em + es + ((η + 8 / 2 ^ 53) * (D + em + es) + (2 : ℝ) ^ (-1073 : ℤ))) :
    ∃ v, onePoint (RoundedChoice.negAcquisition fl ex cdf pdf lg o mm bo X Y (some (K, V, h))) x =
        .ok (.fin (-1 * fl (v * 10))) ∧
      |v - meanImprovement b (mean x) (dev x)| ≤ Δ + 1 / 200000 ∧ |v| ≤ D + Δ := by
  obtain ⟨j, hj⟩ : ∃ j, j = fl JITTER_ACQ := ⟨_, rfl⟩
  obtain ⟨hjd, hj0, -, hjb⟩ := jitter_double hf
  rw [← hj] at hjd hj0 hjb
  have hB := isBest_ofFn hb hb'
  have hYd := doubles_ofFn hY
  have hch : RoundedChoice.chooseFunAcquisition fl cdf pdf lg bo.str_acq (some σ) =
      .ok fun m s Y => RoundedAcquisition.ei fl cdf pdf m s Y j := by
    rw [hacq, hj]
    simp [RoundedChoice.chooseFunAcquisition, pyAssert, ALLOWED_BO_ACQ, bind, Except.bind, pure,
      Except.pure]
  obtain ⟨S, mu', sd', S', h1, h2, h3, h4⟩ := hpred x (List.mem_singleton_self x)
  obtain ⟨d1, d2, d3⟩ := roundedPredict_doubles hf h2 0
  have hw := hdev
  have hDx := hD
  have heq := ei_eq [mean x] [dev x] (List.ofFn Y) j b rfl hB (by
    intro s hs
    rw [List.mem_singleton.1 hs]
    linarith)
  obtain ⟨vals, k1, k2, k3⟩ := C131_ei_predictions hf hη hη1 hc hd [mean x] [dev x] [mu' 0] [sd' 0]
    (List.ofFn Y) _ j b em es (fun y hy => by rwa [List.mem_singleton.1 hy])
    (fun y hy => by rwa [List.mem_singleton.1 hy]) hYd hjd hj0.le rfl rfl rfl hB
    (fun y hy => by rw [List.mem_singleton.1 hy]; exact ⟨hw.le, by linarith⟩)
    (fun y hy => by rw [List.mem_singleton.1 hy]; exact ⟨d3, by linarith⟩)
    (fun i m m' a1 a2 => by
      rcases i with _ | i
      · cases a1
        cases a2
        exact h3
      · simp at a1)
    (fun i m m' a1 a2 => by
      rcases i with _ | i
      · cases a1
        cases a2
        exact h4
      · simp at a1) heq
  obtain ⟨v, rfl⟩ := List.length_eq_one_iff.1 k2
  have e1 := k3 0 (mean x) (dev x) _ v rfl rfl rfl rfl
  have e2 := (C80_ei [mean x] [dev x] (List.ofFn Y) _ j b rfl hB hj0.le (by
    intro s hs
    rwa [List.mem_singleton.1 hs]) heq (mean x) (dev x) _ ⟨0, rfl, rfl, rfl⟩).2
  have e3 := normCdf_nonneg ((b - mean x) / (dev x + j))
  have e4 := normCdf_le_one ((b - mean x) / (dev x + j))
  have e5 := normPdf_le ((b - mean x) / (dev x + j))
  have e6 := normPdf_pos ((b - mean x) / (dev x + j))
  beta_reduce at e1 e2
  generalize Acquisition.normCdf ((b - mean x) / (dev x + j)) = c at *
  generalize Acquisition.normPdf ((b - mean x) / (dev x + j)) = q at *
  have hη2 : 0 ≤ η + 8 / 2 ^ 53 := by positivity
  have e7 : |v - ((b - mean x) * c + dev x * q)| ≤ Δ := by
    rw [hΔ]
    refine e1.trans (add_le_add le_rfl (add_le_add (mul_le_mul_of_nonneg_left ?_ hη2) le_rfl))
    linarith
  refine ⟨v, objective_at hh h2 hch k1, ?_, ?_⟩
  · refine (abs_sub_le _ ((b - mean x) * c + dev x * q) _).trans (add_le_add e7 (e2.trans hjb))
  · have e8 : |(b - mean x) * c + dev x * q| ≤ D := by
      refine (abs_add_le _ _).trans (le_trans (add_le_add ?_ ?_) hDx)
      · rw [abs_mul, abs_of_nonneg e3]
        exact mul_le_of_le_one_right (abs_nonneg _) e4
      · rw [abs_mul, abs_of_pos hw, abs_of_pos e6]
        exact mul_le_of_le_one_right hw.le (by linarith)
    have e9 := abs_sub_abs_le_abs_sub v ((b - mean x) * c + dev x * q)
    linarith

/-- C157: the candidate chosen by the expected improvement, all of it computed in double precision, has an
expected improvement under the exact posterior that is close to the largest among candidates. -/
theorem C157_ei {η D Δ b : ℝ} (hf : Nearest fl) (hη : 0 ≤ η) (hη1 : η ≤ 1 / 2) (hc : CdfWithin η cdf)
    (hd : PdfWithin η pdf) (hacq : bo.str_acq = "ei") (hh : Describes h σ s l)
    (hpred : PredictsWithin fl ex o mm X Y K V h bo.str_cov bo.prior_mu ps mean dev em es)
    (hdev : ∀ x ∈ ps, 0 < dev x) (hY : ∀ i, Y i ∈ Double) (hb : ∃ i, Y i = b) (hb' : ∀ i, b ≤ Y i)
    (hps : ps ≠ []) (hD : ∀ x ∈ ps, |b - mean x| + dev x ≤ D)
    (hΔ : Δ = 3 / 2 * em + es + ((η + 8 / 2 ^ 53) * (D + em + es) + (2 : ℝ) ^ (-1073 : ℤ))) :
    ∃ x, getBestAcquisitionByEvaluation ps
        (onePoint (RoundedChoice.negAcquisition fl ex cdf pdf lg o mm bo X Y (some (K, V, h)))) = .ok [x] ∧
      NearBest (fun x => meanImprovement b (mean x) (dev x)) ps
        (2 * (Δ + 1 / 200000) + 2 / 2 ^ 53 * (D + Δ) + (2 : ℝ) ^ (-1075 : ℤ)) x := by
  have key : ∀ x, ∃ v, x ∈ ps →
      onePoint (RoundedChoice.negAcquisition fl ex cdf pdf lg o mm bo X Y (some (K, V, h))) x =
        .ok (.fin (-1 * fl (v * 10))) ∧
      |v - meanImprovement b (mean x) (dev x)| ≤ Δ + 1 / 200000 ∧ |v| ≤ D + Δ := by
    intro x
    by_cases hx : x ∈ ps
    · obtain ⟨v, hv⟩ := ei_point (lg := lg) hf hη hη1 hc hd hacq hh
        (fun y hy => by rw [List.mem_singleton.1 hy]; exact hpred x hx) (hdev x hx) hY hb hb' (hD x hx) hΔ
      exact ⟨v, fun _ => hv⟩
    · exact ⟨0, fun h => absurd h hx⟩
  choose v hv using key
  exact choice_near hf hps (fun x hx => (hv x hx).1) (fun x hx => (hv x hx).2.1) fun x hx => (hv x hx).2.2

/-- C157: the same for the probability of improvement, whose value is the chance under the exact posterior to
fall below the best response. Errors count relative to the smallest deviation `w`. -/
theorem C157_pi {η w Δ b : ℝ} (hf : Nearest fl) (hc : CdfWithin η cdf) (hacq : bo.str_acq = "pi")
    (hh : Describes h σ s l)
    (hpred : PredictsWithin fl ex o mm X Y K V h bo.str_cov bo.prior_mu ps mean dev em es)
    (hw : ∀ x ∈ ps, w ≤ dev x) (hes : 2 * (es + 1 / 80000) ≤ w - es) (hY : ∀ i, Y i ∈ Double)
    (hb : ∃ i, Y i = b) (hb' : ∀ i, b ≤ Y i) (hps : ps ≠ [])
    (hΔ : Δ = 4 / 5 * ((es + 1 / 80000) / (w - es)) + 2 / 5 * (em / (w - es)) + (η + 3 / 2 ^ 53)) :
    ∃ x, getBestAcquisitionByEvaluation ps
        (onePoint (RoundedChoice.negAcquisition fl ex cdf pdf lg o mm bo X Y (some (K, V, h)))) = .ok [x] ∧
      NearBest (fun x => improvementChance b (mean x) (dev x)) ps
        (2 * Δ + 2 / 2 ^ 53 * 1 + (2 : ℝ) ^ (-1075 : ℤ)) x := by
  obtain ⟨j, hj⟩ : ∃ j, j = fl JITTER_ACQ := ⟨_, rfl⟩
  obtain ⟨hjd, hj0, hj1, -⟩ := jitter_double hf
  rw [← hj] at hjd hj0 hj1
  have hB := isBest_ofFn hb hb'
  have hch : RoundedChoice.chooseFunAcquisition fl cdf pdf lg bo.str_acq (some σ) =
      .ok fun m s Y => RoundedAcquisition.pi fl cdf m s Y j := by
    rw [hacq, hj]
    simp [RoundedChoice.chooseFunAcquisition, pyAssert, ALLOWED_BO_ACQ, bind, Except.bind, pure,
      Except.pure]
  have key : ∀ x, ∃ v, x ∈ ps →
      onePoint (RoundedChoice.negAcquisition fl ex cdf pdf lg o mm bo X Y (some (K, V, h))) x =
        .ok (.fin (-1 * fl (v * 10))) ∧ |v - improvementChance b (mean x) (dev x)| ≤ Δ ∧ |v| ≤ 1 := by
    intro x
    by_cases hx : x ∈ ps
    swap
    · exact ⟨0, fun h => absurd h hx⟩
    obtain ⟨S, mu', sd', S', h1, h2, h3, h4⟩ := hpred x hx
    obtain ⟨d1, d2, d3⟩ := roundedPredict_doubles hf h2 0
    have hes0 : 0 ≤ es := (abs_nonneg _).trans h4
    have hwx := hw x hx
    have hwe : 0 < w - es := by linarith
    have hsj : 0 < sd' 0 + j := by linarith
    have k1 := rounded_pi_eq (cdf := cdf) hf (ms := [mu' 0]) (ss := [sd' 0]) hjd
      (fun y hy => by rwa [List.mem_singleton.1 hy]) rfl hB
      (fun y hy => by rwa [List.mem_singleton.1 hy])
    refine ⟨_, fun _ => ⟨objective_at hh h2 hch k1, ?_, ?_⟩⟩
    · have e1 := cdf_at_error hf hc (doubles_ofFn hY b hB.1) hjd d1 d2 hsj
      have e2 := chance_near (b := b) hj0 (show 0 < dev x by linarith) d3 h3 h4 hwx (by linarith)
      have e3 : (es + j) / (w - es) ≤ (es + 1 / 80000) / (w - es) :=
        div_le_div_of_nonneg_right (by linarith) hwe.le
      have e4 := abs_sub_le (cdf (RoundedAcquisition.valZ fl b j (mu' 0) (sd' 0)))
        (normCdf ((b - mu' 0) / (sd' 0 + j))) (improvementChance b (mean x) (dev x))
      rw [hΔ]
      linarith
    · rw [abs_of_nonneg (hc.nonneg _)]
      exact hc.le_one _
  choose v hv using key
  exact choice_near hf hps (fun x hx => (hv x hx).1) (fun x hx => (hv x hx).2.1) fun x hx => (hv x hx).2.2

/-- C157: the same for the augmented expected improvement, whose value is the expected improvement times
`1 - σ / √(dev² + σ²)` for the noise `σ` of the hyperparameters. -/
theorem C157_aei {η D Δ b : ℝ} (hf : Nearest fl) (hη : 0 ≤ η) (hη1 : η ≤ 1 / 2) (hc : CdfWithin η cdf)
    (hd : PdfWithin η pdf) (hacq : bo.str_acq = "aei") (hh : Describes h σ s l)
    (hσ : (2 : ℝ) ^ (-400 : ℤ) ≤ σ)
    (hpred : PredictsWithin fl ex o mm X Y K V h bo.str_cov bo.prior_mu ps mean dev em es)
    (hdev : ∀ x ∈ ps, 0 < dev x) (hY : ∀ i, Y i ∈ Double) (hb : ∃ i, Y i = b) (hb' : ∀ i, b ≤ Y i)
    (hps : ps ≠ []) (hD : ∀ x ∈ ps, |b - mean x| + dev x ≤ D)
    (hΔ : Δ = 3 / 2 * em + es + 1 / 200000 + (D + 1 / 200000) * (es / σ) +
      ((η + 32 / 2 ^ 53) * (D + em + es) + (2 : ℝ) ^ (-1072 : ℤ))) :
    ∃ x, getBestAcquisitionByEvaluation ps
        (onePoint (RoundedChoice.negAcquisition fl ex cdf pdf lg o mm bo X Y (some (K, V, h)))) = .ok [x] ∧
      NearBest (fun x => meanImprovement b (mean x) (dev x) * (1 - σ / √(dev x ^ 2 + σ ^ 2))) ps
        (2 * Δ + 2 / 2 ^ 53 * (D + 1 / 200000 + Δ) + (2 : ℝ) ^ (-1075 : ℤ)) x := by
  have hσ0 : 0 < σ := lt_of_lt_of_le (by positivity) hσ
  obtain ⟨j, hj⟩ : ∃ j, j = fl JITTER_ACQ := ⟨_, rfl⟩
  obtain ⟨hjd, hj0, -, hjb⟩ := jitter_double hf
  rw [← hj] at hjd hj0 hjb
  have hB := isBest_ofFn hb hb'
  have hYd := doubles_ofFn hY
  have hch : RoundedChoice.chooseFunAcquisition fl cdf pdf lg bo.str_acq (some σ) =
      .ok fun m s Y => RoundedAcquisition.aei fl cdf pdf m s Y σ j := by
    rw [hacq, hj]
    simp [RoundedChoice.chooseFunAcquisition, pyAssert, ALLOWED_BO_ACQ, bind, Except.bind, pure,
      Except.pure]
  have key : ∀ x, ∃ v, x ∈ ps →
      onePoint (RoundedChoice.negAcquisition fl ex cdf pdf lg o mm bo X Y (some (K, V, h))) x =
        .ok (.fin (-1 * fl (v * 10))) ∧
      |v - meanImprovement b (mean x) (dev x) * (1 - σ / √(dev x ^ 2 + σ ^ 2))| ≤ Δ ∧
      |v| ≤ D + 1 / 200000 + Δ := by
    intro x
    by_cases hx : x ∈ ps
    swap
    · exact ⟨0, fun h => absurd h hx⟩
    obtain ⟨S, mu', sd', S', h1, h2, h3, h4⟩ := hpred x hx
    obtain ⟨d1, d2, d3⟩ := roundedPredict_doubles hf h2 0
    have hes0 : 0 ≤ es := (abs_nonneg _).trans h4
    have hw := hdev x hx
    have hDx := hD x hx
    have hsj : ∀ s ∈ [sd' 0], 0 < s + j := fun y hy => by
      rw [List.mem_singleton.1 hy]
      linarith
    have heq := ei_eq [mean x] [dev x] (List.ofFn Y) j b rfl hB (by
      intro s hs
      rw [List.mem_singleton.1 hs]
      linarith)
    have e2 := (C80_ei [mean x] [dev x] (List.ofFn Y) _ j b rfl hB hj0.le (by
      intro s hs
      rwa [List.mem_singleton.1 hs]) heq (mean x) (dev x) _ ⟨0, rfl, rfl, rfl⟩).2.trans hjb
    beta_reduce at e2
    have heq' := ei_eq [mu' 0] [sd' 0] (List.ofFn Y) j b rfl hB hsj
    obtain ⟨eis, vals₀, p1, p2, p3, -, p4⟩ := C45_product [mu' 0] [sd' 0] (List.ofFn Y) σ j b rfl hB hsj
      (fun s _ => by positivity)
    obtain rfl := Except.ok.inj (heq'.symm.trans p1)
    obtain ⟨v₀, rfl⟩ := List.length_eq_one_iff.1 p3
    have p5 := p4 0 (sd' 0) _ v₀ rfl rfl rfl
    beta_reduce at p5
    obtain ⟨vals, k1, k2, k3⟩ := C131_aei hf hη hη1 hc hd [mu' 0] [sd' 0] (List.ofFn Y) _ σ j b
      (fun y hy => by rwa [List.mem_singleton.1 hy]) (fun y hy => by rwa [List.mem_singleton.1 hy]) hYd hjd
      rfl hB hsj hσ p2
    obtain ⟨v, rfl⟩ := List.length_eq_one_iff.1 k2
    have e1 := k3 (mu' 0) (sd' 0) v₀ v ⟨0, rfl, rfl, rfl⟩ ⟨0, rfl, rfl, rfl⟩
    have e3 := ei_slope_mean (b := b) (s := sd' 0) d3 hj0.le (by linarith) (mean x) (mu' 0)
    have e4 := ei_slope_std (c := b - mean x) (s := dev x) (s' := sd' 0) hj0.le hw.le d3 (by linarith)
      (by linarith)
    have e5 := ei_value_le (b - mean x) (dev x) ((b - mean x) / (dev x + j))
    obtain ⟨g1, g2, g3⟩ := discount_near (s := dev x) (s' := sd' 0) hσ0
    obtain ⟨-, g4, g5⟩ := discount_near (s := dev x) (s' := dev x) hσ0
    have hg : meanImprovement b (mean x) (dev x) * (1 - σ / √(dev x ^ 2 + σ ^ 2)) =
      meanImprovement b (mean x) (dev x) * discount σ (dev x) := rfl
    rw [hg]
    have e2' : |(b - mean x) * normCdf ((b - mean x) / (dev x + j)) +
        dev x * normPdf ((b - mean x) / (dev x + j)) - meanImprovement b (mean x) (dev x)| ≤ 1 / 200000 := e2
    obtain ⟨q1, q2⟩ := aei_total (e1) p5 e3 e4 e5 e2' h3 h4 (g1.trans (div_le_div_of_nonneg_right h4 hσ0.le))
      g2 g3 g4 g5 hw.le hDx d3 (by positivity) hΔ
    exact ⟨v, fun _ => ⟨objective_at hh h2 hch k1, q1, q2⟩⟩
  choose v hv using key
  exact choice_near hf hps (fun x hx => (hv x hx).1) (fun x hx => (hv x hx).2.1) fun x hx => (hv x hx).2.2

/-- C157: the same for the upper confidence bound: the value of the candidate chosen is close to the largest
value of `-mean + 2 log (n + 1) dev`. -/
theorem C157_ucb {η D Δ κ W : ℝ} (hf : Nearest fl) (hη : 0 ≤ η) (hη1 : η ≤ 1 / 2) (hlg : LogWithin η lg)
    (hacq : bo.str_acq = "ucb") (hh : Describes h σ s l) (hn : n < 2 ^ 52)
    (hpred : PredictsWithin fl ex o mm X Y K V h bo.str_cov bo.prior_mu ps mean dev em es)
    (hdev : ∀ x ∈ ps, 0 < dev x) (hps : ps ≠ []) (hκ : κ = 2 * Real.log (n + 1))
    (hD : ∀ x ∈ ps, |mean x| + κ * dev x ≤ D)
    (hΔ : Δ = em + κ * es + ((η + 6 / 2 ^ 53) * (D + em + κ * es) +
      (2 : ℝ) ^ (-1074 : ℤ) * (1 + W + es))) (hW : ∀ x ∈ ps, dev x ≤ W) :
    ∃ x, getBestAcquisitionByEvaluation ps
        (onePoint (RoundedChoice.negAcquisition fl ex cdf pdf lg o mm bo X Y (some (K, V, h)))) = .ok [x] ∧
      NearBest (fun x => -mean x + κ * dev x) ps
        (2 * Δ + 2 / 2 ^ 53 * (D + Δ) + (2 : ℝ) ^ (-1075 : ℤ)) x := by
  have hκ0 : 0 ≤ κ := by
    rw [hκ]
    have := Real.log_nonneg (show (1 : ℝ) ≤ n + 1 by linarith [Nat.cast_nonneg (α := ℝ) n])
    positivity
  have hch : RoundedChoice.chooseFunAcquisition fl cdf pdf lg bo.str_acq (some σ) =
      .ok fun m s Y => RoundedAcquisition.ucb fl lg m s (some Y) := by
    rw [hacq]
    simp [RoundedChoice.chooseFunAcquisition, pyAssert, ALLOWED_BO_ACQ, bind, Except.bind, pure,
      Except.pure]
  have key : ∀ x, ∃ v, x ∈ ps →
      onePoint (RoundedChoice.negAcquisition fl ex cdf pdf lg o mm bo X Y (some (K, V, h))) x =
        .ok (.fin (-1 * fl (v * 10))) ∧ |v - (-mean x + κ * dev x)| ≤ Δ ∧ |v| ≤ D + Δ := by
    intro x
    by_cases hx : x ∈ ps
    swap
    · exact ⟨0, fun h => absurd h hx⟩
    obtain ⟨S, mu', sd', S', h1, h2, h3, h4⟩ := hpred x hx
    obtain ⟨d1, d2, d3⟩ := roundedPredict_doubles hf h2 0
    have hw := hdev x hx
    have hDx := hD x hx
    have hWx := hW x hx
    obtain ⟨vals, k1, k2, k3⟩ := C131_ucb hf hη hη1 hlg [mu' 0] [sd' 0] (some (List.ofFn Y)) 2 true
      (fun y hy => by rwa [List.mem_singleton.1 hy]) (by rintro y ⟨⟩; simpa using hn) rfl κ
      (by simpa using hκ)
    obtain ⟨v, rfl⟩ := List.length_eq_one_iff.1 k2
    have e1 := k3 (mu' 0) (sd' 0) v ⟨0, rfl, rfl, rfl⟩
    have e2 : |κ * sd' 0| ≤ κ * dev x + κ * es := by
      rw [abs_mul, abs_of_nonneg hκ0, abs_of_nonneg d3, ← mul_add]
      exact mul_le_mul_of_nonneg_left (by linarith [(abs_le.1 h4).2]) hκ0
    have e3 : |mu' 0| ≤ |mean x| + em := by
      have := abs_sub_abs_le_abs_sub (mu' 0) (mean x)
      linarith
    have e4 : |sd' 0| ≤ W + es := by
      rw [abs_of_nonneg d3]
      linarith [(abs_le.1 h4).2]
    have e5 : |-mu' 0 + κ * sd' 0 - (-mean x + κ * dev x)| ≤ em + κ * es := by
      have e : -mu' 0 + κ * sd' 0 - (-mean x + κ * dev x) =
          -(mu' 0 - mean x) + κ * (sd' 0 - dev x) := by ring
      rw [e]
      refine (abs_add_le _ _).trans (add_le_add ((abs_neg _).trans_le h3) ?_)
      rw [abs_mul, abs_of_nonneg hκ0]
      exact mul_le_mul_of_nonneg_left h4 hκ0
    have hη2 : 0 ≤ η + 6 / 2 ^ 53 := by positivity
    have e6 : |v - (-mean x + κ * dev x)| ≤ Δ := by
      have t1 : (η + 6 / 2 ^ 53) * (|mu' 0| + |κ * sd' 0|) ≤ (η + 6 / 2 ^ 53) * (D + em + κ * es) :=
        mul_le_mul_of_nonneg_left (by linarith) hη2
      have t2 : (2 : ℝ) ^ (-1074 : ℤ) * (1 + |sd' 0|) ≤ (2 : ℝ) ^ (-1074 : ℤ) * (1 + W + es) :=
        mul_le_mul_of_nonneg_left (by linarith) (by positivity)
      have t3 := abs_sub_le v (-mu' 0 + κ * sd' 0) (-mean x + κ * dev x)
      rw [hΔ]
      linarith
    refine ⟨v, fun _ => ⟨objective_at hh h2 hch k1, e6, ?_⟩⟩
    have e7 := abs_sub_abs_le_abs_sub v (-mean x + κ * dev x)
    have e8 : |-mean x + κ * dev x| ≤ |mean x| + κ * dev x := by
      refine (abs_add_le _ _).trans (add_le_add (abs_neg _).le ?_)
      rw [abs_of_nonneg (mul_nonneg hκ0 hw.le)]
    linarith
  choose v hv using key
  exact choice_near hf hps (fun x hx => (hv x hx).1) (fun x hx => (hv x hx).2.1) fun x hx => (hv x hx).2.2

/-- C157: the same for pure exploitation and for pure exploration. -/
theorem C157_pure {D : ℝ} (hf : Nearest fl) (hh : Describes h σ s l)
    (hpred : PredictsWithin fl ex o mm X Y K V h bo.str_cov bo.prior_mu ps mean dev em es)
    (hps : ps ≠ []) :
    (bo.str_acq = "pure_exploit" → (∀ x ∈ ps, |mean x| ≤ D) → ∃ x, getBestAcquisitionByEvaluation ps
        (onePoint (RoundedChoice.negAcquisition fl ex cdf pdf lg o mm bo X Y (some (K, V, h)))) = .ok [x] ∧
      NearBest (fun x => -mean x) ps (2 * em + 2 / 2 ^ 53 * (D + em) + (2 : ℝ) ^ (-1075 : ℤ)) x) ∧
    (bo.str_acq = "pure_explore" → (∀ x ∈ ps, |dev x| ≤ D) → ∃ x, getBestAcquisitionByEvaluation ps
        (onePoint (RoundedChoice.negAcquisition fl ex cdf pdf lg o mm bo X Y (some (K, V, h)))) = .ok [x] ∧
      NearBest dev ps (2 * es + 2 / 2 ^ 53 * (D + es) + (2 : ℝ) ^ (-1075 : ℤ)) x) := by
  constructor
  · intro hacq hD
    have hch : RoundedChoice.chooseFunAcquisition fl cdf pdf lg bo.str_acq (some σ) =
        .ok fun m _ _ => Acquisition.pureExploit m := by
      rw [hacq]
      simp [RoundedChoice.chooseFunAcquisition, pyAssert, ALLOWED_BO_ACQ, bind, Except.bind, pure,
        Except.pure]
    have key : ∀ x, ∃ v, x ∈ ps →
        onePoint (RoundedChoice.negAcquisition fl ex cdf pdf lg o mm bo X Y (some (K, V, h))) x =
          .ok (.fin (-1 * fl (v * 10))) ∧ |v - -mean x| ≤ em ∧ |v| ≤ D + em := by
      intro x
      by_cases hx : x ∈ ps
      swap
      · exact ⟨0, fun h => absurd h hx⟩
      obtain ⟨S, mu', sd', S', h1, h2, h3, h4⟩ := hpred x hx
      refine ⟨-mu' 0, fun _ => ⟨objective_at hh h2 hch rfl, ?_, ?_⟩⟩
      · rwa [← neg_sub', abs_neg]
      · have := abs_sub_abs_le_abs_sub (mu' 0) (mean x)
        rw [abs_neg]
        linarith [hD x hx]
    choose v hv using key
    exact choice_near hf hps (fun x hx => (hv x hx).1) (fun x hx => (hv x hx).2.1)
      fun x hx => (hv x hx).2.2
  · intro hacq hD
    have hch : RoundedChoice.chooseFunAcquisition fl cdf pdf lg bo.str_acq (some σ) =
        .ok fun _ s _ => Acquisition.pureExplore s := by
      rw [hacq]
      simp [RoundedChoice.chooseFunAcquisition, pyAssert, ALLOWED_BO_ACQ, bind, Except.bind, pure,
        Except.pure]
    have key : ∀ x, ∃ v, x ∈ ps →
        onePoint (RoundedChoice.negAcquisition fl ex cdf pdf lg o mm bo X Y (some (K, V, h))) x =
          .ok (.fin (-1 * fl (v * 10))) ∧ |v - dev x| ≤ es ∧ |v| ≤ D + es := by
      intro x
      by_cases hx : x ∈ ps
      swap
      · exact ⟨0, fun h => absurd h hx⟩
      obtain ⟨S, mu', sd', S', h1, h2, h3, h4⟩ := hpred x hx
      refine ⟨sd' 0, fun _ => ⟨objective_at hh h2 hch rfl, h4, ?_⟩⟩
      have := abs_sub_abs_le_abs_sub (sd' 0) (dev x)
      linarith [hD x hx]
    choose v hv using key
    exact choice_near hf hps (fun x hx => (hv x hx).1) (fun x hx => (hv x hx).2.1)
      fun x hx => (hv x hx).2.2

/-- C157, a case with numbers: at most 20 responses between -10 and 10 in at most 10 dimensions, no prior
mean, all inputs and candidates within 10 lengthscales of the origin, signal 1, noise variance between 0.01 and
1, an exponential function with relative error `2 ** -50`, rounded products of matrices in any order, an inverse
whose entries are off by at most `1e-9`, and a normal distribution function and density with error
`2 ** -40`: computed means are within `6e-4` of the exact ones and deviations within `66e-4`, and the expected
improvement of the candidate chosen is within 0.02 of the largest one. -/
theorem C157_typical (hf : Nearest fl) (hex : ExpWithin (1 / 2 ^ 50) ex) (hc : CdfWithin (1 / 2 ^ 40) cdf)
    (hpd : PdfWithin (1 / 2 ^ 40) pdf) (ho : o.Covers d) (hd : d ≤ 10) (hacq : bo.str_acq = "ei")
    (hn : bo.str_cov ∈ baseNames) (hprior : bo.prior_mu = none) (hh : Describes h σ 1 l)
    (hσ : 1 / 100 ≤ σ ^ 2) (hσ1 : σ ^ 2 ≤ 1) (hX : ∀ i, scaledLength l (X i) ≤ 10)
    (hps : ∀ x ∈ ps, scaledLength l x ≤ 10) (hps0 : ps ≠ []) (hn20 : n ≤ 20) {o' : SumOrder}
    (ho' : o'.Covers n) (hY : ∀ i, Y i ∈ Double) (hY1 : ∀ i, |Y i| ≤ 10) {b : ℝ} (hb : ∃ i, Y i = b)
    (hb' : ∀ i, b ≤ Y i) (hK : RoundedKernels.kernelMatrix fl ex o X h bo.str_cov = .ok K)
    (hVd : ∀ i j, V i j ∈ Double) (hθ : ∀ i j, |V i j - K⁻¹ i j| ≤ 1 / 10 ^ 9) :
    ∃ mean dev : Point d → ℝ,
      PredictsWithin fl ex o (orderedMul fl o') X Y K V h bo.str_cov bo.prior_mu ps mean dev (6 / 10 ^ 4)
        (66 / 10 ^ 4) ∧ (∀ x ∈ ps, 0 < dev x ∧ |mean x| + dev x ≤ 20002) ∧
      ∃ x, getBestAcquisitionByEvaluation ps (onePoint (RoundedChoice.negAcquisition fl ex cdf pdf lg o
          (orderedMul fl o') bo X Y (some (K, V, h)))) = .ok [x] ∧
        NearBest (fun x => meanImprovement b (mean x) (dev x)) ps (1 / 50) x := by
  have hn' : (n : ℝ) ≤ 20 := by exact_mod_cast hn20
  have hd' : (d : ℝ) ≤ 10 := by exact_mod_cast hd
  have hd0 : (0 : ℝ) ≤ d := Nat.cast_nonneg d
  have hmm := C129_products (fl := fl) hf ho' (hn20.trans (by norm_num))
  have hp : PriorFunction (d := d) none fun _ => 0 := fun n X => rfl
  have zero : (0 : ℝ) ∈ Double := by simpa using double_nat (show 0 < 2 ^ 53 by norm_num)
  have hQ := typical_residual hn' hY1
  obtain ⟨k1, k2, k3, k4⟩ := typical_choice (n := n) hn' (Nat.cast_nonneg n) hd' hd0 hσ hσ1 hQ
    (by positivity) rfl rfl rfl rfl rfl rfl rfl rfl rfl
  obtain ⟨mean, dev, h1, h2⟩ := C157_predictions (mm := orderedMul fl o') (ps := ps) hf hex (by positivity)
    (by norm_num) ho (hd.trans (by norm_num)) hn hh hX hps (by norm_num; linarith) (by positivity)
    (by norm_num; linarith) (by positivity) hmm hp (fun _ => zero) (P := 0) (fun _ _ => by simp) hY hK hVd
    (by positivity) hθ (u := 1 / 2 ^ 53) rfl rfl rfl k1 rfl rfl rfl rfl rfl rfl rfl rfl
  have hb1 : |b| ≤ 10 := by
    obtain ⟨i, rfl⟩ := hb
    exact hY1 i
  obtain ⟨hem, hes, hMW, htot⟩ := typical_total k2 k3 k4 hQ (by positivity) hσ hb1 rfl rfl rfl rfl rfl rfl rfl
  rw [← hprior] at h1
  refine ⟨mean, dev, fun x hx => ?_, fun x hx => ⟨(h2 x hx).2.1, ?_⟩, ?_⟩
  · obtain ⟨S, mu', sd', S', e1, e2, e3, e4⟩ := h1 x hx
    exact ⟨S, mu', sd', S', e1, e2, e3.trans hem, e4.trans hes⟩
  · exact (add_le_add (h2 x hx).1 (h2 x hx).2.2).trans hMW
  obtain ⟨x, e1, e2, e3⟩ := C157_ei (lg := lg) hf (by positivity) (by norm_num) hc hpd hacq hh h1
    (fun x hx => (h2 x hx).2.1) hY hb hb' hps0 (fun x hx => add_le_add
      ((abs_sub b (mean x)).trans (add_le_add le_rfl (h2 x hx).1)) (h2 x hx).2.2) rfl
  exact ⟨x, e1, e2, fun y hy => (e3 y hy).trans (add_le_add le_rfl htot)⟩

end

private noncomputable def rcPoints : Fin 2 → Point 2 := ![![0, 0], ![1, 2]]

private noncomputable def rcCandidates : List (Point 2) := [![3, -4], ![-1, 1], ![1 / 2, 1]]

private theorem rcPoints_length (i : Fin 2) : scaledLength (![1, 2] : Fin 2 → ℝ) (rcPoints i) ≤ 10 := by
  refine Real.sqrt_le_iff.2 ⟨by norm_num, ?_⟩
  fin_cases i <;> simp [rcPoints, Fin.sum_univ_two] <;> norm_num

private theorem rcCandidates_length (x : Point 2) (hx : x ∈ rcCandidates) :
    scaledLength (![1, 2] : Fin 2 → ℝ) x ≤ 10 := by
  refine Real.sqrt_le_iff.2 ⟨by norm_num, ?_⟩
  simp only [rcCandidates, List.mem_cons, List.not_mem_nil, or_false] at hx
  rcases hx with rfl | rfl | rfl <;> simp [Fin.sum_univ_two] <;> norm_num

private noncomputable def rcHyps : HypDict :=
  ⟨some (.flt (.fin (1 / 2))), none, some (.flt (.fin 1)), some (.arr [.fin 1, .fin 2])⟩

private theorem rcHyps_describes : Describes rcHyps (1 / 2) 1 (![1, 2] : Fin 2 → ℝ) where
  noise := rfl
  signal := rfl
  lengthscales := .inl (by simp [rcHyps])
  nonzero := fun k => by fin_cases k <;> simp

private noncomputable def rcBo (str_acq : String) : BOwGP 2 :=
  { range_X := fun _ => (-5, 5)
    str_surrogate := "gp"
    str_acq := str_acq
    str_optimizer_method_bo := "L-BFGS-B"
    normalize_Y := true
    str_cov := "matern52"
    use_ard := true
    prior_mu := none
    str_optimizer_method_gp := "BFGS"
    str_modelselection_method := "ml" }

/-- `C157_typical` for two responses, an inverse rounded entry by entry and three candidates; the same
predictions meet the hypotheses of `C157_ucb` and of `C157_pure`. -/
example : ∃ (ex : ℝ → ℝ) (o o' : SumOrder) (K V : Matrix (Fin 2) (Fin 2) ℝ) (mean dev : Point 2 → ℝ),
    ExpWithin (1 / 2 ^ 50) ex ∧
    RoundedKernels.kernelMatrix roundAway ex o rcPoints rcHyps "matern52" = .ok K ∧
    (∀ i j, |V i j - K⁻¹ i j| ≤ 1 / 10 ^ 9) ∧
    PredictsWithin roundAway ex o (orderedMul roundAway o') rcPoints ![0, 10] K V rcHyps "matern52" none
      rcCandidates mean dev (6 / 10 ^ 4) (66 / 10 ^ 4) ∧
    (∃ x, getBestAcquisitionByEvaluation rcCandidates (onePoint (RoundedChoice.negAcquisition roundAway ex
        (fun x => roundAway (normCdf x)) (fun x => roundAway (normPdf x)) Real.log o
        (orderedMul roundAway o') (rcBo "ei") rcPoints ![0, 10] (some (K, V, rcHyps)))) = .ok [x] ∧
      NearBest (fun x => meanImprovement 0 (mean x) (dev x)) rcCandidates (1 / 50) x) ∧
    (∃ x, getBestAcquisitionByEvaluation rcCandidates (onePoint (RoundedChoice.negAcquisition roundAway ex
        (fun x => roundAway (normCdf x)) (fun x => roundAway (normPdf x))
        (fun x => roundAway (Real.log x)) o (orderedMul roundAway o') (rcBo "ucb") rcPoints ![0, 10]
        (some (K, V, rcHyps)))) = .ok [x] ∧
      ∃ ε, NearBest (fun x => -mean x + 2 * Real.log (2 + 1) * dev x) rcCandidates ε x) ∧
    ∃ x, getBestAcquisitionByEvaluation rcCandidates (onePoint (RoundedChoice.negAcquisition roundAway ex
        (fun x => roundAway (normCdf x)) (fun x => roundAway (normPdf x)) Real.log o
        (orderedMul roundAway o') (rcBo "pure_explore") rcPoints ![0, 10] (some (K, V, rcHyps)))) =
          .ok [x] ∧
      NearBest dev rcCandidates (2 * (66 / 10 ^ 4) + 2 / 2 ^ 53 * (20002 + 66 / 10 ^ 4) +
        (2 : ℝ) ^ (-1075 : ℤ)) x := by
  have hf := roundAway_nearest
  have hex : ExpWithin (1 / 2 ^ 50) fun x => roundAway (Real.exp x) := by
    have h := expWithin_round hf
    exact ⟨h.zero, h.nonneg, h.le_one, fun x hx => (h.near x hx).trans (add_le_add
      (mul_le_mul_of_nonneg_right (by norm_num) (Real.exp_pos x).le) le_rfl)⟩
  have ho : (SumOrder.add (.entry 0) (.entry 1)).Covers 2 := by
    simp [SumOrder.Covers, SumOrder.entries, List.range_succ]
  have hn : "matern52" ∈ baseNames := by simp [baseNames]
  obtain ⟨K, hK, hs, hKe⟩ := kernelMatrix_error hf hex (by norm_num) (by norm_num) ho (by norm_num) hn
    rcHyps_describes rcPoints_length (by norm_num)
  have hB := near_inverse_entry (V := K⁻¹) (θ := 0) hs hKe (by norm_num) (by simp)
  have ht2 : (2 : ℝ) ^ (-1075 : ℤ) ≤ 1 / 10 ^ 20 := by
    have h1 : (2 : ℝ) ^ (-1075 : ℤ) ≤ (2 : ℝ) ^ (-70 : ℤ) := zpow_le_zpow_right₀ (by norm_num) (by norm_num)
    exact h1.trans (by norm_num)
  have hV : ∀ i j, |roundAway (K⁻¹ i j) - K⁻¹ i j| ≤ 1 / 10 ^ 9 := fun i j => by
    refine (fl_error hf _).trans ?_
    have h1 : |K⁻¹ i j| ≤ 10 := (hB i j).trans (by norm_num)
    norm_num at h1 ht2 ⊢
    linarith
  have hc : CdfWithin (1 / 2 ^ 40) fun x => roundAway (normCdf x) := by
    have h := cdfWithin_round hf
    exact ⟨h.nonneg, h.le_one, fun x => (h.near x).trans (by norm_num)⟩
  have hp : PdfWithin (1 / 2 ^ 40) fun x => roundAway (normPdf x) :=
    fun x => (pdfWithin_round hf x).trans (by norm_num)
  obtain ⟨mean, dev, h1, h2, h3⟩ := C157_typical (lg := Real.log) (bo := rcBo "ei") (Y := ![0, 10]) (b := 0) hf hex hc
    hp ho (by norm_num) rfl hn rfl rcHyps_describes (by norm_num) (by norm_num) rcPoints_length
    rcCandidates_length (by simp [rcCandidates]) (by norm_num) ho (by
      intro i
      fin_cases i
      · exact ⟨0, 0, by norm_num, by norm_num, by norm_num⟩
      · exact ⟨10, 0, by norm_num, by norm_num, by norm_num⟩) (by
      intro i
      fin_cases i <;> norm_num) ⟨0, rfl⟩ (by
      intro i
      fin_cases i <;> norm_num) hK (V := fun i j => roundAway (K⁻¹ i j)) (fun i j => hf.mem _) hV
  have hne : rcCandidates ≠ [] := by simp [rcCandidates]
  obtain ⟨x, e1, e2⟩ := C157_ucb (bo := rcBo "ucb") (cdf := fun x => roundAway (normCdf x))
    (pdf := fun x => roundAway (normPdf x)) (W := 20002) (D := (2 * Real.log ((2 : ℕ) + 1) + 1) * 20002) hf
    (by norm_num) (by norm_num) (logWithin_round hf) rfl rcHyps_describes (by norm_num) h1
    (fun x hx => (h2 x hx).1) hne rfl (fun x hx => by
      have k1 := h2 x hx
      have k2 := Real.log_nonneg (show (1 : ℝ) ≤ (2 : ℕ) + 1 by norm_num)
      have k3 := abs_nonneg (mean x)
      have k4 := mul_le_mul_of_nonneg_left (show dev x ≤ 20002 by linarith) k2
      linarith) rfl (fun x hx => by linarith [h2 x hx, abs_nonneg (mean x)])
  refine ⟨_, _, _, K, _, mean, dev, hex, hK, hV, h1, h3, ⟨x, e1, _, e2⟩, ?_⟩
  refine (C157_pure (bo := rcBo "pure_explore") hf rcHyps_describes h1 hne).2 rfl fun x hx => ?_
  rw [abs_of_pos (h2 x hx).1]
  linarith [h2 x hx, abs_nonneg (mean x)]

private theorem rcSingle_dev {x : Point 2} {m w : ℝ} {S : Matrix (Fin 1) (Fin 1) ℝ}
    (hp : Gp.predictWithHyps (.vec fun _ : Fin 1 => rcPoints 1) (fun _ => 3) (.vec fun _ : Fin 1 => x) rcHyps
      "matern52" none = .ok (fun _ => m, fun _ => w, S)) : 2 / 5 ≤ w := by
  have hn : "matern52" ∈ baseNames := by simp [baseNames]
  have hsuit : ∀ {p : ℕ} (Z : Fin p → Point 2), Suits "matern52" "matern52" (.vec Z) :=
    fun Z => ⟨hn, .inl ⟨rfl, Z, rfl⟩⟩
  rw [predictWithHyps_ok (hsuit _) (hsuit _) rcHyps_describes _ (μ := fun _ => 0) (μs := fun _ => 0) rfl rfl,
    Except.ok.injEq, Prod.mk.injEq, Prod.mk.injEq] at hp
  rw [← congrFun hp.2.1 0]
  refine Real.le_sqrt_of_sq_le (le_trans ?_ (le_max_left _ _))
  have h1 := gram_bound "matern52" 1 (![1, 2] : Fin 2 → ℝ) (.vec fun _ : Fin 1 => rcPoints 1)
    (.vec fun _ : Fin 1 => x) 0 0
  have e1 : gram "matern52" 1 (![1, 2] : Fin 2 → ℝ) (.vec fun _ : Fin 1 => x) (.vec fun _ : Fin 1 => x) 0 0 =
      1 := by
    simp [gram, itemKernel_vec, kernel_self]
  have e2 : gram "matern52" 1 (![1, 2] : Fin 2 → ℝ) (.vec fun _ : Fin 1 => rcPoints 1)
      (.vec fun _ : Fin 1 => rcPoints 1) 0 0 = 1 := by
    simp [gram, itemKernel_vec, kernel_self]
  have e3 : (noisyGram "matern52" (1 / 2) 1 (![1, 2] : Fin 2 → ℝ) (.vec fun _ : Fin 1 => rcPoints 1))⁻¹ 0 0 =
      (1 + ((1 / 2) ^ 2 + 1 / 100000))⁻¹ := by
    rw [Matrix.inv_def, Matrix.adjugate_fin_one, Matrix.det_fin_one]
    simp [noisyGram, e2]
  simp only [postCov, Matrix.sub_apply, Matrix.add_apply, Matrix.mul_apply, Finset.univ_unique,
    Fin.default_eq_zero, Finset.sum_singleton, Matrix.transpose_apply, e1, e3, Matrix.smul_apply,
    Matrix.one_apply_eq]
  generalize gram "matern52" 1 (![1, 2] : Fin 2 → ℝ) (.vec fun _ : Fin 1 => rcPoints 1)
    (.vec fun _ : Fin 1 => x) 0 0 = k at h1
  have h2 : k * k ≤ 1 := mul_le_one₀ (by linarith [h1.2]) h1.1 (by linarith [h1.2])
  norm_num
  linarith

/-- Hypotheses of `C157_pi` and `C157_aei` are met by one response and three candidates. -/
example : ∃ (ex : ℝ → ℝ) (o o' : SumOrder) (K V : Matrix (Fin 1) (Fin 1) ℝ) (mean dev : Point 2 → ℝ),
    PredictsWithin roundAway ex o (orderedMul roundAway o') (fun _ => rcPoints 1) (fun _ => 3) K V rcHyps
      "matern52" none rcCandidates mean dev (6 / 10 ^ 4) (66 / 10 ^ 4) ∧
    (∃ x, getBestAcquisitionByEvaluation rcCandidates (onePoint (RoundedChoice.negAcquisition roundAway ex
        (fun x => roundAway (normCdf x)) (fun x => roundAway (normPdf x)) Real.log o
        (orderedMul roundAway o') (rcBo "pi") (fun _ => rcPoints 1) (fun _ => 3) (some (K, V, rcHyps)))) =
          .ok [x] ∧
      NearBest (fun x => improvementChance 3 (mean x) (dev x)) rcCandidates (1 / 25) x) ∧
    ∃ x, getBestAcquisitionByEvaluation rcCandidates (onePoint (RoundedChoice.negAcquisition roundAway ex
        (fun x => roundAway (normCdf x)) (fun x => roundAway (normPdf x)) Real.log o
        (orderedMul roundAway o') (rcBo "aei") (fun _ => rcPoints 1) (fun _ => 3) (some (K, V, rcHyps)))) =
          .ok [x] ∧
      ∃ ε, NearBest (fun x => meanImprovement 3 (mean x) (dev x) *
        (1 - 1 / 2 / √(dev x ^ 2 + (1 / 2) ^ 2))) rcCandidates ε x := by
  have hf := roundAway_nearest
  have hex : ExpWithin (1 / 2 ^ 50) fun x => roundAway (Real.exp x) := by
    have h := expWithin_round hf
    exact ⟨h.zero, h.nonneg, h.le_one, fun x hx => (h.near x hx).trans (add_le_add
      (mul_le_mul_of_nonneg_right (by norm_num) (Real.exp_pos x).le) le_rfl)⟩
  have ho : (SumOrder.add (.entry 0) (.entry 1)).Covers 2 := by
    simp [SumOrder.Covers, SumOrder.entries, List.range_succ]
  have ho' : (SumOrder.entry 0).Covers 1 := by
    simp [SumOrder.Covers, SumOrder.entries, List.range_succ]
  have hn : "matern52" ∈ baseNames := by simp [baseNames]
  obtain ⟨K, hK, hs, hKe⟩ := kernelMatrix_error (X := fun _ : Fin 1 => rcPoints 1) hf hex (by norm_num)
    (by norm_num) ho (by norm_num) hn rcHyps_describes (fun _ => rcPoints_length 1) (by norm_num)
  have hB := near_inverse_entry (V := K⁻¹) (θ := 0) hs hKe (by norm_num) (by simp)
  have ht2 : (2 : ℝ) ^ (-1075 : ℤ) ≤ 1 / 10 ^ 20 := by
    have h1 : (2 : ℝ) ^ (-1075 : ℤ) ≤ (2 : ℝ) ^ (-70 : ℤ) := zpow_le_zpow_right₀ (by norm_num) (by norm_num)
    exact h1.trans (by norm_num)
  have hV : ∀ i j, |roundAway (K⁻¹ i j) - K⁻¹ i j| ≤ 1 / 10 ^ 9 := fun i j => by
    refine (fl_error hf _).trans ?_
    have h1 : |K⁻¹ i j| ≤ 10 := (hB i j).trans (by norm_num)
    norm_num at h1 ht2 ⊢
    linarith
  have hc : CdfWithin (1 / 2 ^ 40) fun x => roundAway (normCdf x) := by
    have h := cdfWithin_round hf
    exact ⟨h.nonneg, h.le_one, fun x => (h.near x).trans (by norm_num)⟩
  have hp : PdfWithin (1 / 2 ^ 40) fun x => roundAway (normPdf x) :=
    fun x => (pdfWithin_round hf x).trans (by norm_num)
  have hY : ∀ _ : Fin 1, (3 : ℝ) ∈ Double := fun _ => ⟨3, 0, by norm_num, by norm_num, by norm_num⟩
  have hne : rcCandidates ≠ [] := by simp [rcCandidates]
  obtain ⟨mean, dev, h1, h2, -⟩ := C157_typical (lg := Real.log) (bo := rcBo "ei") (Y := fun _ => 3) (b := 3)
    hf hex hc hp ho (by norm_num) rfl hn rfl rcHyps_describes (by norm_num) (by norm_num)
    (fun _ => rcPoints_length 1) rcCandidates_length hne (by norm_num) ho' hY
    (fun _ => by norm_num) ⟨0, rfl⟩ (fun _ => le_rfl) hK (V := fun i j => roundAway (K⁻¹ i j))
    (fun i j => hf.mem _) hV
  refine ⟨_, _, _, K, _, mean, dev, h1, ?_, ?_⟩
  · obtain ⟨x, e1, e2, e3⟩ := C157_pi (bo := rcBo "pi") (pdf := fun x => roundAway (normPdf x))
      (lg := Real.log) (w := 2 / 5) (b := 3) hf hc rfl rcHyps_describes h1 (fun x hx => by
        obtain ⟨S, -, -, -, e, -⟩ := h1 x hx
        exact rcSingle_dev e) (by norm_num) hY ⟨0, rfl⟩ (fun _ => le_rfl) hne rfl
    refine ⟨x, e1, e2, fun y hy => (e3 y hy).trans (add_le_add le_rfl ?_)⟩
    refine (add_le_add le_rfl ht2).trans ?_
    norm_num
  · obtain ⟨x, e1, e2⟩ := C157_aei (bo := rcBo "aei") (lg := Real.log) (b := 3) (D := 20005) hf (by norm_num)
      (by norm_num) hc hp rfl rcHyps_describes
      ((zpow_le_zpow_right₀ (by norm_num) (show (-400 : ℤ) ≤ -1 by norm_num)).trans (by norm_num)) h1
      (fun x hx => (h2 x hx).1) hY ⟨0, rfl⟩ (fun _ => le_rfl) hne (fun x hx => by
        have k1 := abs_sub (3 : ℝ) (mean x)
        rw [abs_of_pos (by norm_num : (0 : ℝ) < 3)] at k1
        linarith [h2 x hx]) rfl
    exact ⟨x, e1, _, e2⟩

end Verif.Props
