import Verif.Lemmas.StepTotalOthers
import Verif.Lemmas.Mills
import Verif.Spec.Objective
import Mathlib.Topology.Order.Compact
import Mathlib.Topology.Instances.Matrix

/-! The acquisition function as a function of the candidate (for C98, C99). -/

namespace Verif.Lemmas

open Verif.BoCommon Verif.UtilsBo Verif.UtilsCovariance Verif.Constants Verif.BaseBo Verif.Spec
open Verif.Acquisition (normCdf normPdf)
open Verif.Covariance (Inputs)

variable {n d : ℕ}

theorem continuous_normCdf : Continuous normCdf :=
  continuous_iff_continuousAt.2 fun z => (hasDerivAt_normCdf z).continuousAt

/-- Every acquisition function acts entry by entry, and is continuous in mean and standard
deviation. -/
theorem acq_batch {name : String} (hname : name ∈ ALLOWED_BO_ACQ) {noise : Option ℝ}
    (hn : name = "aei" → ∃ e, noise = some e ∧ e ≠ 0) {Y : List ℝ} (hY : Y ≠ []) :
    ∃ g : ℝ → ℝ → ℝ, ContinuousOn (fun p : ℝ × ℝ => g p.1 p.2) {p | 0 ≤ p.2} ∧
      ∃ f, chooseFunAcquisition name noise = .ok f ∧
        ∀ m s : List ℝ, m.length = s.length → (∀ x ∈ s, 0 ≤ x) →
          f m s Y = .ok (List.zipWith g m s) := by
  obtain ⟨b, hb⟩ := npMin_exists hY
  have hj : (0 : ℝ) < JITTER_ACQ := by norm_num [JITTER_ACQ]
  have g1 : ∀ s : List ℝ, (∀ x ∈ s, 0 ≤ x) →
      Acquisition.guardDiv (s.map (· + JITTER_ACQ)) = .ok () := by
    intro s hs
    refine guardDiv_total fun x hx => ?_
    obtain ⟨y, hy, rfl⟩ := List.mem_map.1 hx
    have := hs y hy
    exact (by linarith : (0 : ℝ) < y + JITTER_ACQ).ne'
  have cz : ContinuousOn (fun p : ℝ × ℝ => (b - p.1) / (p.2 + JITTER_ACQ)) {p | 0 ≤ p.2} := by
    refine ContinuousOn.div (by fun_prop) (by fun_prop) fun p hp => ?_
    have : (0 : ℝ) ≤ p.2 := hp
    exact (by linarith : (0 : ℝ) < p.2 + JITTER_ACQ).ne'
  have cpdf : Continuous normPdf := continuous_iff_continuousAt.2 fun z =>
    (Acquisition.hasDerivAt_normPdf z).continuousAt
  have cei : ContinuousOn (fun p : ℝ × ℝ => (b - p.1) * normCdf ((b - p.1) / (p.2 + JITTER_ACQ)) +
      p.2 * normPdf ((b - p.1) / (p.2 + JITTER_ACQ))) {p | 0 ≤ p.2} :=
    (ContinuousOn.mul (by fun_prop) (continuous_normCdf.comp_continuousOn cz)).add
      (ContinuousOn.mul (by fun_prop) (cpdf.comp_continuousOn cz))
  simp only [ALLOWED_BO_ACQ, List.mem_cons, List.not_mem_nil, or_false] at hname
  obtain rfl | rfl | rfl | rfl | rfl | rfl := hname
  · refine ⟨fun m s => normCdf ((b - m) / (s + JITTER_ACQ)),
      continuous_normCdf.comp_continuousOn cz, _, by
        simp [chooseFunAcquisition, pyAssert, ALLOWED_BO_ACQ, bind, Except.bind, pure,
          Except.pure]; rfl, fun m s hl hs => ?_⟩
    simp only [Acquisition.pi, pyAssert, hl, if_true, hb, g1 s hs, bind, Except.bind, pure,
      Except.pure, List.map_zipWith]
  · refine ⟨fun m s => (b - m) * normCdf ((b - m) / (s + JITTER_ACQ)) +
        s * normPdf ((b - m) / (s + JITTER_ACQ)), cei, _, by
        simp [chooseFunAcquisition, pyAssert, ALLOWED_BO_ACQ, bind, Except.bind, pure,
          Except.pure]; rfl, fun m s hl hs => ?_⟩
    simp only [Acquisition.ei, pyAssert, hl, if_true, hb, g1 s hs, bind, Except.bind, pure,
      Except.pure]
  · refine ⟨fun m s => -m + 2 * Real.log (Y.length + 1) * s, by fun_prop, _, by
        simp [chooseFunAcquisition, pyAssert, ALLOWED_BO_ACQ, bind, Except.bind, pure,
          Except.pure]; rfl, fun m s hl hs => ?_⟩
    simp only [Acquisition.ucb, pyAssert, hl, if_true, bind, Except.bind, pure, Except.pure]
  · obtain ⟨e, rfl, he⟩ := hn rfl
    have g2 : ∀ s : List ℝ, Acquisition.guardDiv (s.map fun x => √(x ^ 2 + e ^ 2)) = .ok () := by
      intro s
      refine guardDiv_total fun x hx => ?_
      obtain ⟨y, hy, rfl⟩ := List.mem_map.1 hx
      exact (Real.sqrt_pos.2 (by positivity)).ne'
    refine ⟨fun m s => ((b - m) * normCdf ((b - m) / (s + JITTER_ACQ)) +
        s * normPdf ((b - m) / (s + JITTER_ACQ))) * (1 - e / √(s ^ 2 + e ^ 2)), ?_, _, by
        simp [chooseFunAcquisition, pyAssert, ALLOWED_BO_ACQ, bind, Except.bind, pure,
          Except.pure]; rfl, fun m s hl hs => ?_⟩
    · refine cei.mul (continuousOn_const.sub ?_)
      refine ContinuousOn.div (by fun_prop) (by fun_prop) fun p _ => ?_
      exact (Real.sqrt_pos.2 (by positivity)).ne'
    · simp only [Acquisition.aei, pyAssert, hl, if_true, hb, g1 s hs, g2, bind, Except.bind, pure,
        Except.pure]
  · refine ⟨fun m _ => -m, by fun_prop, _, by
        simp [chooseFunAcquisition, pyAssert, ALLOWED_BO_ACQ, bind, Except.bind, pure,
          Except.pure]; rfl, fun m s hl hs => ?_⟩
    simp only [Acquisition.pureExploit, pure, Except.pure, Except.ok.injEq]
    exact List.ext_getElem (by simp [hl]) fun i h1 h2 => by simp
  · refine ⟨fun _ s => s, by fun_prop, _, by
        simp [chooseFunAcquisition, pyAssert, ALLOWED_BO_ACQ, bind, Except.bind, pure,
          Except.pure]; rfl, fun m s hl hs => ?_⟩
    simp only [Acquisition.pureExplore, pure, Except.pure, Except.ok.injEq]
    exact List.ext_getElem (by simp [hl]) fun i h1 h2 => by simp

/-! ### The box -/

theorem box_compact (B : Bounds d) : IsCompact {x : Point d | InBox B x} := by
  have : {x : Point d | InBox B x} = Set.pi Set.univ fun i => Set.Icc (B i).1 (B i).2 := by
    ext x
    simp only [InBox, Set.mem_pi, Set.mem_setOf_eq, Set.mem_univ, true_implies, Set.mem_Icc]
  rw [this]
  exact isCompact_univ_pi fun i => isCompact_Icc

theorem box_nonempty {B : Bounds d} (hB : ∀ i, (B i).1 ≤ (B i).2) :
    {x : Point d | InBox B x}.Nonempty :=
  ⟨fun i => (B i).1, fun i => ⟨le_rfl, hB i⟩⟩

theorem bestInBox_of_continuous {B : Bounds d} (hB : ∀ i, (B i).1 ≤ (B i).2) {a : Point d → ℝ}
    (ha : Continuous a) : ∃ x, BestInBox B a x := by
  obtain ⟨x, hx, h⟩ := (box_compact B).exists_isMaxOn (box_nonempty hB) ha.continuousOn
  exact ⟨x, hx, fun y hy => h hy⟩

theorem bestInBox_of_finite {B : Bounds d} (hB : ∀ i, (B i).1 ≤ (B i).2) {a : Point d → ℝ}
    (ha : (Set.range a).Finite) : ∃ x, BestInBox B a x := by
  obtain ⟨v, ⟨x, hx, rfl⟩, h⟩ := Set.exists_max_image (a '' {x | InBox B x}) id
    (ha.subset (Set.image_subset_range _ _)) ((box_nonempty hB).image a)
  exact ⟨x, hx, fun y hy => h _ ⟨y, hy, rfl⟩⟩

/-! ### Predictions at a point -/

theorem continuous_profile (name : String) : Continuous (profile name) := by
  unfold profile
  split_ifs
  · unfold m32Profile; fun_prop
  · unfold m52Profile; fun_prop
  · unfold seProfile; fun_prop

theorem continuous_kernel_right (name : String) (s : ℝ) (l : Fin d → ℝ) (x : Point d) :
    Continuous fun y => kernel name s l x y := by
  unfold kernel scaledDistance
  refine continuous_const.mul ((continuous_profile name).comp (Real.continuous_sqrt.comp ?_))
  fun_prop

/-- The mean predicted at a point. -/
noncomputable def meanAt (base : String) (s : ℝ) (l : Fin d → ℝ) (X : Fin n → Point d)
    (P : Matrix (Fin n) (Fin n) ℝ) (y : Fin n → ℝ) (p : Point d → ℝ) (x : Point d) : ℝ :=
  ∑ i, kernel base s l (X i) x * (P.mulVec y) i + p x

/-- The variance predicted at a point (before it is cut at zero). -/
noncomputable def varAt (base : String) (s : ℝ) (l : Fin d → ℝ) (X : Fin n → Point d)
    (P : Matrix (Fin n) (Fin n) ℝ) (x : Point d) : ℝ :=
  s ^ 2 + 1 / 100000 - ∑ i, kernel base s l (X i) x * (P.mulVec fun j => kernel base s l (X j) x) i

theorem continuous_meanAt (base : String) (s : ℝ) (l : Fin d → ℝ) (X : Fin n → Point d)
    (P : Matrix (Fin n) (Fin n) ℝ) (y : Fin n → ℝ) {p : Point d → ℝ} (hp : Continuous p) :
    Continuous (meanAt base s l X P y p) := by
  unfold meanAt
  have := fun i => continuous_kernel_right base s l (X i)
  fun_prop

theorem continuous_varAt (base : String) (s : ℝ) (l : Fin d → ℝ) (X : Fin n → Point d)
    (P : Matrix (Fin n) (Fin n) ℝ) : Continuous (varAt base s l X P) := by
  unfold varAt Matrix.mulVec dotProduct
  have := fun i => continuous_kernel_right base s l (X i)
  fun_prop

theorem predictWithCov_at {name : String} (hb : name ∈ baseNames) (X : Fin n → Point d)
    (Y : Fin n → ℝ) {m : ℕ} (Z : Fin m → Point d) (K P : Matrix (Fin n) (Fin n) ℝ) {h : HypDict}
    {σ s : ℝ} {l : Fin d → ℝ} (hd : Describes h σ s l) {prior : Gp.PriorMu d} {p : Point d → ℝ}
    (hp : PriorIs prior p) :
    ∃ S : Matrix (Fin m) (Fin m) ℝ,
      (∀ j, S j j = varAt name s l X P (Z j)) ∧
      Gp.predictWithCov (.vec X) Y (.vec Z) K P h name prior =
      .ok (fun j => meanAt name s l X P (fun i => Y i - p (X i)) p (Z j),
        fun j => √(max (varAt name s l X P (Z j)) 0), S) := by
  have h1 := predictWithCov_ok (vec_suits hb X) (vec_suits hb Z) hd Y K P (hp n X) (hp m Z)
  have hk : ∀ {a b : ℕ} (U : Fin a → Point d) (V : Fin b → Point d) i j,
      gram name s l (.vec U) (.vec V) i j = kernel name s l (U i) (V j) := fun U V i j =>
    itemKernel_vec name s l U V i j
  have hv : ∀ j, (gram name s l (.vec Z) (.vec Z) +
      (1 / 100000 : ℝ) • (1 : Matrix (Fin m) (Fin m) ℝ) -
      (gram name s l (.vec X) (.vec Z)).transpose * P * gram name s l (.vec X) (.vec Z)) j j =
      varAt name s l X P (Z j) := by
    intro j
    rw [Matrix.mul_assoc, varAt]
    simp only [Matrix.sub_apply, Matrix.add_apply, Matrix.smul_apply, Matrix.one_apply_eq,
      Matrix.mul_apply, Matrix.transpose_apply, hk, kernel_self, Matrix.mulVec, dotProduct,
      smul_eq_mul, mul_one]
  refine ⟨_, hv, ?_⟩
  rw [h1]
  simp only [hv]
  congr 2
  funext j
  rw [← Matrix.mulVec_mulVec, meanAt]
  simp only [Pi.add_apply, Matrix.mulVec, dotProduct, Matrix.transpose_apply, hk]
  rfl

theorem zipWith_map_map {α : Type} (g : ℝ → ℝ → ℝ) (u v : α → ℝ) (l : List α) :
    List.zipWith g (l.map u) (l.map v) = l.map fun x => g (u x) (v x) := by
  induction l with
  | nil => rfl
  | cons a l ih => simp [ih]

theorem ofFn_get_map (f : Point d → ℝ) (pts : List (Point d)) :
    List.ofFn (fun i => f (pts.get i)) = pts.map f := by
  refine List.ext_getElem (by simp) fun i h1 h2 => by simp

theorem noiseArg_describes {h : HypDict} {σ s : ℝ} {l : Fin d → ℝ} (hd : Describes h σ s l) :
    noiseArg h = .ok (some σ) := by
  simp only [noiseArg, hd.noise, Covariance.finite, bind, Except.bind, pure, Except.pure]

/-- What is minimised, from predictions that are functions of the point. -/
theorem objective_of_post {name : String} (hname : name ∈ ALLOWED_BO_ACQ) {e : ℝ}
    (he : name = "aei" → e ≠ 0) {Y : List ℝ} (hY : Y ≠ []) {m s : Point d → ℝ}
    (hs : ∀ x, 0 ≤ s x) :
    ∃ a : Point d → ℝ, (Continuous m → Continuous s → Continuous a) ∧
      ((Set.range fun x => (m x, s x)).Finite → (Set.range a).Finite) ∧
      ∃ f, chooseFunAcquisition name (some e) = .ok f ∧ ∀ pts : List (Point d),
        ∃ v, f (pts.map m) (pts.map s) Y = .ok v ∧ v.map (· * MULTIPLIER_ACQ) = pts.map a := by
  obtain ⟨g, hg, f, hf, hv⟩ := acq_batch hname (noise := some e) (fun h => ⟨e, rfl, he h⟩) hY
  refine ⟨fun x => g (m x) (s x) * MULTIPLIER_ACQ, fun hm hsd => ?_, fun hfin => ?_, f, hf,
    fun pts => ⟨_, hv _ _ (by simp) ?_, ?_⟩⟩
  · refine Continuous.mul ?_ continuous_const
    exact hg.comp_continuous (hm.prodMk hsd) fun x => hs x
  · refine (hfin.image fun p : ℝ × ℝ => g p.1 p.2 * MULTIPLIER_ACQ).subset ?_
    rintro _ ⟨x, rfl⟩
    exact ⟨_, ⟨x, rfl⟩, rfl⟩
  · intro x hx
    obtain ⟨q, -, rfl⟩ := List.mem_map.1 hx
    exact hs q
  · rw [zipWith_map_map, List.map_map]
    rfl

/-! ### Forests -/

theorem tree_finite (t : Trees.Tree d) :
    (Set.range fun x => Trees.predictByTree x t).Finite := by
  have hside : ∀ s : Trees.Tree d, (Set.range fun x => Trees.predictByTree x s).Finite →
      (Set.range fun x => (match s with
        | .node i v l r => Trees.predictByTree x (.node i v l r)
        | .leaf rows => Trees.leafPrediction rows : Py (ℝ × ℝ))).Finite := by
    intro s hs
    cases s with
    | leaf rows =>
      refine (Set.finite_singleton (Trees.leafPrediction rows)).subset ?_
      rintro _ ⟨x, rfl⟩
      rfl
    | node f v l r => exact hs
  induction t with
  | leaf rows =>
    refine (Set.finite_singleton (.error .assertion : Py (ℝ × ℝ))).subset ?_
    rintro _ ⟨x, rfl⟩
    rfl
  | node f v l r ihl ihr =>
    refine ((hside l ihl).union (hside r ihr)).subset ?_
    rintro _ ⟨x, rfl⟩
    by_cases hx : x f < v
    · refine .inl ⟨x, ?_⟩
      simp only [Trees.predictByTree.eq_def x (.node f v l r), hx, if_true]
      cases l <;> rfl
    · refine .inr ⟨x, ?_⟩
      simp only [Trees.predictByTree.eq_def x (.node f v l r), hx, if_false]
      cases r <;> rfl

theorem forest_finite (trees : List (Trees.Tree d)) :
    (Set.range fun x => Trees.predictByTreesOne x trees).Finite := by
  have h1 : (Set.range fun x => trees.mapM (Trees.predictByTree x)).Finite := by
    induction trees with
    | nil =>
      refine (Set.finite_singleton (.ok [] : Py (List (ℝ × ℝ)))).subset ?_
      rintro _ ⟨x, rfl⟩
      rfl
    | cons t ts ih =>
      refine (((tree_finite t).prod ih).image fun p : Py (ℝ × ℝ) × Py (List (ℝ × ℝ)) =>
        (do let a ← p.1; let l ← p.2; return a :: l : Py (List (ℝ × ℝ)))).subset ?_
      rintro _ ⟨x, rfl⟩
      exact ⟨(Trees.predictByTree x t, ts.mapM (Trees.predictByTree x)), ⟨⟨x, rfl⟩, ⟨x, rfl⟩⟩,
        by simp only [List.mapM_cons]⟩
  refine (h1.image fun P : Py (List (ℝ × ℝ)) => (do
    let preds ← P
    let mu ← Trees.npMean (preds.map (·.1))
    let sigma ← Trees.computeSigma (preds.map (·.1)) (preds.map (·.2))
    return (mu, sigma) : Py (ℝ × ℝ))).subset ?_
  rintro _ ⟨x, rfl⟩
  exact ⟨_, ⟨x, rfl⟩, rfl⟩

/-! ### Far from the data -/

theorem itemKernel_bound {base : String} {s δ : ℝ} {l : Fin d → ℝ} (hδ : 0 ≤ δ) {x y : Item d}
    (h : ∀ a b, kernel base s l (x.2 a) (y.2 b) ≤ δ) :
    0 ≤ itemKernel base s l x y ∧ itemKernel base s l x y ≤ δ := by
  unfold itemKernel setKernel
  constructor
  · exact div_nonneg (Finset.sum_nonneg fun a _ => Finset.sum_nonneg fun b _ => kernel_nonneg ..)
      (by positivity)
  · rcases eq_or_lt_of_le (show (0 : ℝ) ≤ (x.1 : ℝ) * y.1 by positivity) with h0 | h0
    · rw [← h0, div_zero]
      exact hδ
    · rw [div_le_iff₀ h0]
      calc ∑ a, ∑ b, kernel base s l (x.2 a) (y.2 b) ≤ ∑ a : Fin x.1, ∑ b : Fin y.1, δ :=
            Finset.sum_le_sum fun a _ => Finset.sum_le_sum fun b _ => h a b
        _ = δ * (x.1 * y.1) := by simp; ring

theorem kernel_far (base : String) (s : ℝ) (l : Fin d → ℝ) {δ : ℝ} (hδ : 0 < δ) :
    ∃ R, ∀ x y, R ≤ scaledDistance l x y → kernel base s l x y ≤ δ := by
  have h := (profile_top base).const_mul (s ^ 2)
  rw [mul_zero] at h
  obtain ⟨R, hR⟩ := Filter.eventually_atTop.1 (h.eventually (ge_mem_nhds hδ))
  exact ⟨R, fun x y hxy => hR _ hxy⟩

open scoped Matrix in
/-- Means and covariances far from the data are close to those of the prior. -/
theorem post_far (base : String) (σ s : ℝ) (l : Fin d → ℝ) (X : Inputs n d) (y : Fin n → ℝ) {ε : ℝ}
    (hε : 0 < ε) :
    ∃ R, ∀ (m : ℕ) (Xs : Inputs m d), FarRows R l X Xs →
      (∀ j, |postMean base σ s l X Xs y j| < ε) ∧
      ∀ j j', |postCov base σ s l X Xs j j' - priorCov base s l Xs j j'| < ε := by
  set P := (noisyGram base σ s l X)⁻¹ with hP
  set A := ∑ i, |(P *ᵥ y) i| with hA
  set B := ∑ i, ∑ i', |P i i'| with hB
  have hA0 : 0 ≤ A := Finset.sum_nonneg fun i _ => abs_nonneg _
  have hB0 : 0 ≤ B := Finset.sum_nonneg fun i _ => Finset.sum_nonneg fun i' _ => abs_nonneg _
  set δ := min 1 (ε / (A + B + 1)) with hδdef
  have hδ : 0 < δ := lt_min one_pos (by positivity)
  have hδ1 : δ ≤ 1 := min_le_left _ _
  have hδ2 : δ * (A + B + 1) ≤ ε := by
    have := min_le_right 1 (ε / (A + B + 1))
    rwa [← hδdef, le_div_iff₀ (by positivity)] at this
  obtain ⟨R, hR⟩ := kernel_far base s l hδ
  refine ⟨R, fun m Xs hf => ?_⟩
  have hk : ∀ i j, |gram base s l X Xs i j| ≤ δ := by
    intro i j
    have := itemKernel_bound hδ.le fun a b => hR _ _ (hf i j a b)
    rw [gram, Matrix.of_apply, abs_of_nonneg this.1]
    exact this.2
  constructor
  · intro j
    have e : postMean base σ s l X Xs y j = ∑ i, gram base s l X Xs i j * (P *ᵥ y) i := by
      rw [postMean, ← Matrix.mulVec_mulVec]
      rfl
    rw [e]
    calc |∑ i, gram base s l X Xs i j * (P *ᵥ y) i| ≤ ∑ i, |gram base s l X Xs i j * (P *ᵥ y) i| :=
          Finset.abs_sum_le_sum_abs _ _
      _ ≤ ∑ i, δ * |(P *ᵥ y) i| := Finset.sum_le_sum fun i _ => by
          rw [abs_mul]
          exact mul_le_mul_of_nonneg_right (hk i j) (abs_nonneg _)
      _ = δ * A := by rw [hA, Finset.mul_sum]
      _ < ε := by nlinarith
  · intro j j'
    have e : postCov base σ s l X Xs j j' - priorCov base s l Xs j j' =
        -∑ i, gram base s l X Xs i j * ∑ i', P i i' * gram base s l X Xs i' j' := by
      rw [postCov, Matrix.mul_assoc]
      simp only [Matrix.sub_apply, Matrix.add_apply, Matrix.smul_apply, Matrix.one_apply, priorCov,
        Matrix.mul_apply, Matrix.transpose_apply, smul_eq_mul, mul_ite, mul_one, mul_zero]
      simp only [gram, Matrix.of_apply]
      ring
    rw [e, abs_neg]
    calc |∑ i, gram base s l X Xs i j * ∑ i', P i i' * gram base s l X Xs i' j'|
        ≤ ∑ i, |gram base s l X Xs i j * ∑ i', P i i' * gram base s l X Xs i' j'| :=
          Finset.abs_sum_le_sum_abs _ _
      _ ≤ ∑ i, δ * ∑ i', |P i i'| := Finset.sum_le_sum fun i _ => by
          rw [abs_mul]
          refine mul_le_mul (hk i j) ?_ (abs_nonneg _) hδ.le
          refine (Finset.abs_sum_le_sum_abs _ _).trans (Finset.sum_le_sum fun i' _ => ?_)
          rw [abs_mul]
          exact mul_le_of_le_one_right (abs_nonneg _) ((hk i' j').trans hδ1)
      _ = δ * B := by rw [hB, Finset.mul_sum]
      _ < ε := by nlinarith

theorem sqrt_near {a b ε : ℝ} (ha : 0 ≤ a) (hε : 0 < ε) (hb : |b - a| < ε ^ 2) :
    |√(max b 0) - √a| < ε := by
  have h1 : |max b 0 - a| < ε ^ 2 := by
    have := abs_max_sub_max_le_abs b a 0
    rw [max_eq_left ha] at this
    exact this.trans_lt hb
  have hu := Real.sqrt_nonneg (max b 0)
  have hv := Real.sqrt_nonneg a
  have h2 := Real.sq_sqrt (le_max_right b 0)
  have h3 := Real.sq_sqrt ha
  rw [← h2, ← h3] at h1
  by_contra hc
  push Not at hc
  have h4 : |√(max b 0) ^ 2 - √a ^ 2| = |√(max b 0) - √a| * (√(max b 0) + √a) := by
    rw [← abs_of_nonneg (add_nonneg hu hv), ← abs_mul]
    congr 1
    ring
  have h5 : |√(max b 0) - √a| ≤ √(max b 0) + √a := by
    rw [abs_le]
    constructor <;> linarith
  have h6 : ε * ε ≤ |√(max b 0) - √a| * (√(max b 0) + √a) :=
    mul_le_mul hc (hc.trans h5) hε.le (abs_nonneg _)
  rw [h4] at h1
  nlinarith

end Verif.Lemmas
