import Verif.Spec.Symmetry
import Verif.Props.Gp
import Verif.Props.Tp
import Verif.Props.Likelihood

/-! C83: units and origin of the inputs. C84: predictions of a batch and of its parts.
C85: the unit of the responses. -/

namespace Verif.Props

open Verif.Spec Verif.Lemmas Verif.UtilsCovariance Verif.Covariance Verif.Constants Verif.Gp
open Matrix hiding gram

variable {n m d e : ℕ}

private theorem suits_map {name base : String} {X : Inputs n d} (h : Suits name base X)
    (f : Point d → Point e) : Suits name base (mapInputs f X) := by
  obtain ⟨hb, ⟨rfl, x, rfl⟩ | ⟨rfl, p, x, hp, rfl⟩⟩ := h
  · exact ⟨hb, .inl ⟨rfl, _, rfl⟩⟩
  · exact ⟨hb, .inr ⟨rfl, p, _, hp, rfl⟩⟩

/-- `f` keeps the distances, scaled with `l` before and with `l'` after. -/
private def Keeps (l : Fin d → ℝ) (l' : Fin e → ℝ) (f : Point d → Point e) : Prop :=
  ∀ x y, scaledDistance l' (f x) (f y) = scaledDistance l x y

private theorem gram_map {l : Fin d → ℝ} {l' : Fin e → ℝ} {f : Point d → Point e}
    (hf : Keeps l l' f) (base : String) (s : ℝ) (X : Inputs n d) (Y : Inputs m d) :
    gram base s l' (mapInputs f X) (mapInputs f Y) = gram base s l X Y := by
  cases X <;> cases Y <;>
    (ext i j; simp only [gram, itemKernel, item, mapInputs, setKernel, kernel, of_apply, hf _ _]
     rfl)

/-- C83: predictions depend on the inputs only through the scaled distances between them: a map
to inputs of any dimension that keeps these leaves mean, deviations and covariance as they are. -/
theorem C83_distances {name base : String} {X : Inputs n d} {Xs : Inputs m d}
    (hX : Suits name base X) (hXs : Suits name base Xs) {h h' : HypDict} {σ s : ℝ}
    {l : Fin d → ℝ} {l' : Fin e → ℝ} (hd : Describes h σ s l) (hd' : Describes h' σ s l')
    {f : Point d → Point e}
    (hf : ∀ x y, ∑ k, ((f x k - f y k) / l' k) ^ 2 = ∑ k, ((x k - y k) / l k) ^ 2)
    (Y : Fin n → ℝ) {prior : PriorMu d} {prior' : PriorMu e} {μ : Fin n → ℝ} {μs : Fin m → ℝ}
    (hμ : getPriorMu prior X = .ok μ) (hμs : getPriorMu prior Xs = .ok μs)
    (hμ' : getPriorMu prior' (mapInputs f X) = .ok μ)
    (hμs' : getPriorMu prior' (mapInputs f Xs) = .ok μs) :
    (∃ r, predictWithHyps X Y Xs h name prior = .ok r ∧
      predictWithHyps (mapInputs f X) Y (mapInputs f Xs) h' name prior' = .ok r) ∧
    ∀ ν, 2 < ν → h.dof = some (.flt (.fin ν)) → h'.dof = some (.flt (.fin ν)) →
      ∃ r, Tp.predictWithHyps X Y Xs h name prior = .ok r ∧
        Tp.predictWithHyps (mapInputs f X) Y (mapInputs f Xs) h' name prior' = .ok r := by
  have hk : Keeps l l' f := fun x y => by simp only [scaledDistance, hf]
  constructor
  · refine ⟨_, predictWithHyps_ok hX hXs hd Y hμ hμs, ?_⟩
    rw [predictWithHyps_ok (suits_map hX f) (suits_map hXs f) hd' Y hμ' hμs']
    simp only [postMean, postCov, noisyGram, gram_map hk]
  · intro ν hν h1 h2
    refine ⟨_, tpPredictWithHyps_ok hX hXs hd hν h1 Y hμ hμs, ?_⟩
    rw [tpPredictWithHyps_ok (suits_map hX f) (suits_map hXs f) hd' hν h2 Y hμ' hμs']
    simp only [postMean, postCov, noisyGram, gram_map hk]

/-- C83: neither the units of the coordinates (when the lengthscales change with them) nor the
origin matter. -/
theorem C83_units {name base : String} {X : Inputs n d} {Xs : Inputs m d}
    (hX : Suits name base X) (hXs : Suits name base Xs) {h h' : HypDict} {σ s : ℝ}
    {l : Fin d → ℝ} {c : Fin d → ℝ} (hc : ∀ k, c k ≠ 0) (hd : Describes h σ s l)
    (hd' : Describes h' σ s fun k => c k * l k) (t : Point d) (Y : Fin n → ℝ) :
    ∃ r, predictWithHyps X Y Xs h name none = .ok r ∧
      predictWithHyps (mapInputs (fun x k => c k * x k + t k) X) Y
        (mapInputs (fun x k => c k * x k + t k) Xs) h' name none = .ok r := by
  refine (C83_distances hX hXs hd hd' (fun x y => ?_) Y (prior := none) (prior' := none) rfl rfl rfl
    rfl).1
  refine Finset.sum_congr rfl fun k _ => ?_
  rw [show c k * x k + t k - (c k * y k + t k) = c k * (x k - y k) by ring,
    mul_div_mul_left _ _ (hc k)]

/-- C83: nor does the order of the coordinates. -/
theorem C83_coordinates {name base : String} {X : Inputs n d} {Xs : Inputs m d}
    (hX : Suits name base X) (hXs : Suits name base Xs) {h h' : HypDict} {σ s : ℝ}
    {l : Fin d → ℝ} (π : Equiv.Perm (Fin d)) (hd : Describes h σ s l)
    (hd' : Describes h' σ s fun k => l (π k)) (Y : Fin n → ℝ) :
    ∃ r, predictWithHyps X Y Xs h name none = .ok r ∧
      predictWithHyps (mapInputs (fun x k => x (π k)) X) Y
        (mapInputs (fun x k => x (π k)) Xs) h' name none = .ok r :=
  (C83_distances hX hXs hd hd'
    (fun x y => Equiv.sum_comp π fun k => ((x k - y k) / l k) ^ 2) Y
    (prior := none) (prior' := none) rfl rfl rfl rfl).1

/-- C83: with the same lengthscale in all dimensions the inputs may also be rotated or reflected. -/
theorem C83_rotation {name base : String} {X : Inputs n d} {Xs : Inputs m d}
    (hX : Suits name base X) (hXs : Suits name base Xs) {h : HypDict} {σ s a : ℝ}
    (hd : Describes h σ s fun _ : Fin d => a) (Q : Matrix (Fin d) (Fin d) ℝ) (hQ : Qᵀ * Q = 1)
    (Y : Fin n → ℝ) :
    ∃ r, predictWithHyps X Y Xs h name none = .ok r ∧
      predictWithHyps (mapInputs (fun x => Q *ᵥ x) X) Y (mapInputs (fun x => Q *ᵥ x) Xs) h name
        none = .ok r := by
  refine (C83_distances hX hXs hd hd (fun x y => ?_) Y (prior := none) (prior' := none) rfl rfl rfl
    rfl).1
  have h1 : ∀ z : Fin d → ℝ, (Q *ᵥ z) ⬝ᵥ (Q *ᵥ z) = z ⬝ᵥ z := fun z => by
    rw [dotProduct_mulVec, vecMul_mulVec, ← dotProduct_mulVec]
    simp [hQ]
  have h2 := h1 (x - y)
  simp only [mulVec_sub, dotProduct, Pi.sub_apply] at h2
  simp only [div_pow, ← Finset.sum_div]
  congr 1
  simpa [sq] using h2

/-- C83: the likelihoods depend on the same distances only. -/
theorem C83_likelihood {name base : String} {X : Inputs n d} (hX : Suits name base X) (hn : n ≠ 0)
    {v v' : List Flt} {ard ard' fix fix' : Bool} {h h' : HypDict} {σ s : ℝ} {l : Fin d → ℝ}
    {l' : Fin e → ℝ} (hr : restoreHyps name v true ard fix = .ok h)
    (hr' : restoreHyps name v' true ard' fix' = .ok h') (hd : Describes h σ s l)
    (hd' : Describes h' σ s l') {f : Point d → Point e}
    (hf : ∀ x y, ∑ k, ((f x k - f y k) / l' k) ^ 2 = ∑ k, ((x k - y k) / l k) ^ 2)
    (Y μ : Fin n → ℝ) :
    ∃ r, negLogMl X Y v name μ ard fix false false = .ok r ∧
      negLogMl (mapInputs f X) Y v' name μ ard' fix' false false = .ok r := by
  have hk : Keeps l l' f := fun x y => by simp only [scaledDistance, hf]
  refine ⟨_, C36_inverse_path hX hr hd hn Y μ false, ?_⟩
  rw [C36_inverse_path (suits_map hX f) hr' hd' hn]
  simp only [noisyGram, gram_map hk]

/-- C85: the unit of the responses does matter, although the hyperparameters change with it: the
`1e-5` on the diagonal stays. One observation, the prediction at its input: twice the response with
twice the signal and noise is not predicted as twice the value. -/
theorem C85_violated :
    ∃ (X : Inputs 1 1) (Y : Fin 1 → ℝ) (h h' : HypDict),
      Suits "se" "se" X ∧ Describes h 1 1 (fun _ : Fin 1 => 1) ∧
      Describes h' 2 2 (fun _ : Fin 1 => 1) ∧
      ∃ mu sd S mu' sd' S', predictWithHyps X Y X h "se" none = .ok (mu, sd, S) ∧
        predictWithHyps X (fun i => 2 * Y i) X h' "se" none = .ok (mu', sd', S') ∧
        mu' 0 ≠ 2 * mu 0 := by
  have hX : Suits "se" "se" (.vec fun _ _ => 0 : Inputs 1 1) := ⟨by decide, .inl ⟨rfl, _, rfl⟩⟩
  have hd : ∀ a : ℝ, Describes (⟨some (.flt (.fin a)), none, some (.flt (.fin a)),
      some (.flt (.fin 1))⟩ : HypDict) a a (fun _ : Fin 1 => 1) := fun a =>
    ⟨rfl, rfl, .inr ⟨1, one_ne_zero, fun _ => rfl, rfl⟩, fun _ => one_ne_zero⟩
  refine ⟨.vec fun _ _ => 0, fun _ => 1, _, _, hX, hd 1, hd 2, _, _, _, _, _, _,
    predictWithHyps_ok hX hX (hd 1) _ (prior := none) (μ := 0) (μs := 0) rfl rfl,
    predictWithHyps_ok hX hX (hd 2) _ (prior := none) (μ := 0) (μs := 0) rfl rfl, ?_⟩
  have hg : ∀ a : ℝ, gram "se" a (fun _ : Fin 1 => (1 : ℝ)) (.vec fun _ _ => 0 : Inputs 1 1)
      (.vec fun _ _ => 0 : Inputs 1 1) = Matrix.of fun _ _ => a ^ 2 := fun a => by
    ext i j
    change (∑ _a : Fin 1, ∑ _b : Fin 1, kernel "se" a (fun _ : Fin 1 => (1 : ℝ)) (fun _ => 0)
      (fun _ => 0)) / ((1 : ℕ) * (1 : ℕ)) = a ^ 2
    simp [kernel, scaledDistance, profile, seProfile]
  have hi : ∀ a : ℝ, (noisyGram "se" a a (fun _ : Fin 1 => (1 : ℝ))
      (.vec fun _ _ => 0 : Inputs 1 1))⁻¹ = Matrix.of fun _ _ => (a ^ 2 + (a ^ 2 + 1 / 100000))⁻¹ :=
    fun a => by
      refine Matrix.inv_eq_right_inv ?_
      ext i j
      have : a ^ 2 + (a ^ 2 + 1 / 100000) ≠ 0 := by positivity
      fin_cases i; fin_cases j
      simp only [noisyGram, hg, mul_apply, Finset.univ_unique, Finset.sum_singleton,
        Matrix.add_apply, of_apply, Matrix.smul_apply, one_apply, smul_eq_mul]
      simp only [Fin.default_eq_zero, Fin.zero_eta, if_true, mul_one]
      exact mul_inv_cancel₀ this
  simp only [postMean, hg, hi, mulVec, dotProduct, mul_apply, Finset.univ_unique,
    Finset.sum_singleton, transpose_apply, of_apply, Pi.add_apply, Pi.sub_apply, Pi.zero_apply]
  norm_num

/-- C85, what does hold: if the signal is multiplied by `c` and the noise changes such that its
variance plus `1e-5` is multiplied by `c^2`, then the means are multiplied by `c` and the
covariances, apart from the `1e-5` on their diagonal, by `c^2`. (Missing: the same for the noise
multiplied by `c`, and including the diagonal, see `C85_violated`.) -/
theorem C85_response_unit_partial {name base : String} {X : Inputs n d} {Xs : Inputs m d}
    (hX : Suits name base X) (hXs : Suits name base Xs) {h h' : HypDict} {σ σ' s c : ℝ}
    {l : Fin d → ℝ} (hc : c ≠ 0) (hd : Describes h σ s l) (hd' : Describes h' σ' (c * s) l)
    (hσ : σ' ^ 2 + 1 / 100000 = c ^ 2 * (σ ^ 2 + 1 / 100000)) (Y : Fin n → ℝ) :
    ∃ mu sd S sd' S', predictWithHyps X Y Xs h name none = .ok (mu, sd, S) ∧
      predictWithHyps X (fun i => c * Y i) Xs h' name none = .ok (fun i => c * mu i, sd', S') ∧
      ∀ i j, S' i j - (if i = j then 1 / 100000 else 0) =
        c ^ 2 * (S i j - if i = j then 1 / 100000 else 0) := by
  have hg : ∀ {a b : ℕ} (A : Inputs a d) (B : Inputs b d),
      gram base (c * s) l A B = c ^ 2 • gram base s l A B := fun A B => by
    ext i j
    simp only [gram, itemKernel, setKernel, kernel, of_apply, Matrix.smul_apply, smul_eq_mul,
      mul_div_assoc', Finset.mul_sum, mul_pow, mul_assoc]
  have hng : noisyGram base σ' (c * s) l X = c ^ 2 • noisyGram base σ s l X := by
    rw [noisyGram, noisyGram, hg, hσ, smul_add, smul_smul]
  have hc2 : (c ^ 2 : ℝ) ≠ 0 := pow_ne_zero 2 hc
  have hu : IsUnit (noisyGram base σ s l X).det := (noisyGram_posDef base σ s l X).det_pos.ne'.isUnit
  have hinv : (noisyGram base σ' (c * s) l X)⁻¹ = (c ^ 2)⁻¹ • (noisyGram base σ s l X)⁻¹ := by
    rw [hng]
    exact Matrix.inv_smul' _ (Units.mk0 _ hc2) hu
  refine ⟨_, _, _, fun i => √(max (postCov base σ' (c * s) l X Xs i i) 0),
    postCov base σ' (c * s) l X Xs,
    predictWithHyps_ok hX hXs hd Y (prior := none) (μ := 0) (μs := 0) rfl rfl, ?_, ?_⟩
  · rw [predictWithHyps_ok hX hXs hd' _ (prior := none) (μ := 0) (μs := 0) rfl rfl]
    congr 2
    ext j
    simp only [postMean, hg, hinv, transpose_smul, smul_mul, Matrix.mul_smul, smul_smul, hc2,
      inv_mul_cancel₀, ne_eq, not_false_eq_true, one_smul, Pi.add_apply, Pi.zero_apply, add_zero,
      sub_zero]
    rw [show (fun i => c * Y i) = c • Y from rfl, mulVec_smul]
    rfl
  · intro i j
    simp only [postCov, hg, hinv, transpose_smul, smul_mul, Matrix.mul_smul, smul_smul, hc2,
      Matrix.sub_apply, Matrix.add_apply, Matrix.smul_apply, one_apply, smul_eq_mul]
    field_simp
    split_ifs <;> ring

example : ∃ σ' : ℝ, σ' ^ 2 + 1 / 100000 = 2 ^ 2 * ((0 : ℝ) ^ 2 + 1 / 100000) ∧
    Describes (⟨some (.flt (.fin σ')), none, some (.flt (.fin (2 * 2))), some (.flt (.fin 3))⟩ :
      HypDict) σ' (2 * 2) (fun _ : Fin 1 => 3) :=
  ⟨√(3 / 100000), by rw [Real.sq_sqrt (by norm_num)]; norm_num, rfl, rfl,
    .inr ⟨3, by norm_num, fun _ => rfl, rfl⟩, fun _ => by norm_num⟩

/-- C84: predicting for a selection of the test inputs gives the selected means and deviations;
if no input is selected twice, also the selected covariances. For Student-t processes too. -/
theorem C84_selection {name base : String} {X : Inputs n d} {Xs : Inputs m d}
    (hX : Suits name base X) (hXs : Suits name base Xs) {h : HypDict} {σ s : ℝ} {l : Fin d → ℝ}
    (hd : Describes h σ s l) (Y : Fin n → ℝ) {k : ℕ} (π : Fin k → Fin m) {prior : PriorMu d}
    {μ : Fin n → ℝ} {μs : Fin m → ℝ} (hμ : getPriorMu prior X = .ok μ)
    (hμs : getPriorMu prior Xs = .ok μs)
    (hμπ : getPriorMu prior (selectRows Xs π) = .ok fun i => μs (π i)) :
    (∃ mu sd S S', predictWithHyps X Y Xs h name prior = .ok (mu, sd, S) ∧
      predictWithHyps X Y (selectRows Xs π) h name prior =
        .ok (fun i => mu (π i), fun i => sd (π i), S') ∧
      (π.Injective → ∀ i j, S' i j = S (π i) (π j))) ∧
    ∀ ν, 2 < ν → h.dof = some (.flt (.fin ν)) →
      ∃ mu sd S S', Tp.predictWithHyps X Y Xs h name prior = .ok (ν + n, mu, sd, S) ∧
        Tp.predictWithHyps X Y (selectRows Xs π) h name prior =
          .ok (ν + n, fun i => mu (π i), fun i => sd (π i), S') ∧
        (π.Injective → ∀ i j, S' i j = S (π i) (π j)) := by
  have hXπ : Suits name base (selectRows Xs π) := by
    obtain ⟨hb, ⟨rfl, x, rfl⟩ | ⟨rfl, p, x, hp, rfl⟩⟩ := hXs
    · exact ⟨hb, .inl ⟨rfl, _, rfl⟩⟩
    · exact ⟨hb, .inr ⟨rfl, p, _, hp, rfl⟩⟩
  have hit : ∀ i, item (selectRows Xs π) i = item Xs (π i) := fun i => by cases Xs <;> rfl
  have hg : gram base s l X (selectRows Xs π) = (gram base s l X Xs).submatrix id π := by
    ext i j; simp [gram, hit]
  have hgs : gram base s l (selectRows Xs π) (selectRows Xs π) =
      (gram base s l Xs Xs).submatrix π π := by
    ext i j; simp [gram, hit]
  have hm : ∀ y, postMean base σ s l X (selectRows Xs π) y =
      fun i => postMean base σ s l X Xs y (π i) := fun y => by
    ext i
    simp [postMean, hg, mulVec, mul_apply, dotProduct]
  have hS : ∀ i j, postCov base σ s l X (selectRows Xs π) i j =
      postCov base σ s l X Xs (π i) (π j) + (1 / 100000 : ℝ) *
        ((1 : Matrix (Fin k) (Fin k) ℝ) i j - (1 : Matrix (Fin m) (Fin m) ℝ) (π i) (π j)) :=
    fun i j => by
      simp only [postCov, hg, hgs, Matrix.sub_apply, Matrix.add_apply,
        Matrix.smul_apply, submatrix_apply, mul_apply,
        transpose_apply, smul_eq_mul, id]
      ring
  have hSi : ∀ i, postCov base σ s l X (selectRows Xs π) i i =
      postCov base σ s l X Xs (π i) (π i) := fun i => by simp [hS]
  have hSj : π.Injective → ∀ i j, postCov base σ s l X (selectRows Xs π) i j =
      postCov base σ s l X Xs (π i) (π j) := fun hπ i j => by
    rw [hS]
    by_cases hij : i = j
    · subst hij; simp
    · simp [one_apply, hij, hπ.ne hij]
  constructor
  · refine ⟨_, _, _, postCov base σ s l X (selectRows Xs π), predictWithHyps_ok hX hXs hd Y hμ hμs,
      ?_, hSj⟩
    rw [predictWithHyps_ok hX hXπ hd Y hμ hμπ, hm]
    simp only [hSi]
    rfl
  · intro ν hν hdof
    refine ⟨_, _, _, ((ν + misfit (noisyGram base σ s l X) (Y - μ) - 2) / (ν + n - 2)) •
      postCov base σ s l X (selectRows Xs π), tpPredictWithHyps_ok hX hXs hd hν hdof Y hμ hμs, ?_, ?_⟩
    · rw [tpPredictWithHyps_ok hX hXπ hd hν hdof Y hμ hμπ, hm]
      simp only [Matrix.smul_apply, hSi]
      rfl
    · intro hπ i j
      simp only [Matrix.smul_apply, hSj hπ]

/-! Concrete cases: hyperparameters for the hypotheses of C83 (units changed by 2 and 3, coordinates
swapped, a rotation by 90 degrees), and a selection for C84. -/

/-- Two dimensions. -/
noncomputable def exTwo (l : List ℝ) : HypDict :=
  ⟨some (.flt (.fin 0)), none, some (.flt (.fin 2)), some (.arr (l.map .fin))⟩

theorem exTwo_describes {a b : ℝ} (ha : a ≠ 0) (hb : b ≠ 0) {l : Fin 2 → ℝ} (h : l = ![a, b]) :
    Describes (exTwo [a, b]) 0 2 l := by
  subst h
  refine ⟨rfl, rfl, .inl (by simp [exTwo, List.ofFn_succ]), fun k => ?_⟩
  fin_cases k <;> assumption

/-- Two inputs in the plane. -/
def exPlane : Inputs 2 2 := .vec ![![0, 1], ![2, 5]]

example : Suits "se" "se" exPlane ∧ Describes (exTwo [1, 4]) 0 2 ![1, 4] ∧
    Describes (exTwo [2, 12]) 0 2 (fun k => (![2, 3] : Fin 2 → ℝ) k * (![1, 4] : Fin 2 → ℝ) k) ∧
    Describes (exTwo [4, 1]) 0 2 (fun k => (![1, 4] : Fin 2 → ℝ) (Equiv.swap 0 1 k)) ∧
    Describes (exTwo [3, 3]) 0 2 (fun _ : Fin 2 => 3) ∧
    (!![0, -1; 1, 0] : Matrix (Fin 2) (Fin 2) ℝ)ᵀ * !![0, -1; 1, 0] = 1 := by
  refine ⟨⟨by decide, .inl ⟨rfl, _, rfl⟩⟩, exTwo_describes (by norm_num) (by norm_num) rfl,
    exTwo_describes (by norm_num) (by norm_num) ?_, exTwo_describes (by norm_num) (by norm_num) ?_,
    exTwo_describes (by norm_num) (by norm_num) ?_, ?_⟩
  · funext k; fin_cases k <;> norm_num
  · funext k; fin_cases k <;> simp
  · funext k; fin_cases k <;> rfl
  · ext i j; fin_cases i <;> fin_cases j <;> simp [mul_apply, Fin.sum_univ_two]

example : getPriorMu none exPlane = .ok 0 ∧
    getPriorMu none (selectRows exPlane fun _ : Fin 1 => 1) = .ok (fun _ => 0) ∧
    (fun _ : Fin 1 => (1 : Fin 2)).Injective := by
  refine ⟨rfl, rfl, fun i j _ => Subsingleton.elim i j⟩

end Verif.Props
