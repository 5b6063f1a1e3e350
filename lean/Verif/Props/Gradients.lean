import Verif.Lemmas.GradCov
import Verif.Props.Hyps

/-! C29: kernel gradients. -/

namespace Verif.Props

open Verif.Spec Verif.Covariance Verif.UtilsCovariance Verif.Constants Verif.Lemmas
open scoped Topology

/-- The vector form of the hyperparameters of a Gaussian process, in the order of
`convert_hyps`. -/
def hypVector (fix : Bool) (σ s : ℝ) (ls : List ℝ) : List ℝ :=
  (if fix then [] else [σ]) ++ s :: ls

/-- `restore_hyps` on a vector of finite numbers, Gaussian process. -/
theorem restore_vec {name : String} (hn : name ∈ baseNames) (fix : Bool) (σ s : ℝ)
    (ls : List ℝ) :
    restoreHyps name ((hypVector fix σ s ls).map Flt.fin) true true fix (.fin σ) =
      .ok { noise := some (.flt (.fin σ)), dof := none, signal := some (.flt (.fin s)),
            lengthscales := some (.arr (ls.map Flt.fin)) } := by
  obtain ⟨v, h1, -, h3⟩ := C19_dict_round_trip name (base_allowed' hn)
    { noise := some (.flt (.fin σ)), dof := none, signal := some (.flt (.fin s)),
      lengthscales := some (.arr (ls.map Flt.fin)) } true true fix ls.length
    ⟨⟨_, rfl⟩, ⟨_, rfl⟩, by simp, by simp⟩
  have hv : v = (hypVector fix σ s ls).map Flt.fin := by
    have hcov' : name ∈ getListFirst := listFirst_eq ▸ base_allowed' hn
    cases fix <;>
      simp [convertHyps, pyAssert, base_allowed' hn, hcov', getKey, HVal.scalar, bind,
        Except.bind, pure, Except.pure] at h1 <;> simp [hypVector, ← h1]
  have := h3 (.fin σ)
  rw [hv] at this
  rw [this]
  cases fix <;> simp

theorem restore_vec_iso {name : String} (hn : name ∈ baseNames) (fix : Bool) (σ s a : ℝ) :
    restoreHyps name ((hypVector fix σ s [a]).map Flt.fin) true false fix (.fin σ) =
      .ok { noise := some (.flt (.fin σ)), dof := none, signal := some (.flt (.fin s)),
            lengthscales := some (.flt (.fin a)) } := by
  have hcov' : name ∈ getListFirst := listFirst_eq ▸ base_allowed' hn
  cases fix <;> simp [hypVector, restoreHyps, pyAssert, base_allowed' hn, hcov', pyIndex, bind,
    Except.bind, pure, Except.pure]

/-- The claim of C29 about slot `k` of the vector `θ`, up to an error term: the slice `A` is
the derivative, at the current value, of the kernel matrix (noise and jitter included) that
`get_kernel_inverse` builds from the dictionary restored from the vector with entry `k`
replaced by `t`. -/
def SliceIsDerivative {n d : ℕ} (name : String) (X : Fin n → Point d) (ard fix : Bool) (σ : ℝ)
    (θ : List ℝ) (k : ℕ) (A err : Matrix (Fin n) (Fin n) ℝ) : Prop :=
  ∃ (x : ℝ) (M : ℝ → Matrix (Fin n) (Fin n) ℝ), θ[k]? = some x ∧
    (∀ᶠ t in 𝓝 x, ∃ h, restoreHyps name ((θ.set k t).map Flt.fin) true ard fix (.fin σ) = .ok h ∧
      noisyCov (.vec X) h name = .ok (M t)) ∧
    ∀ i j, HasDerivAt (fun t => M t i j) (A i j - err i j) x

private theorem noisy_entry {n d : ℕ} (name : String) (σ s : ℝ) (l : Fin d → ℝ)
    (X : Fin n → Point d) (i j : Fin n) : noisyGram name σ s l (.vec X) i j =
      kernel name s l (X i) (X j) + if i = j then σ ^ 2 + 1 / 100000 else 0 := by
  simp [noisyGram, gram, itemKernel_vec, Matrix.one_apply]

private theorem noise_slot {n d : ℕ} (name : String) (σ s : ℝ) (l : Fin d → ℝ)
    (X : Fin n → Point d) (i j : Fin n) :
    HasDerivAt (fun t => noisyGram name t s l (.vec X) i j)
      (((2 * σ) • (1 : Matrix (Fin n) (Fin n) ℝ)) i j - (0 : Matrix (Fin n) (Fin n) ℝ) i j) σ := by
  simp only [noisy_entry]
  by_cases hij : i = j
  · subst hij
    simp only [if_true]
    refine (((hasDerivAt_pow 2 σ).add_const (1 / 100000)).const_add _).congr_deriv ?_
    simp
  · simp only [hij, if_false]
    refine (hasDerivAt_const _ _).congr_deriv ?_
    simp [hij]

private theorem signal_slot {n d : ℕ} (name : String) (σ s : ℝ) (hs : s ≠ 0) (l : Fin d → ℝ)
    (X : Fin n → Point d) (i j : Fin n) :
    HasDerivAt (fun t => noisyGram name σ t l (.vec X) i j)
      ((Matrix.of fun i j => 2 * (kernel name s l (X i) (X j) +
        if i = j then 1 / 100000 else 0) / s : Matrix (Fin n) (Fin n) ℝ) i j -
        ((2 / 100000 / s) • (1 : Matrix (Fin n) (Fin n) ℝ)) i j) s := by
  simp only [noisy_entry]
  refine ((kernel_deriv_signal name s hs l (X i) (X j)).add_const _).congr_deriv ?_
  by_cases hij : i = j
  · subst hij
    simp only [Matrix.of_apply, if_true, Matrix.smul_apply, Matrix.one_apply_eq, smul_eq_mul]
    ring
  · simp [hij]

/-- C29, anisotropic lengthscales: `grad_cov_main` returns one slice per entry of the vector
of hyperparameters, and each slice is the derivative of the kernel matrix in that entry, but
for `2·1e-5/signal` on the diagonal of the slice of the signal. -/
theorem C29_ard_partial {n d : ℕ} {name : String} (hn : name ∈ baseNames) (X : Fin n → Point d)
    (fix : Bool) (σ s : ℝ) (hs : s ≠ 0) (l : Fin d → ℝ) (hl : ∀ k, l k ≠ 0) :
    ∃ h G, restoreHyps name ((hypVector fix σ s (List.ofFn l)).map Flt.fin) true true fix (.fin σ)
        = .ok h ∧
      gradCovMain name (.vec X) (.vec X) h fix = .ok G ∧
      G.length = (hypVector fix σ s (List.ofFn l)).length ∧
      ∀ k A, G[k]? = some A →
        SliceIsDerivative name X true fix σ (hypVector fix σ s (List.ofFn l)) k A
          (if k = (if fix then 0 else 1) then (2 / 100000 / s) • 1 else 0) := by
  have hde : ∀ σ s (l : Fin d → ℝ), (∀ k, l k ≠ 0) → Describes
      { noise := some (.flt (.fin σ)), dof := none, signal := some (.flt (.fin s)),
        lengthscales := some (.arr ((List.ofFn l).map Flt.fin)) } σ s l := fun σ s l hl =>
    ⟨rfl, rfl, .inl (by rw [List.map_ofFn]; rfl), hl⟩
  have hsu : Suits name name (Inputs.vec X) := ⟨hn, .inl ⟨rfl, X, rfl⟩⟩
  have hno : ∀ σ s (l : Fin d → ℝ), (∀ k, l k ≠ 0) →
      ∃ h, restoreHyps name ((hypVector fix σ s (List.ofFn l)).map Flt.fin) true true fix (.fin σ)
        = .ok h ∧ noisyCov (.vec X) h name = .ok (noisyGram name σ s l (.vec X)) :=
    fun σ s l hl => ⟨_, restore_vec hn fix σ s _, noisyCov_ok hsu (hde σ s l hl)⟩
  have hG := gradCovMain_ard hn (hde σ s l hl) hs (by rw [List.map_ofFn]; rfl) X fix
  refine ⟨_, _, restore_vec hn fix σ s _, hG, ?_, ?_⟩
  · cases fix <;> simp [gradHead, hypVector]
  -- the slots of signal and lengthscales, after dropping the noise
  have hsig : ∀ A, (gradHead name σ s l X true)[0]? = some A →
      ∀ i j, HasDerivAt (fun t => noisyGram name σ t l (.vec X) i j)
      (A i j - ((2 / 100000 / s) • (1 : Matrix (Fin n) (Fin n) ℝ)) i j) s := by
    intro A hA i j
    simp [gradHead] at hA
    rw [← hA]
    simpa using signal_slot name σ s hs l X i j
  have hlen : ∀ (k : ℕ) A, (List.ofFn fun k => (Matrix.of fun i j => s ^ 2 * (preProfile name
        (scaledDistance l (X i) (X j)) * ((X i k - X j k) ^ 2 / l k ^ 3)) :
          Matrix (Fin n) (Fin n) ℝ))[k]? = some A →
      ∃ hk : k < d, ∀ i j,
        HasDerivAt (fun t => noisyGram name σ s (Function.update l ⟨k, hk⟩ t) (.vec X) i j)
        (A i j - (0 : Matrix (Fin n) (Fin n) ℝ) i j) (l ⟨k, hk⟩) := by
    intro k A hA
    obtain ⟨hk, hA⟩ := List.getElem?_eq_some_iff.mp hA
    simp only [List.length_ofFn] at hk
    refine ⟨hk, fun i j => ?_⟩
    rw [← hA]
    simp only [noisy_entry]
    refine ((kernel_deriv_ard name s l hl (X i) (X j) ⟨k, hk⟩).add_const _).congr_deriv ?_
    simp
  have hev : ∀ (k : ℕ) (hk : k < d), ∀ᶠ t in 𝓝 (l ⟨k, hk⟩),
      ∀ j, Function.update l ⟨k, hk⟩ t j ≠ 0 := by
    intro k hk
    filter_upwards [isOpen_ne.mem_nhds (hl ⟨k, hk⟩)] with t ht j
    by_cases hj : j = ⟨k, hk⟩
    · subst hj; simpa using ht
    · rw [Function.update_of_ne hj]; exact hl j
  have hset : ∀ (k : ℕ) (hk : k < d) (t : ℝ),
      (List.ofFn l).set k t = List.ofFn (Function.update l ⟨k, hk⟩ t) := by
    intro k hk t
    refine List.ext_getElem (by simp) fun i h1 h2 => ?_
    by_cases hik : k = i
    · subst hik; simp
    · rw [List.getElem_set_ne hik, List.getElem_ofFn, List.getElem_ofFn,
        Function.update_of_ne (by simpa [Fin.ext_iff] using Ne.symm hik)]
  intro k A hA
  cases fix
  · match k, hA with
    | 0, hA =>
      simp [gradHead] at hA
      subst hA
      refine ⟨σ, fun t => noisyGram name t s l (.vec X), by simp [hypVector], ?_, ?_⟩
      · filter_upwards with t
        obtain ⟨h, h1, h2⟩ := hno t s l hl
        exact ⟨h, by simpa [hypVector, restoreHyps] using h1, h2⟩
      · intro i j
        simpa using noise_slot name σ s l X i j
    | 1, hA =>
      refine ⟨s, fun t => noisyGram name σ t l (.vec X), by simp [hypVector], ?_, ?_⟩
      · filter_upwards with t
        simpa [hypVector] using hno σ t l hl
      · intro i j
        have := hsig A (by simpa [gradHead] using hA) i j
        simpa using this
    | k + 2, hA =>
      obtain ⟨hk, hder⟩ := hlen k A (by simpa [gradHead] using hA)
      refine ⟨l ⟨k, hk⟩, fun t => noisyGram name σ s (Function.update l ⟨k, hk⟩ t) (.vec X), ?_,
        ?_, ?_⟩
      · simp [hypVector, hk]
      · filter_upwards [hev k hk] with t ht
        simpa [hypVector, hset k hk t] using hno σ s _ ht
      · intro i j
        simpa using hder i j
  · match k, hA with
    | 0, hA =>
      refine ⟨s, fun t => noisyGram name σ t l (.vec X), by simp [hypVector], ?_, ?_⟩
      · filter_upwards with t
        simpa [hypVector] using hno σ t l hl
      · intro i j
        have := hsig A (by simpa [gradHead] using hA) i j
        simpa using this
    | k + 1, hA =>
      obtain ⟨hk, hder⟩ := hlen k A (by simpa [gradHead] using hA)
      refine ⟨l ⟨k, hk⟩, fun t => noisyGram name σ s (Function.update l ⟨k, hk⟩ t) (.vec X), ?_,
        ?_, ?_⟩
      · simp [hypVector, hk]
      · filter_upwards [hev k hk] with t ht
        simpa [hypVector, hset k hk t] using hno σ s _ ht
      · intro i j
        simpa using hder i j

/-- C29, one lengthscale for all dimensions. -/
theorem C29_iso_partial {n d : ℕ} {name : String} (hn : name ∈ baseNames) (X : Fin n → Point d)
    (fix : Bool) (σ s a : ℝ) (hs : s ≠ 0) (ha : a ≠ 0) :
    ∃ h G, restoreHyps name ((hypVector fix σ s [a]).map Flt.fin) true false fix (.fin σ)
        = .ok h ∧
      gradCovMain name (.vec X) (.vec X) h fix = .ok G ∧
      G.length = (hypVector fix σ s [a]).length ∧
      ∀ k A, G[k]? = some A →
        SliceIsDerivative name X false fix σ (hypVector fix σ s [a]) k A
          (if k = (if fix then 0 else 1) then (2 / 100000 / s) • 1 else 0) := by
  have hde : ∀ σ s a, a ≠ 0 → Describes
      { noise := some (.flt (.fin σ)), dof := none, signal := some (.flt (.fin s)),
        lengthscales := some (.flt (.fin a)) } σ s (fun _ : Fin d => a) := fun σ s a ha =>
    ⟨rfl, rfl, .inr ⟨a, ha, fun _ => rfl, rfl⟩, fun _ => ha⟩
  have hsu : Suits name name (Inputs.vec X) := ⟨hn, .inl ⟨rfl, X, rfl⟩⟩
  have hno : ∀ σ s a, a ≠ 0 →
      ∃ h, restoreHyps name ((hypVector fix σ s [a]).map Flt.fin) true false fix (.fin σ)
        = .ok h ∧ noisyCov (.vec X) h name = .ok (noisyGram name σ s (fun _ => a) (.vec X)) :=
    fun σ s a ha => ⟨_, restore_vec_iso hn fix σ s a, noisyCov_ok hsu (hde σ s a ha)⟩
  have hG := gradCovMain_iso hn (hde σ s a ha) hs rfl X fix
  refine ⟨_, _, restore_vec_iso hn fix σ s a, hG, ?_, ?_⟩
  · cases fix <;> simp [gradHead, hypVector]
  have hsig : ∀ A, (gradHead name σ s (fun _ => a) X true)[0]? = some A →
      ∀ i j, HasDerivAt (fun t => noisyGram name σ t (fun _ => a) (.vec X) i j)
      (A i j - ((2 / 100000 / s) • (1 : Matrix (Fin n) (Fin n) ℝ)) i j) s := by
    intro A hA i j
    simp [gradHead] at hA
    rw [← hA]
    simpa using signal_slot name σ s hs (fun _ => a) X i j
  have hlen : ∀ i j, HasDerivAt (fun t => noisyGram name σ s (fun _ => t) (.vec X) i j)
      (s ^ 2 * (preProfile name (scaledDistance (fun _ => a) (X i) (X j)) *
        (scaledDistance (fun _ => a) (X i) (X j) ^ 2 / a))) a := by
    intro i j
    simp only [noisy_entry]
    exact (kernel_deriv_iso name s a ha (X i) (X j)).add_const _
  have hev : ∀ᶠ t in 𝓝 a, t ≠ 0 := isOpen_ne.mem_nhds ha
  intro k A hA
  cases fix
  · match k, hA with
    | 0, hA =>
      simp [gradHead] at hA
      subst hA
      refine ⟨σ, fun t => noisyGram name t s (fun _ => a) (.vec X), by simp [hypVector], ?_, ?_⟩
      · filter_upwards with t
        obtain ⟨h, h1, h2⟩ := hno t s a ha
        exact ⟨h, by simpa [hypVector, restoreHyps] using h1, h2⟩
      · intro i j
        simpa using noise_slot name σ s (fun _ => a) X i j
    | 1, hA =>
      refine ⟨s, fun t => noisyGram name σ t (fun _ => a) (.vec X), by simp [hypVector], ?_, ?_⟩
      · filter_upwards with t
        simpa [hypVector] using hno σ t a ha
      · intro i j
        have := hsig A (by simpa [gradHead] using hA) i j
        simpa using this
    | 2, hA =>
      simp [gradHead] at hA
      refine ⟨a, fun t => noisyGram name σ s (fun _ => t) (.vec X), by simp [hypVector], ?_, ?_⟩
      · filter_upwards [hev] with t ht
        simpa [hypVector] using hno σ s t ht
      · intro i j
        rw [← hA]
        simpa using hlen i j
    | k + 3, hA => simp [gradHead] at hA
  · match k, hA with
    | 0, hA =>
      refine ⟨s, fun t => noisyGram name σ t (fun _ => a) (.vec X), by simp [hypVector], ?_, ?_⟩
      · filter_upwards with t
        simpa [hypVector] using hno σ t a ha
      · intro i j
        have := hsig A (by simpa [gradHead] using hA) i j
        simpa using this
    | 1, hA =>
      simp [gradHead] at hA
      refine ⟨a, fun t => noisyGram name σ s (fun _ => t) (.vec X), by simp [hypVector], ?_, ?_⟩
      · filter_upwards [hev] with t ht
        simpa [hypVector] using hno σ s t ht
      · intro i j
        rw [← hA]
        simpa using hlen i j
    | k + 2, hA => simp [gradHead] at hA

/-- C29 fails as a statement about every entry: the signal slice is never the derivative of
the kernel matrix, whatever the (non-empty) data. -/
theorem C29_signal_violated {n d : ℕ} [NeZero n] {name : String} (hn : name ∈ baseNames)
    (X : Fin n → Point d) (fix : Bool) (σ s : ℝ) (hs : s ≠ 0) (l : Fin d → ℝ)
    (hl : ∀ k, l k ≠ 0) :
    ∃ h G A, restoreHyps name ((hypVector fix σ s (List.ofFn l)).map Flt.fin) true true fix
        (.fin σ) = .ok h ∧
      gradCovMain name (.vec X) (.vec X) h fix = .ok G ∧ G[if fix then 0 else 1]? = some A ∧
      ¬ SliceIsDerivative name X true fix σ (hypVector fix σ s (List.ofFn l))
        (if fix then 0 else 1) A 0 := by
  obtain ⟨h, G, h1, h2, h3, h4⟩ := C29_ard_partial hn X fix σ s hs l hl
  have hlt : (if fix then 0 else 1) < G.length := by
    rw [h3]; cases fix <;> simp [hypVector]
  refine ⟨h, G, G[if fix then 0 else 1], h1, h2, List.getElem?_eq_getElem hlt, ?_⟩
  rintro ⟨x, M, hx, hM, hder⟩
  obtain ⟨x', M', hx', hM', hder'⟩ := h4 _ _ (List.getElem?_eq_getElem hlt)
  have : x' = x := by rw [hx] at hx'; exact (Option.some.inj hx').symm
  subst this
  have heq : ∀ᶠ t in 𝓝 x', M t = M' t := by
    filter_upwards [hM, hM'] with t ⟨a, ha, hb⟩ ⟨a', ha', hb'⟩
    rw [ha] at ha'
    cases ha'
    rw [hb] at hb'
    exact Except.ok.inj hb'
  have e1 := hder 0 0
  have e2 := (hder' 0 0).congr_of_eventuallyEq
    (f₁ := fun t => M t 0 0) (heq.mono fun t ht => by simp [ht])
  have := e1.unique e2
  simp at this
  have h0 : 2 / 100000 / s ≠ 0 := by positivity
  exact h0 (by linarith)

/-- Concrete case of C29: three points in the plane, one repeated. -/
example : "matern52" ∈ baseNames ∧ (2 : ℝ) ≠ 0 ∧ ∀ k, (![1, 3] : Fin 2 → ℝ) k ≠ 0 :=
  ⟨by simp [baseNames], by norm_num, by intro k; fin_cases k <;> simp⟩

/-- The vector is the one `convert_hyps` makes of the dictionary. -/
theorem C29_order {name : String} (hn : name ∈ baseNames) (fix : Bool) (σ s : ℝ) (ls : List ℝ) :
    convertHyps name ⟨some (.flt (.fin σ)), none, some (.flt (.fin s)), some (.arr (ls.map Flt.fin))⟩ true fix =
      .ok ((hypVector fix σ s ls).map Flt.fin) ∧
    (∀ a, ls = [a] → convertHyps name ⟨some (.flt (.fin σ)), none, some (.flt (.fin s)),
        some (.flt (.fin a))⟩ true fix =
      .ok ((hypVector fix σ s ls).map Flt.fin)) := by
  have hcov' : name ∈ getListFirst := listFirst_eq ▸ base_allowed' hn
  constructor
  · cases fix <;> simp [convertHyps, pyAssert, base_allowed' hn, hcov', getKey, HVal.scalar, bind,
      Except.bind, pure, Except.pure, hypVector]
  · rintro a rfl
    cases fix <;> simp [convertHyps, pyAssert, base_allowed' hn, hcov', getKey, HVal.scalar, bind,
      Except.bind, pure, Except.pure, hypVector]

end Verif.Props
