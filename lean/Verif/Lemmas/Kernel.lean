import Verif.Lemmas.Covariance
import Verif.Lemmas.Profiles
import Verif.Lemmas.Cholesky
import Verif.Spec.Inputs

/-! Kernel matrices of training inputs in closed form. -/

namespace Verif.Lemmas

open Verif.Spec Verif.Covariance Verif.UtilsCovariance Verif.Constants

theorem suits_cases {n m d : ℕ} {name base : String} {X : Inputs n d} {Y : Inputs m d}
    (hX : Suits name base X) (hY : Suits name base Y) :
    base ∈ baseNames ∧ ((name = base ∧ ∃ x y, X = .vec x ∧ Y = .vec y) ∨
      (name = "set_" ++ base ∧ ∃ p x q y, p ≠ 0 ∧ q ≠ 0 ∧ X = .set p x ∧ Y = .set q y)) := by
  obtain ⟨hb, hX⟩ := hX
  obtain ⟨-, hY⟩ := hY
  have hne : base ≠ "set_" ++ base := by
    intro h
    have := (setName hb).2.1
    rw [← h] at this
    exact this hb
  rcases hX with ⟨rfl, x, rfl⟩ | ⟨rfl, p, x, hp, rfl⟩
  · rcases hY with ⟨-, y, rfl⟩ | ⟨h, -⟩
    · exact ⟨hb, .inl ⟨rfl, x, y, rfl, rfl⟩⟩
    · exact absurd h hne
  · rcases hY with ⟨h, -⟩ | ⟨-, q, y, hq, rfl⟩
    · exact absurd h.symm hne
    · exact ⟨hb, .inr ⟨rfl, p, x, q, y, hp, hq, rfl, rfl⟩⟩

theorem itemKernel_vec {n m d : ℕ} (base : String) (s : ℝ) (l : Fin d → ℝ) (x : Fin n → Point d)
    (y : Fin m → Point d) (i : Fin n) (j : Fin m) :
    itemKernel base s l (item (.vec x) i) (item (.vec y) j) = kernel base s l (x i) (y j) := by
  simp [itemKernel, item, setKernel_singleton]

/-- `cov_main` on suitable inputs declared different. -/
theorem covMain_diff {n m d : ℕ} {name base : String} {X : Inputs n d} {Y : Inputs m d}
    (hX : Suits name base X) (hY : Suits name base Y) {h : HypDict} {σ s : ℝ} {l : Fin d → ℝ}
    (hd : Describes h σ s l) (jit : ℝ) :
    covMain name X Y h false jit = .ok (gram base s l X Y) := by
  obtain ⟨hb, ⟨rfl, x, y, rfl, rfl⟩ | ⟨rfl, p, x, q, y, hp, hq, rfl, rfl⟩⟩ := suits_cases hX hY
  · rw [covMain_base hb hd x y false (by simp)]
    congr 1
    ext i j
    simp [gram, itemKernel_vec]
  · rw [covMain_set hb hd x y hp hq]
    rfl

/-- `cov_main` on suitable inputs declared the same. -/
theorem covMain_same {n d : ℕ} {name base : String} {X : Inputs n d}
    (hX : Suits name base X) {h : HypDict} {σ s : ℝ} {l : Fin d → ℝ}
    (hd : Describes h σ s l) (jit : ℝ) :
    covMain name X X h true jit =
      .ok (gram base s l X X + jit • (1 : Matrix (Fin n) (Fin n) ℝ)) := by
  obtain ⟨hb, ⟨rfl, x, rfl⟩ | ⟨rfl, p, x, hp, rfl⟩⟩ := hX
  · rw [covMain_base hb hd x x true (fun _ => rfl)]
    congr 1
    ext i j
    simp [gram, itemKernel_vec, Matrix.one_apply, Fin.ext_iff, add_comm]
  · rw [covMain_set_same hb hd x hp]
    congr 1
    ext i j
    simp [gram, itemKernel, item, Matrix.one_apply, add_comm]

theorem gram_symm {n m d : ℕ} (base : String) (s : ℝ) (l : Fin d → ℝ) (X : Inputs n d)
    (Y : Inputs m d) (i : Fin n) (j : Fin m) :
    gram base s l X Y i j = gram base s l Y X j i := by
  simp [gram, itemKernel, setKernel_symm base s l (item X i).2]

theorem gram_posSemidef {n d : ℕ} (base : String) (s : ℝ) (l : Fin d → ℝ) (X : Inputs n d) :
    (gram base s l X X).PosSemidef := by
  refine posSemidef_of_quad (fun i j => gram_symm _ _ _ _ _ _ _) fun c => ?_
  exact setKernel_quad base s l (fun i => (item X i).1) (fun i => (item X i).2) c

theorem noisyGram_symm {n d : ℕ} (base : String) (σ s : ℝ) (l : Fin d → ℝ) (X : Inputs n d)
    (i j : Fin n) : noisyGram base σ s l X i j = noisyGram base σ s l X j i := by
  simp [noisyGram, gram_symm base s l X X i j, Matrix.one_apply, eq_comm]

theorem noisyGram_posDef {n d : ℕ} (base : String) (σ s : ℝ) (l : Fin d → ℝ) (X : Inputs n d) :
    (noisyGram base σ s l X).PosDef := by
  unfold noisyGram
  exact Matrix.PosDef.posSemidef_add (gram_posSemidef base s l X)
    (Matrix.PosDef.one.smul (by positivity))

theorem noisyCov_ok {n d : ℕ} {name base : String} {X : Inputs n d} (hX : Suits name base X)
    {h : HypDict} {σ s : ℝ} {l : Fin d → ℝ} (hd : Describes h σ s l) :
    noisyCov X h name = .ok (noisyGram base σ s l X) := by
  have hno : numKey h.noise = .ok σ := by rw [hd.noise]; exact numKey_fin σ
  simp only [noisyCov, covMain_same hX hd, hno, bind, Except.bind, pure, Except.pure]
  congr 1
  ext i j
  have hs := gram_symm base s l X X i j
  by_cases hij : i = j
  · subst hij
    simp [noisyGram, npEye, JITTER_COV]
    norm_num
    ring
  · have h1 : ¬ i.val = j.val := fun h => hij (Fin.ext h)
    have h2 : ¬ j.val = i.val := fun h => hij (Fin.ext h.symm)
    simp [noisyGram, npEye, hij, Ne.symm hij, h1, h2, hs]

theorem checkStrCov_suits {n d : ℕ} {name base : String} {X : Inputs n d}
    (hX : Suits name base X) : checkStrCov name X.rank = .ok () := by
  obtain ⟨hb, ⟨rfl, x, rfl⟩ | ⟨rfl, p, x, hp, rfl⟩⟩ := hX
  · simp [checkStrCov, base_allowed hb, Inputs.rank, pyAssert, bind, Except.bind, pure,
      Except.pure]
  · obtain ⟨_, h2, h3, _⟩ := setName hb
    simp only [checkStrCov, h2, h3, Inputs.rank, pyAssert, bind, Except.bind, pure,
      Except.pure, if_true, if_false]

theorem checkStrCov_suits2 {n m d : ℕ} {name base : String} {X : Inputs n d} {Y : Inputs m d}
    (hX : Suits name base X) (hY : Suits name base Y) :
    checkStrCov name X.rank (some Y.rank) = .ok () := by
  obtain ⟨hb, ⟨rfl, x, y, rfl, rfl⟩ | ⟨rfl, p, x, q, y, hp, hq, rfl, rfl⟩⟩ := suits_cases hX hY
  · simp [checkStrCov, base_allowed hb, Inputs.rank, pyAssert, bind, Except.bind]
  · obtain ⟨_, h2, h3, _⟩ := setName hb
    simp only [checkStrCov, h2, h3, Inputs.rank, pyAssert, bind, Except.bind, if_true, if_false]

/-- `get_kernel_inverse` without gradients. -/
theorem getKernelInverse_ok {n d : ℕ} {name base : String} {X : Inputs n d}
    (hX : Suits name base X) {h : HypDict} {σ s : ℝ} {l : Fin d → ℝ} (hd : Describes h σ s l)
    (fix_noise : Bool) :
    getKernelInverse X h name fix_noise false =
      .ok (noisyGram base σ s l X, (noisyGram base σ s l X)⁻¹, none) := by
  have hdet : (noisyGram base σ s l X).det ≠ 0 := (noisyGram_posDef base σ s l X).det_pos.ne'
  simp [getKernelInverse, checkStrCov_suits hX, noisyCov_ok hX hd, npInv, hdet, bind, Except.bind,
    pure, Except.pure]

theorem spCholesky_posDef {n : ℕ} {A : Matrix (Fin n) (Fin n) ℝ} (hA : A.PosDef) :
    ∃ L, spCholesky A = .ok L ∧ IsCholesky A L := by
  have hs : ∀ i j, A i j = A j i := by
    intro i j
    have := congrFun (congrFun hA.isHermitian j) i
    simpa using this
  have h : ∃ L, IsCholesky A L := exists_cholesky A hs (quadPos_of_posDef hA)
  exact ⟨h.choose, by simp [spCholesky, h], h.choose_spec⟩

/-- `get_kernel_cholesky` without gradients. -/
theorem getKernelCholesky_ok {n d : ℕ} {name base : String} {X : Inputs n d}
    (hX : Suits name base X) {h : HypDict} {σ s : ℝ} {l : Fin d → ℝ} (hd : Describes h σ s l)
    (fix_noise : Bool) : ∃ L, IsCholesky (noisyGram base σ s l X) L ∧
    getKernelCholesky X h name fix_noise false = .ok (noisyGram base σ s l X, L, none) := by
  obtain ⟨L, hL, hc⟩ := spCholesky_posDef (noisyGram_posDef base σ s l X)
  refine ⟨L, hc, ?_⟩
  simp [getKernelCholesky, checkStrCov_suits hX, noisyCov_ok hX hd, choleskyLoop, jitters, hL,
    bind, Except.bind, pure, Except.pure]

end Verif.Lemmas
