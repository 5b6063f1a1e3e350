import Verif.Lemmas.ImprovementChance
import Verif.Props.EndToEnd

/-! # Choices by the probability of improvement (C148) -/

namespace Verif.Props

open Verif.Spec Verif.Covariance Verif.UtilsCovariance Verif.Lemmas Verif.Acquisition
  Verif.Constants Verif.WrapperClass Verif.WrappersBo Verif.UtilsBo Verif.BaseBo
open Matrix hiding gram

variable {d n : ℕ}

/-- Scores of two predictions by `pi`. -/
private theorem pi_pair {mu sd : Fin 2 → ℝ} (h0 : 0 < sd 0) (h1 : 0 < sd 1) {Y : List ℝ} {b : ℝ}
    (hb : IsBest Y b) : pi (List.ofFn mu) (List.ofFn sd) Y =
      .ok [normCdf ((b - mu 0) / (sd 0 + JITTER_ACQ)), normCdf ((b - mu 1) / (sd 1 + JITTER_ACQ))] := by
  have hJ : 0 < JITTER_ACQ := by norm_num [JITTER_ACQ]
  rw [pi_eq _ _ _ _ b (by simp) hb (by
    intro s hs
    obtain ⟨i, rfl⟩ := List.mem_ofFn.1 hs
    fin_cases i
    · exact add_pos h0 hJ
    · exact add_pos h1 hJ)]
  simp [List.ofFn_succ]

private theorem best_same (hn : 1 ≤ n) (y : ℝ) : IsBest (List.ofFn fun _ : Fin n => y) y := by
  refine ⟨List.mem_ofFn.2 ⟨⟨0, hn⟩, rfl⟩, fun v hv => ?_⟩
  obtain ⟨j, rfl⟩ := List.mem_ofFn.1 hv
  exact le_rfl

/-- The comparison behind C148, for deviations scaled by `w`. -/
private theorem chance_lt {base : String} {σ s : ℝ} {l : Fin d → ℝ} (hl : ∀ k, l k ≠ 0) (hs : s ≠ 0)
    {c y w : ℝ} (hw : 0 < w) (hy : y < c) (hn : 1 ≤ n) {a z : Point d} (hz : z ≠ a) {mu sd : Fin 2 → ℝ}
    (h : ∀ i, mu i = c + n * kernel base s l a (![a, z] i) * (y - c) /
        (n * s ^ 2 + (σ ^ 2 + 1 / 100000)) ∧
      0 < sd i ∧ sd i ^ 2 = s ^ 2 + 1 / 100000 -
        n * kernel base s l a (![a, z] i) ^ 2 / (n * s ^ 2 + (σ ^ 2 + 1 / 100000))) :
    (y - mu 1) / (w * sd 1 + JITTER_ACQ) < (y - mu 0) / (w * sd 0 + JITTER_ACQ) := by
  obtain ⟨a1, a2, a3⟩ := h 0
  obtain ⟨b1, b2, b3⟩ := h 1
  simp only [Matrix.cons_val_zero, Matrix.cons_val_one, kernel_self] at a1 a3 b1 b3
  have hN : (0 : ℝ) < n := by exact_mod_cast hn
  have key := shortfall_lt (w := w) (J := JITTER_ACQ) (show 0 < σ ^ 2 + 1 / 100000 by positivity)
    (by norm_num) hN (kernel_nonneg base s l a z) (kernel_lt_of_ne hs hl hz) a2 b2 hw
    (by norm_num [JITTER_ACQ]) a3 b3
  have hc : 0 < c - y := by linarith
  have e0 : y - mu 0 = -((c - y) * (1 - n * s ^ 2 / (n * s ^ 2 + (σ ^ 2 + 1 / 100000)))) := by
    rw [a1]
    ring
  have e1 : y - mu 1 = -((c - y) * (1 - n * kernel base s l a z / (n * s ^ 2 + (σ ^ 2 + 1 / 100000)))) := by
    rw [b1]
    ring
  have := mul_lt_mul_of_pos_left key hc
  rw [← mul_div_assoc, ← mul_div_assoc] at this
  rw [e0, e1, neg_div, neg_div]
  exact neg_lt_neg this

/-- C148: when all responses so far were made at one input and are equal, below the (constant) prior
mean, this input has the highest score by `pi` of all points: whatever the kernel, the
hyperparameters and the number of responses. -/
theorem C148_next {base : String} (hb : base ∈ baseNames) {h : HypDict} {σ s : ℝ} {l : Fin d → ℝ}
    (hd : Describes h σ s l) (hs : s ≠ 0) {prior : Gp.PriorMu d} {c : ℝ}
    (hm : PriorFunction prior fun _ => c) {y : ℝ} (hy : y < c) (hn : 1 ≤ n) {a z : Point d}
    (hz : z ≠ a) : ∃ mu sd S v v',
      Gp.predictWithHyps (.vec fun _ : Fin n => a) (fun _ => y) (.vec ![a, z]) h base prior =
        .ok (mu, sd, S) ∧
      pi (List.ofFn mu) (List.ofFn sd) (List.ofFn fun _ : Fin n => y) = .ok [v, v'] ∧ v' < v := by
  have hv : ∀ {n : ℕ} (v : Fin n → Point d), Suits base base (.vec v) :=
    fun v => ⟨hb, .inl ⟨rfl, _, rfl⟩⟩
  obtain ⟨mu, sd, S, hp⟩ : ∃ mu sd S, Gp.predictWithHyps (.vec fun _ : Fin n => a) (fun _ => y)
      (.vec ![a, z]) h base prior = .ok (mu, sd, S) :=
    ⟨_, _, _, predictWithHyps_ok (hv _) (hv _) hd _ (hm _ _) (hm _ _)⟩
  have hq := same_predicted hb hd hm a y hp
  have := chance_lt (w := 1) (σ := σ) hd.nonzero hs one_pos hy hn hz hq
  rw [one_mul, one_mul] at this
  exact ⟨mu, sd, S, _, _, hp, pi_pair (hq 0).2.1 (hq 1).2.1 (best_same hn y), normCdf_strictMono this⟩

/-- C148: the same with the Student-t process. -/
theorem C148_next_student {base : String} (hb : base ∈ baseNames) {h : HypDict} {σ s : ℝ}
    {l : Fin d → ℝ} (hd : Describes h σ s l) (hs : s ≠ 0) {ν : ℝ} (hν : 2 < ν)
    (hdof : h.dof = some (.flt (.fin ν))) {prior : Gp.PriorMu d} {c : ℝ}
    (hm : PriorFunction prior fun _ => c) {y : ℝ} (hy : y < c) (hn : 1 ≤ n) {a z : Point d}
    (hz : z ≠ a) : ∃ ν' mu sd S v v',
      Tp.predictWithHyps (.vec fun _ : Fin n => a) (fun _ => y) (.vec ![a, z]) h base prior =
        .ok (ν', mu, sd, S) ∧
      pi (List.ofFn mu) (List.ofFn sd) (List.ofFn fun _ : Fin n => y) = .ok [v, v'] ∧ v' < v := by
  obtain ⟨mu, sd, S, μ, e, hp, -, -, he, h2⟩ := student_predicted hb hd hν hdof
    (PriorFunction.total hm) (fun _ : Fin n => a) (fun _ => y) ![a, z]
  have hq := same_predicted hb hd hm a y hp
  have hw := Real.sqrt_pos.2 he
  have := chance_lt (w := √e) (σ := σ) hd.nonzero hs hw hy hn hz hq
  exact ⟨_, _, _, _, _, _, h2, pi_pair (sd := fun i => √e * sd i) (mul_pos hw (hq 0).2.1)
    (mul_pos hw (hq 1).2.1) (best_same hn y), normCdf_strictMono this⟩

/-- C148: so a search by `pi` that starts at `a`, where the value is below the prior mean, chooses
`a` forever, in whatever region, whatever the values elsewhere, and with whatever hyperparameters for
each choice. -/
theorem C148_forever {base : String} (hb : base ∈ baseNames) {h : ℕ → HypDict} {σ s : ℕ → ℝ}
    {l : ℕ → Fin d → ℝ} (hd : ∀ n, Describes (h n) (σ n) (s n) (l n)) (hs : ∀ n, s n ≠ 0)
    {prior : Gp.PriorMu d} {c : ℝ} (hm : PriorFunction prior fun _ => c) {C : Set (Point d)}
    {f : Point d → ℝ} {x : ℕ → Point d} (hx : x 0 ∈ C) (hf : f (x 0) < c) :
    (∀ n ≥ 1, x n ∈ C ∧ ChosenBy (fun mu sd Y => pi mu sd Y) C x (fun i => f (x i)) (h n) base prior
      0 n) ↔ ∀ n, x n = x 0 := by
  constructor
  · intro hch n
    induction n using Nat.strong_induction_on with
    | _ n ih =>
      rcases Nat.eq_zero_or_pos n with rfl | hn
      · rfl
      by_contra hne
      obtain ⟨mu, sd, S, v, v', h1, h2, h3⟩ := (hch n hn).2 (x 0) hx
      have e1 : (fun i : Fin n => x i) = fun _ => x 0 := funext fun i => ih i i.2
      have e2 : (fun i : Fin n => f (x i)) = fun _ => f (x 0) := funext fun i => by rw [ih i i.2]
      rw [e1, e2] at h1
      beta_reduce at h2
      rw [e2] at h2
      have hq := same_predicted hb (hd n) hm (x 0) (f (x 0)) h1
      have hq' : ∀ i : Fin 2, mu (![1, 0] i) = c + n * kernel base (s n) (l n) (x 0) (![x 0, x n] i) *
          (f (x 0) - c) / (n * s n ^ 2 + (σ n ^ 2 + 1 / 100000)) ∧
          0 < sd (![1, 0] i) ∧ sd (![1, 0] i) ^ 2 = s n ^ 2 + 1 / 100000 -
          n * kernel base (s n) (l n) (x 0) (![x 0, x n] i) ^ 2 /
            (n * s n ^ 2 + (σ n ^ 2 + 1 / 100000)) := by
        intro i
        fin_cases i
        · exact hq 1
        · exact hq 0
      have := chance_lt (w := 1) (σ := σ n) (hd n).nonzero (hs n) one_pos hf hn hne hq'
      simp only [one_mul, Matrix.cons_val_zero, Matrix.cons_val_one] at this
      rw [pi_pair (hq 0).2.1 (hq 1).2.1 (best_same hn _)] at h2
      simp only [Except.ok.injEq, List.cons.injEq, and_true] at h2
      obtain ⟨rfl, rfl⟩ := h2
      have := normCdf_strictMono this
      linarith
  · intro hx0 n hn
    rw [hx0 n]
    refine ⟨hx, fun z hz => ?_⟩
    rw [hx0 n]
    have e1 : (fun i : Fin n => x i) = fun _ => x 0 := funext fun i => hx0 i
    have e2 : (fun i : Fin n => f (x i)) = fun _ => f (x 0) := funext fun i => by rw [hx0 i]
    rw [e1]
    beta_reduce
    rw [e2]
    by_cases hza : z = x 0
    · subst hza
      have hv : ∀ {n : ℕ} (v : Fin n → Point d), Suits base base (.vec v) :=
        fun v => ⟨hb, .inl ⟨rfl, _, rfl⟩⟩
      obtain ⟨mu, sd, S, hp⟩ : ∃ mu sd S, Gp.predictWithHyps (.vec fun _ : Fin n => x 0)
          (fun _ => f (x 0)) (.vec ![x 0, x 0]) (h n) base prior = .ok (mu, sd, S) :=
        ⟨_, _, _, predictWithHyps_ok (hv _) (hv _) (hd n) _ (hm _ _) (hm _ _)⟩
      obtain ⟨a1, a2, a3⟩ := same_predicted hb (hd n) hm (x 0) (f (x 0)) hp 0
      obtain ⟨b1, b2, b3⟩ := same_predicted hb (hd n) hm (x 0) (f (x 0)) hp 1
      simp only [Matrix.cons_val_zero, Matrix.cons_val_one] at a1 a3 b1 b3
      have e3 : sd 0 = sd 1 := by
        rw [← b3] at a3
        exact (pow_left_inj₀ a2.le b2.le two_ne_zero).1 a3
      refine ⟨mu, sd, S, _, _, hp, pi_pair a2 b2 (best_same hn _), ?_⟩
      rw [e3, a1, b1, add_zero]
    · obtain ⟨mu, sd, S, v, v', h1, h2, h3⟩ := C148_next hb (hd n) (hs n) hm hf hn hza
      exact ⟨mu, sd, S, v, v', h1, h2, by linarith⟩

/-- C148: so, other than with `ei` (C125), the best response need not come close to the best value.
For every kernel with a signal, bound `B` of the norm and two points of a region, there is a function
of at most this norm whose values at the points are far apart, `B |s|` times one less the correlation
of the points, while a search by `pi` that starts at the worse point never leaves it. -/
theorem C148_violated {base : String} (hb : base ∈ baseNames) {h : HypDict} {σ s : ℝ}
    {l : Fin d → ℝ} (hd : Describes h σ s l) (hs : s ≠ 0) {B : ℝ} (hB : 0 < B) {C : Set (Point d)}
    {a b : Point d} (ha : a ∈ C) (hb' : b ∈ C) (hab : a ≠ b) :
    ∃ f : Point d → ℝ, NormAtMost base s l B f ∧
      f a - f b = B * |s| * (1 - kernel base s l a b / s ^ 2) ∧ 0 < f a - f b ∧
      (∃ x : ℕ → Point d, x 0 = a ∧ ∀ n ≥ 1, x n ∈ C ∧
        ChosenBy (fun mu sd Y => pi mu sd Y) C x (fun i => f (x i)) h base none 0 n) ∧
      ∀ x : ℕ → Point d, x 0 = a → (∀ n ≥ 1, x n ∈ C ∧
        ChosenBy (fun mu sd Y => pi mu sd Y) C x (fun i => f (x i)) h base none 0 n) →
        ∀ n, f (x n) = f b + (f a - f b) := by
  have hs0 : 0 < |s| := abs_pos.2 hs
  have hss : |s| * |s| = s ^ 2 := by rw [← sq, sq_abs]
  have hm : PriorFunction (none : Gp.PriorMu d) fun _ => 0 := fun n X => rfl
  have hk := kernel_lt_of_ne (base := base) hs hd.nonzero hab.symm
  have hgap : -(B / |s|) * kernel base s l b a - -(B / |s|) * kernel base s l b b =
      B * |s| * (1 - kernel base s l a b / s ^ 2) := by
    rw [kernel_symm base s l b a, kernel_self, ← hss]
    field_simp
    ring
  have hpos : 0 < B * |s| * (1 - kernel base s l a b / s ^ 2) := by
    have : kernel base s l a b / s ^ 2 < 1 := (div_lt_one (by positivity)).2 hk
    have : 0 < 1 - kernel base s l a b / s ^ 2 := by linarith
    positivity
  have hfa : -(B / |s|) * kernel base s l b a < 0 := by
    have := kernel_pos base hs l b a
    have : 0 < B / |s| * kernel base s l b a := by positivity
    linarith
  refine ⟨fun z => -(B / |s|) * kernel base s l b z, ?_, hgap, by rw [hgap]; exact hpos,
    ⟨fun _ => a, rfl, ?_⟩, fun x hx hch n => ?_⟩
  · have := (C123_norm base s l (fun _ : Fin 1 => b) (fun _ => -(B / |s|)) B).2 (by
      simp only [Finset.univ_unique, Finset.sum_singleton, kernel_self]
      rw [show -(B / |s|) * s ^ 2 * -(B / |s|) = B ^ 2 by rw [← hss]; field_simp, Real.sqrt_sq hB.le])
    simpa using this
  · exact (C148_forever (f := fun z => -(B / |s|) * kernel base s l b z) hb (fun _ => hd)
      (fun _ => hs) hm (x := fun _ => a) ha hfa).2 fun _ => rfl
  · have := (C148_forever (f := fun z => -(B / |s|) * kernel base s l b z) hb (fun _ => hd)
      (fun _ => hs) hm (x := x) (by rw [hx]; exact ha) (by rw [hx]; exact hfa)).1 hch n
    rw [this, hx]
    ring

/-- C148: what choices by `pi` do guarantee. For a function of norm at most `B` and exact responses,
the value at the choice exceeds the best one so far by at most twice `B` times the deviation
predicted there. -/
theorem C148_greedy {base : String} (hb : base ∈ baseNames) {h : HypDict} {σ s : ℝ}
    {l : Fin d → ℝ} (hd : Describes h σ s l) {prior : Gp.PriorMu d} {m : Point d → ℝ}
    (hm : PriorFunction prior m) {f : Point d → ℝ} {B : ℝ}
    (hf : NormAtMost base s l B fun z => f z - m z) {C : Set (Point d)} {x : ℕ → Point d}
    (hx : ∀ i < n, x i ∈ C)
    (hc : ChosenBy (fun mu sd Y => pi mu sd Y) C x (fun i => f (x i)) h base prior 0 n) {j : ℕ}
    (hj : j < n) {mu sd S} (hp : Gp.predictWithHyps (.vec fun i : Fin n => x i) (fun i => f (x i))
      (.vec fun _ : Fin 1 => x n) h base prior = .ok (mu, sd, S)) :
    f (x n) ≤ f (x j) + B * (2 * sd 0 + JITTER_ACQ) := by
  have hJ : 0 < JITTER_ACQ := by norm_num [JITTER_ACQ]
  obtain ⟨i, -, hi⟩ := Finset.exists_min_image (Finset.univ : Finset (Fin n)) (fun i => f (x i))
    ⟨⟨j, hj⟩, Finset.mem_univ _⟩
  have hbest : IsBest (List.ofFn fun i : Fin n => f (x i)) (f (x i)) := by
    refine ⟨List.mem_ofFn.2 ⟨i, rfl⟩, fun y hy => ?_⟩
    obtain ⟨j, rfl⟩ := List.mem_ofFn.1 hy
    exact hi j (Finset.mem_univ j)
  obtain ⟨mu', sd', S', v, v', h1, h2, h3⟩ := hc (x i) (hx i i.2)
  have hpr := PriorFunction.total hm
  have p0 := predicted_sq hb hd hpr h1 0
  have p1 := predicted_sq hb hd hpr h1 1
  have q0 := predicted_sq hb hd hpr hp 0
  have hsd : sd 0 = sd' 0 := by
    have a1 := p0.2
    have a2 := q0.2
    simp only [Matrix.cons_val_zero] at a1
    rw [← a1] at a2
    exact (pow_left_inj₀ q0.1.le p0.1.le two_ne_zero).1 a2
  have herr : ∀ t : Fin 2, |f (![x n, x i] t) - mu' t| ≤ B * sd' t := by
    intro t
    have := C123_error hb hd hm hf h1 t
    simp only [sub_self, ne_eq, OfNat.ofNat_ne_zero, not_false_eq_true, zero_pow,
      Finset.sum_const_zero, zero_div, add_zero, Real.sqrt_sq hf.1] at this
    refine this.trans (mul_le_mul_of_nonneg_left ?_ hf.1)
    have h0 : 0 ≤ sd' t := (predicted_sq hb hd hpr h1 t).1.le
    exact (Real.sqrt_le_sqrt (by linarith)).trans (Real.sqrt_sq h0).le
  have e0 := herr 0
  have e1 := herr 1
  simp only [Matrix.cons_val_zero, Matrix.cons_val_one] at e0 e1
  beta_reduce at h2
  rw [pi_pair p0.1 p1.1 hbest] at h2
  simp only [Except.ok.injEq, List.cons.injEq, and_true] at h2
  obtain ⟨rfl, rfl⟩ := h2
  rw [add_zero] at h3
  have h4 := normCdf_strictMono.le_iff_le.1 h3
  have h5 : -B ≤ (f (x i) - mu' 1) / (sd' 1 + JITTER_ACQ) := by
    rw [le_div_iff₀ (add_pos p1.1 hJ)]
    have a1 := (abs_le.1 e1).1
    have a2 := mul_nonneg hf.1 hJ.le
    linarith
  have h6 := h5.trans h4
  rw [le_div_iff₀ (add_pos p0.1 hJ)] at h6
  have h7 := (abs_le.1 e0).2
  have h8 := hi ⟨j, hj⟩ (Finset.mem_univ _)
  rw [hsd]
  linarith

/-- C148: whole runs. A run of an object that was asked for `pi` with a Gaussian process and a constant
prior mean, from rows that are all the same and whose response is below the prior mean, evaluates
nothing but this row: whatever the target does elsewhere, whatever hyperparameters are fitted, with or
without normalisation, with any of the optimisers, if they find the best point. -/
theorem C148_run {env : Installed} {a : Args d} {w : BayesianOptimization d} {st : ModelState}
    (hw : create env a = .ok (w, st)) (hgp : a.str_surrogate = "gp") (hacq : a.str_acq = "pi")
    (hcov : a.str_cov ∈ baseNames) {c : ℝ}
    (hm : PriorFunction a.prior_mu fun _ => c) {H : Set (ℝ × (Fin d → ℝ))}
    (hH : ∀ s l, (s, l) ∈ H → s ≠ 0 ∧ ∀ k, l k ≠ 0) {o : RunOracles d}
    (hfit : ∀ k, FitsIn H a.use_ard (o.routines k).fitHyps)
    (ho : ∀ k, FindsLowest (o.routines k) a.range_X) {clock : ℕ → ℝ}
    {target : ℕ → Point d → Py Flt} {x : Point d} (hx : InBox a.range_X x) {y : ℝ}
    (ht : ∀ k, target k x = .ok (.fin y)) (hy : y < c) {n T : ℕ} (hn : 1 ≤ n)
    {u u' : World d (ModelState × ℕ)} (hu : a.str_mlm_method = "converged" → FitsFrom H u.model.1.gp)
    {res : LoopSt d} (h : optimizeWithAllInitialInformation (runEnv w o clock target) T (List.replicate n x)
      (List.replicate n (.fin y)) u = (u', .ok res)) :
    res.X = List.replicate (n + T) x ∧ res.Y = List.replicate (n + T) (.fin y) := by
  obtain ⟨-, w1, h1, rfl⟩ := run_ok _ T _ _ u u' res h
  obtain ⟨ws, sts, h0, h0', hT, hT', hiter⟩ := classLoop_ok _ T _ _ _ _ h1
  have key : ∀ i ≤ T, ((sts i).X = List.replicate (n + i) x ∧
      (sts i).Y = List.replicate (n + i) (.fin y)) ∧
      (a.str_mlm_method = "converged" → FitsFrom H (ws i).model.1.gp) := by
    intro i
    induction i with
    | zero => exact fun _ => by rw [h0', h0]; exact ⟨⟨rfl, rfl⟩, hu⟩
    | succ i ih =>
      intro hi
      obtain ⟨⟨eX, eY⟩, hready⟩ := ih (by omega)
      obtain ⟨s', t', p, q, info, v, hq⟩ := hiter i hi
      have hst := hq.step
      have hc := hq.choice
      rw [eX, eY] at hst
      rw [eX] at hc
      have e1 : List.replicate (n + i) x = List.ofFn fun _ : Fin (n + i) => x := by simp
      have e2 : finites (List.replicate (n + i) (Flt.fin y)) = .ok (List.ofFn fun _ : Fin (n + i) => y) := by
        rw [← finites_map]
        simp
      simp only [runEnv, step, e2] at hst
      obtain ⟨hst1, hst2⟩ := Prod.mk.inj hst
      rw [e1] at hst1 hst2
      obtain ⟨-, Yt, hy', sg, l, b1, b2, b3, b4, score, b5, f, g, b6, b7, b8, b9, b10, b11⟩ :=
        step_scores hw hgp hcov hm continuous_const (fun s l hsl => (hH s l hsl).2) (hfit _)
          (by omega) (s := ((ws i).model.1, (ws i).tick + 1)) hready hst2
      have hlow := candidates_lowest (ho _) b6 b7 b8
      rw [hacq] at b5
      obtain rfl : (fun mu sd Y => pi mu sd Y) = score := Except.ok.inj b5
      have hn' : 1 ≤ n + i := by omega
      have hYt : Yt = fun _ => y := by
        funext j
        have hr : Set.range (fun _ : Fin (n + i) => y) = {y} := by
          have : Nonempty (Fin (n + i)) := ⟨j⟩
          exact Set.range_const
        rw [inUnits_eq (lo := y) (hi := y) (by rw [hr]; exact isLeast_singleton)
          (by rw [hr]; exact isGreatest_singleton) b1 j]
        simp [inUnits, minMaxImage]
      subst hYt
      have hall : ∀ r ∈ info.next_points, r = x := by
        intro r hr
        by_contra hne
        obtain ⟨mu, sd, S, v, v', c1, c2, c3⟩ := C148_next hcov b3 (hH _ _ b2).1 hm hy hn' hne
        obtain ⟨mu', sd', S', v1, v1', d1, d2, d3, d4⟩ := b11 x r
        rw [c1] at d1
        simp only [Except.ok.injEq, Prod.mk.injEq] at d1
        obtain ⟨rfl, rfl, rfl⟩ := d1
        beta_reduce at d2
        rw [c2] at d2
        simp only [Except.ok.injEq, List.cons.injEq, and_true] at d2
        obtain ⟨rfl, rfl⟩ := d2
        have := hlow r hr x hx
        linarith
      have hqx : q = x := by
        unfold getNextBestSample at hc
        split at hc
        · rcases C05_result_origin _ _ _ _ hc with ⟨h2, -⟩ | ⟨-, h2⟩
          · exact hall q h2
          · exact List.eq_of_mem_replicate (List.mem_of_getLast? h2)
        · have := Option.some.inj (Except.ok.inj hc)
          exact this ▸ hall p b9
      subst hqx
      have hv : v = .fin y := by
        have := hq.target
        simp only [runEnv, ht] at this
        exact (Except.ok.inj this).symm
      rw [hq.state, eX, eY, hv]
      refine ⟨⟨List.replicate_succ'.symm, List.replicate_succ'.symm⟩, fun _ => ?_⟩
      have hw1 : (ws (i + 1)).model.1.gp.historical_hyps =
          (ws i).model.1.gp.historical_hyps ++ [some hy'] := by
        rw [hq.world]
        show s'.1.gp.historical_hyps = _
        rw [← (Prod.mk.inj hst1).1]
        exact b4
      exact .inr ⟨hy', sg, l, by rw [hw1]; simp, b2, b3⟩
  have := (key T le_rfl).1
  rwa [hT'] at this

/-- C148: the same for runs from initial rows that the object draws itself, for instance a single
one. -/
theorem C148_optimize {env : Installed} {a : Args d} {w : BayesianOptimization d} {st : ModelState}
    (hw : create env a = .ok (w, st)) (hgp : a.str_surrogate = "gp") (hacq : a.str_acq = "pi")
    (hcov : a.str_cov ∈ baseNames) {c : ℝ}
    (hm : PriorFunction a.prior_mu fun _ => c) {H : Set (ℝ × (Fin d → ℝ))}
    (hH : ∀ s l, (s, l) ∈ H → s ≠ 0 ∧ ∀ k, l k ≠ 0) {o : RunOracles d}
    (hfit : ∀ k, FitsIn H a.use_ard (o.routines k).fitHyps)
    (ho : ∀ k, FindsLowest (o.routines k) a.range_X) {clock : ℕ → ℝ}
    {target : ℕ → Point d → Py Flt} {f : Point d → ℝ}
    (ht : ∀ k x, InBox a.range_X x → target k x = .ok (.fin (f x))) {r : Draws d} (hr : UnitDraws r)
    {num_init : ℤ} {n : ℕ} (hn : 1 ≤ n) {x : Point d}
    (hX : getInitials a.range_X r a.str_initial_method_bo num_init = .ok (List.replicate n x))
    (hf : f x < c) {u u' : World d (ModelState × ℕ)}
    (hu : a.str_mlm_method = "converged" → FitsFrom H u.model.1.gp) {res : LoopSt d}
    (h : optimize w o clock target r num_init u = (u', .ok res)) :
    (∀ z ∈ res.X, z = x) ∧ ∀ y ∈ res.Y, y = .fin (f x) := by
  obtain ⟨hbox, u1, u3, r2, h1, h2, h3, hu1, -⟩ := optimize_run hw ht hr hX h
  have hx : InBox a.range_X x := hbox x (by simp; omega)
  rw [List.map_replicate] at h1
  obtain ⟨a1, a2⟩ := C148_run hw hgp hacq hcov hm hH hfit ho hx (fun k => ht k x hx) hf hn (hu1 ▸ hu)
    h1
  rw [h2, h3, a1, a2]
  exact ⟨fun z hz => List.eq_of_mem_replicate hz, fun y hy => List.eq_of_mem_replicate hy⟩

/-! ### Examples -/

/-- C148 at work: on `exp (-|z|² / 2) - 2` over `[0, 10]²`, a run from `(0, 0)` evaluates nothing but
`(0, 0)`, where the function is highest. -/
example (T : ℕ) : ∃ w u res, create ⟨false, false⟩ (searchArgs "pi" T) = .ok (w, {}) ∧
    optimize w ⟨fun _ => lowRoutines, fun _ => exForest.forest⟩ (fun k => k)
      (fun _ x => .ok (.fin (bump x - 2))) lowRoutines.draws 1 ⟨({}, 0), 0, []⟩ = (u, .ok res) ∧
    res.X.length = T + 2 ∧ (∀ z ∈ res.X, z = fun _ => 0) ∧
    ∀ z : Point 2, bump z - 2 ≤ bump (fun _ => 0) - 2 := by
  obtain ⟨hdraws, ⟨w, hw⟩, hrun, hwell⟩ := search_object (acq := "pi") (by decide) T
  obtain ⟨u, res, hres, hlen, -⟩ := C72_run hw hrun hwell hdraws (fun k => k)
    (target := fun _ x => .ok (.fin (bump x - 2))) (fun _ x _ => ⟨_, rfl⟩) (num_init := 1)
    (by norm_num) 0 0 []
  have h0 : bump (fun _ => 0) = 1 := by norm_num [bump]
  refine ⟨w, u, res, hw, hres, ?_, ?_, fun z => ?_⟩
  · have : (res.X.length : ℤ) = 1 + (T + 1) := hlen
    omega
  · refine (C148_optimize (n := 1) (f := fun z => bump z - 2) hw rfl rfl
      (show "se" ∈ baseNames by simp [baseNames])
      prior_level (H := {(1, fun _ => 1)}) ?_ ?_ ?_ (fun _ _ _ => rfl) hdraws le_rfl (x := fun _ => 0)
      ?_ ?_ (fun _ => .inl rfl) hres).1
    · rintro s l h
      obtain ⟨rfl, rfl⟩ := Prod.mk.inj h
      simp
    · intro k method f x0 bounds jac v hv
      obtain rfl := Except.ok.inj hv
      exact ⟨1, fun _ => 1, rfl, .inl ⟨rfl, rfl⟩⟩
    · intro k
      refine ⟨fun f g hg hf x0 q hq => ?_, fun f g hg hf q hq => ?_, fun f g hg hf _ _ q hq => ?_⟩ <;>
      · obtain rfl := Except.ok.inj hq
        exact lowest_low hg hf
    · have hm : "sobol" ∈ ALLOWED_SAMPLING_METHOD := by decide
      have hm' : "sobol" ∈ ALLOWED_INITIALIZING_METHOD_BO := by decide
      simp [searchArgs, STR_INITIALIZING_METHOD_BO, getInitials, getSamples, pyAssert, hm, hm', bind,
        Except.bind, getSamplesQmc, lowRoutines, exBox, List.range_succ]
    · have he : Real.exp (-100) ≤ 1 / 100 := by
        rw [Real.exp_neg, inv_le_comm₀ (Real.exp_pos _) (by norm_num)]
        have := Real.add_one_le_exp (100 : ℝ)
        linarith
      have hp := Real.exp_pos (-100)
      have : 10 * Real.exp (-100) / (1 - Real.exp (-100)) < 1 := by
        rw [div_lt_one (by linarith)]
        linarith
      simp only [h0, lowLevel]
      linarith
  · rw [h0]
    have : bump z ≤ 1 := Real.exp_le_one_iff.2 (by nlinarith [sq_nonneg (z 0), sq_nonneg (z 1)])
    linarith

/-- The conditions of the other theorems can be met: on `[0, 1]`, with the kernel `se`, signal and
lengthscale 1, a search from 0 stays where the function is higher by more than `B / 4` than at 1. -/
example {B : ℝ} (hB : 0 < B) : ∃ f : Point 1 → ℝ, NormAtMost "se" 1 (fun _ => 1) B f ∧
    B / 4 < f 0 - f 1 ∧ ∀ x : ℕ → Point 1, x 0 = 0 → (∀ n ≥ 1, x n ∈ Set.Icc (0 : Point 1) 1 ∧
      ChosenBy (fun mu sd Y => pi mu sd Y) (Set.Icc 0 1) x (fun i => f (x i))
        ⟨some (.flt (.fin 1)), none, some (.flt (.fin 1)), some (.arr [.fin 1])⟩ "se" none 0 n) →
      ∀ n, f (x n) = f 1 + (f 0 - f 1) := by
  have hd : Describes (⟨some (.flt (.fin 1)), none, some (.flt (.fin 1)), some (.arr [.fin 1])⟩ : HypDict)
      1 1 (fun _ : Fin 1 => 1) := ⟨rfl, rfl, .inl (by simp), by simp⟩
  obtain ⟨f, h1, h2, -, -, h5⟩ := C148_violated (base := "se") (by simp [baseNames]) hd one_ne_zero hB
    (C := Set.Icc (0 : Point 1) 1) (a := 0) (b := 1) (by simp) (by simp) (by simp)
  refine ⟨f, h1, ?_, h5⟩
  have h3 : ¬ ("se" : String) = "matern32" := by decide
  have h4 : ¬ ("se" : String) = "matern52" := by decide
  have hk : kernel "se" 1 (fun _ : Fin 1 => 1) 0 1 < 3 / 4 := by
    have e : kernel "se" 1 (fun _ : Fin 1 => 1) 0 1 = Real.exp (-(1 / 2)) := by
      simp [kernel, profile, h3, h4, seProfile, scaledDistance]
    rw [e, Real.exp_neg]
    have := Real.quadratic_le_exp_of_nonneg (show (0 : ℝ) ≤ 1 / 2 by norm_num)
    rw [inv_lt_comm₀ (Real.exp_pos _) (by norm_num)]
    norm_num at this ⊢
    linarith
  rw [h2]
  simp only [abs_one, mul_one, one_pow, div_one]
  nlinarith

end Verif.Props
