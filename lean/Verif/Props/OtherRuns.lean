import Verif.Lemmas.ImprovementChance
import Verif.Props.EndToEndMore
import Verif.Props.GrowingWeight

/-! # Runs by pure exploitation and by the upper confidence bound (C150) -/

namespace Verif.Props

open Verif.Spec Verif.Covariance Verif.UtilsCovariance Verif.Lemmas Verif.Acquisition
  Verif.Constants Verif.WrapperClass Verif.WrappersBo Verif.UtilsBo Verif.BaseBo
open Matrix hiding gram

variable {d n : ℕ}

private theorem exploit_pair (mu : Fin 2 → ℝ) :
    pureExploit (List.ofFn mu) = .ok [-mu 0, -mu 1] := by
  simp [pureExploit, List.ofFn_succ, pure, Except.pure]

/-- The comparison behind C150. -/
private theorem exploit_lt {base : String} {σ s : ℝ} {l : Fin d → ℝ} (hl : ∀ k, l k ≠ 0) (hs : s ≠ 0)
    {c y : ℝ} (hy : y < c) (hn : 1 ≤ n) {a z : Point d} (hz : z ≠ a) {m m' : ℝ}
    (h : m = c + n * kernel base s l a a * (y - c) / (n * s ^ 2 + (σ ^ 2 + 1 / 100000)))
    (h' : m' = c + n * kernel base s l a z * (y - c) / (n * s ^ 2 + (σ ^ 2 + 1 / 100000))) :
    m < m' := by
  have hN : (0 : ℝ) < n := by exact_mod_cast hn
  have hk := kernel_lt_of_ne (base := base) hs hl hz
  have hD : 0 < n * s ^ 2 + (σ ^ 2 + 1 / 100000) := by positivity
  rw [h, h', kernel_self, add_lt_add_iff_left, div_lt_div_iff_of_pos_right hD]
  have := mul_lt_mul_of_pos_left (mul_lt_mul_of_pos_left hk hN) (show 0 < c - y by linarith)
  linarith

/-- C150: when all responses so far were made at one input and are equal, below the (constant) prior
mean, this input has the highest score by `pure_exploit` of all points: whatever the kernel, the
hyperparameters and the number of responses. -/
theorem C150_next {base : String} (hb : base ∈ baseNames) {h : HypDict} {σ s : ℝ} {l : Fin d → ℝ}
    (hd : Describes h σ s l) (hs : s ≠ 0) {prior : Gp.PriorMu d} {c : ℝ}
    (hm : PriorFunction prior fun _ => c) {y : ℝ} (hy : y < c) (hn : 1 ≤ n) {a z : Point d}
    (hz : z ≠ a) : ∃ mu sd S v v',
      Gp.predictWithHyps (.vec fun _ : Fin n => a) (fun _ => y) (.vec ![a, z]) h base prior =
        .ok (mu, sd, S) ∧
      pureExploit (List.ofFn mu) = .ok [v, v'] ∧ v' < v := by
  have hv : ∀ {n : ℕ} (v : Fin n → Point d), Suits base base (.vec v) :=
    fun v => ⟨hb, .inl ⟨rfl, _, rfl⟩⟩
  obtain ⟨mu, sd, S, hp⟩ : ∃ mu sd S, Gp.predictWithHyps (.vec fun _ : Fin n => a) (fun _ => y)
      (.vec ![a, z]) h base prior = .ok (mu, sd, S) :=
    ⟨_, _, _, predictWithHyps_ok (hv _) (hv _) hd _ (hm _ _) (hm _ _)⟩
  have hq := same_predicted hb hd hm a y hp
  exact ⟨mu, sd, S, _, _, hp, exploit_pair mu,
    neg_lt_neg (exploit_lt hd.nonzero hs hy hn hz (hq 0).1 (hq 1).1)⟩

/-- C150: the same with the Student-t process. -/
theorem C150_next_student {base : String} (hb : base ∈ baseNames) {h : HypDict} {σ s : ℝ}
    {l : Fin d → ℝ} (hd : Describes h σ s l) (hs : s ≠ 0) {ν : ℝ} (hν : 2 < ν)
    (hdof : h.dof = some (.flt (.fin ν))) {prior : Gp.PriorMu d} {c : ℝ}
    (hm : PriorFunction prior fun _ => c) {y : ℝ} (hy : y < c) (hn : 1 ≤ n) {a z : Point d}
    (hz : z ≠ a) : ∃ ν' mu sd S v v',
      Tp.predictWithHyps (.vec fun _ : Fin n => a) (fun _ => y) (.vec ![a, z]) h base prior =
        .ok (ν', mu, sd, S) ∧
      pureExploit (List.ofFn mu) = .ok [v, v'] ∧ v' < v := by
  obtain ⟨mu, sd, S, μ, e, hp, -, -, he, h2⟩ := student_predicted hb hd hν hdof
    (PriorFunction.total hm) (fun _ : Fin n => a) (fun _ => y) ![a, z]
  have hq := same_predicted hb hd hm a y hp
  exact ⟨_, _, _, _, _, _, h2, exploit_pair mu,
    neg_lt_neg (exploit_lt hd.nonzero hs hy hn hz (hq 0).1 (hq 1).1)⟩

/-- C150: so a search by `pure_exploit` that starts at an input where the value is below the prior mean
chooses it forever, in whatever region, whatever the values elsewhere, and with whatever hyperparameters
for each choice. -/
theorem C150_forever {base : String} (hb : base ∈ baseNames) {h : ℕ → HypDict} {σ s : ℕ → ℝ}
    {l : ℕ → Fin d → ℝ} (hd : ∀ n, Describes (h n) (σ n) (s n) (l n)) (hs : ∀ n, s n ≠ 0)
    {prior : Gp.PriorMu d} {c : ℝ} (hm : PriorFunction prior fun _ => c) {C : Set (Point d)}
    {f : Point d → ℝ} {x : ℕ → Point d} (hx : x 0 ∈ C) (hf : f (x 0) < c) :
    (∀ n ≥ 1, x n ∈ C ∧ ChosenBy (fun mu _ _ => pureExploit mu) C x (fun i => f (x i)) (h n) base prior
      0 n) ↔ ∀ n, x n = x 0 := by
  constructor
  · intro hch n
    induction n using Nat.strong_induction_on with
    | _ n ih =>
      rcases Nat.eq_zero_or_pos n with rfl | hn
      · rfl
      by_contra hne
      obtain ⟨mu, sd, S, v, v', h1, h2, h3⟩ := (hch n hn).2 (x 0) hx
      have e1 : (fun i : Fin n => x i) = fun _ => x 0 := funext fun i => ih i i.2
      have e2 : (fun i : Fin n => f (x i)) = fun _ => f (x 0) := funext fun i => by rw [ih i i.2]
      rw [e1, e2] at h1
      have hq := same_predicted hb (hd n) hm (x 0) (f (x 0)) h1
      have := exploit_lt (hd n).nonzero (hs n) hf hn hne (hq 1).1 (hq 0).1
      beta_reduce at h2
      rw [exploit_pair] at h2
      simp only [Except.ok.injEq, List.cons.injEq, and_true] at h2
      obtain ⟨rfl, rfl⟩ := h2
      linarith
  · intro hx0 n hn
    rw [hx0 n]
    refine ⟨hx, fun z hz => ?_⟩
    rw [hx0 n]
    have e1 : (fun i : Fin n => x i) = fun _ => x 0 := funext fun i => hx0 i
    have e2 : (fun i : Fin n => f (x i)) = fun _ => f (x 0) := funext fun i => by rw [hx0 i]
    rw [e1, e2]
    by_cases hza : z = x 0
    · subst hza
      have hv : ∀ {n : ℕ} (v : Fin n → Point d), Suits base base (.vec v) :=
        fun v => ⟨hb, .inl ⟨rfl, _, rfl⟩⟩
      obtain ⟨mu, sd, S, hp⟩ : ∃ mu sd S, Gp.predictWithHyps (.vec fun _ : Fin n => x 0)
          (fun _ => f (x 0)) (.vec ![x 0, x 0]) (h n) base prior = .ok (mu, sd, S) :=
        ⟨_, _, _, predictWithHyps_ok (hv _) (hv _) (hd n) _ (hm _ _) (hm _ _)⟩
      have a1 := (same_predicted hb (hd n) hm (x 0) (f (x 0)) hp 0).1
      have b1 := (same_predicted hb (hd n) hm (x 0) (f (x 0)) hp 1).1
      simp only [Matrix.cons_val_zero, Matrix.cons_val_one] at a1 b1
      refine ⟨mu, sd, S, _, _, hp, exploit_pair mu, ?_⟩
      rw [a1, b1, add_zero]
    · obtain ⟨mu, sd, S, v, v', h1, h2, h3⟩ := C150_next hb (hd n) (hs n) hm hf hn hza
      exact ⟨mu, sd, S, v, v', h1, h2, by linarith⟩

/-- C150: so the best response need not come close to the best value. For every kernel with a signal,
bound `B` of the norm and two points of a region, there is a function of at most this norm whose values
at the points are far apart, `B |s|` times one less the correlation of the points, while a search by
`pure_exploit` that starts at the worse point never leaves it. -/
theorem C150_violated {base : String} (hb : base ∈ baseNames) {h : HypDict} {σ s : ℝ}
    {l : Fin d → ℝ} (hd : Describes h σ s l) (hs : s ≠ 0) {B : ℝ} (hB : 0 < B) {C : Set (Point d)}
    {a b : Point d} (ha : a ∈ C) (hb' : b ∈ C) (hab : a ≠ b) :
    ∃ f : Point d → ℝ, NormAtMost base s l B f ∧
      f a - f b = B * |s| * (1 - kernel base s l a b / s ^ 2) ∧ 0 < f a - f b ∧
      (∃ x : ℕ → Point d, x 0 = a ∧ ∀ n ≥ 1, x n ∈ C ∧
        ChosenBy (fun mu _ _ => pureExploit mu) C x (fun i => f (x i)) h base none 0 n) ∧
      ∀ x : ℕ → Point d, x 0 = a → (∀ n ≥ 1, x n ∈ C ∧
        ChosenBy (fun mu _ _ => pureExploit mu) C x (fun i => f (x i)) h base none 0 n) →
        ∀ n, f (x n) = f b + (f a - f b) := by
  have hs0 : 0 < |s| := abs_pos.2 hs
  have hss : |s| * |s| = s ^ 2 := by rw [← sq, sq_abs]
  have hm : PriorFunction (none : Gp.PriorMu d) fun _ => 0 := fun n X => rfl
  have hk := kernel_lt_of_ne (base := base) hs hd.nonzero hab.symm
  have hgap : -(B / |s|) * kernel base s l b a - -(B / |s|) * kernel base s l b b =
      B * |s| * (1 - kernel base s l a b / s ^ 2) := by
    rw [kernel_symm base s l b a, kernel_self, ← hss]
    field_simp
    ring
  have hpos : 0 < B * |s| * (1 - kernel base s l a b / s ^ 2) := by
    have : kernel base s l a b / s ^ 2 < 1 := (div_lt_one (by positivity)).2 hk
    have : 0 < 1 - kernel base s l a b / s ^ 2 := by linarith
    positivity
  have hfa : -(B / |s|) * kernel base s l b a < 0 := by
    have := kernel_pos base hs l b a
    have : 0 < B / |s| * kernel base s l b a := by positivity
    linarith
  refine ⟨fun z => -(B / |s|) * kernel base s l b z, ?_, hgap, by rw [hgap]; exact hpos,
    ⟨fun _ => a, rfl, ?_⟩, fun x hx hch n => ?_⟩
  · have := (C123_norm base s l (fun _ : Fin 1 => b) (fun _ => -(B / |s|)) B).2 (by
      simp only [Finset.univ_unique, Finset.sum_singleton, kernel_self]
      rw [show -(B / |s|) * s ^ 2 * -(B / |s|) = B ^ 2 by rw [← hss]; field_simp, Real.sqrt_sq hB.le])
    simpa using this
  · exact (C150_forever (f := fun z => -(B / |s|) * kernel base s l b z) hb (fun _ => hd)
      (fun _ => hs) hm (x := fun _ => a) ha hfa).2 fun _ => rfl
  · have := (C150_forever (f := fun z => -(B / |s|) * kernel base s l b z) hb (fun _ => hd)
      (fun _ => hs) hm (x := x) (by rw [hx]; exact ha) (by rw [hx]; exact hfa)).1 hch n
    rw [this, hx]
    ring

/-- C150: whole runs. A run of an object that was asked for `pure_exploit` with a Gaussian process and a
constant prior mean, from rows that are all the same and whose response is below the prior mean,
evaluates nothing but this row: whatever the target does elsewhere, whatever hyperparameters are
fitted, with or without normalisation, with any of the optimisers, if they find the best point. -/
theorem C150_run {env : Installed} {a : Args d} {w : BayesianOptimization d} {st : ModelState}
    (hw : create env a = .ok (w, st)) (hgp : a.str_surrogate = "gp") (hacq : a.str_acq = "pure_exploit")
    (hcov : a.str_cov ∈ baseNames) {c : ℝ}
    (hm : PriorFunction a.prior_mu fun _ => c) {H : Set (ℝ × (Fin d → ℝ))}
    (hH : ∀ s l, (s, l) ∈ H → s ≠ 0 ∧ ∀ k, l k ≠ 0) {o : RunOracles d}
    (hfit : ∀ k, FitsIn H a.use_ard (o.routines k).fitHyps)
    (ho : ∀ k, FindsLowest (o.routines k) a.range_X) {clock : ℕ → ℝ}
    {target : ℕ → Point d → Py Flt} {x : Point d} (hx : InBox a.range_X x) {y : ℝ}
    (ht : ∀ k, target k x = .ok (.fin y)) (hy : y < c) {n T : ℕ} (hn : 1 ≤ n)
    {u u' : World d (ModelState × ℕ)} (hu : a.str_mlm_method = "converged" → FitsFrom H u.model.1.gp)
    {res : LoopSt d} (h : optimizeWithAllInitialInformation (runEnv w o clock target) T (List.replicate n x)
      (List.replicate n (.fin y)) u = (u', .ok res)) :
    res.X = List.replicate (n + T) x ∧ res.Y = List.replicate (n + T) (.fin y) := by
  obtain ⟨-, w1, h1, rfl⟩ := run_ok _ T _ _ u u' res h
  obtain ⟨ws, sts, h0, h0', hT, hT', hiter⟩ := classLoop_ok _ T _ _ _ _ h1
  have key : ∀ i ≤ T, ((sts i).X = List.replicate (n + i) x ∧
      (sts i).Y = List.replicate (n + i) (.fin y)) ∧
      (a.str_mlm_method = "converged" → FitsFrom H (ws i).model.1.gp) := by
    intro i
    induction i with
    | zero => exact fun _ => by rw [h0', h0]; exact ⟨⟨rfl, rfl⟩, hu⟩
    | succ i ih =>
      intro hi
      obtain ⟨⟨eX, eY⟩, hready⟩ := ih (by omega)
      obtain ⟨s', t', p, q, info, v, hq⟩ := hiter i hi
      have hst := hq.step
      have hc := hq.choice
      rw [eX, eY] at hst
      rw [eX] at hc
      have e1 : List.replicate (n + i) x = List.ofFn fun _ : Fin (n + i) => x := by simp
      have e2 : finites (List.replicate (n + i) (Flt.fin y)) = .ok (List.ofFn fun _ : Fin (n + i) => y) := by
        rw [← finites_map]
        simp
      simp only [runEnv, step, e2] at hst
      obtain ⟨hst1, hst2⟩ := Prod.mk.inj hst
      rw [e1] at hst1 hst2
      obtain ⟨-, Yt, hy', sg, l, b1, b2, b3, b4, score, b5, f, g, b6, b7, b8, b9, b10, b11⟩ :=
        step_scores hw hgp hcov hm continuous_const (fun s l hsl => (hH s l hsl).2) (hfit _)
          (by omega) (s := ((ws i).model.1, (ws i).tick + 1)) hready hst2
      have hlow := candidates_lowest (ho _) b6 b7 b8
      rw [hacq] at b5
      obtain rfl : (fun mu _ _ => pureExploit mu) = score := Except.ok.inj b5
      have hn' : 1 ≤ n + i := by omega
      have hYt : Yt = fun _ => y := by
        funext j
        have hr : Set.range (fun _ : Fin (n + i) => y) = {y} := by
          have : Nonempty (Fin (n + i)) := ⟨j⟩
          exact Set.range_const
        rw [inUnits_eq (lo := y) (hi := y) (by rw [hr]; exact isLeast_singleton)
          (by rw [hr]; exact isGreatest_singleton) b1 j]
        simp [inUnits, minMaxImage]
      subst hYt
      have hall : ∀ r ∈ info.next_points, r = x := by
        intro r hr
        by_contra hne
        obtain ⟨mu, sd, S, v, v', c1, c2, c3⟩ := C150_next hcov b3 (hH _ _ b2).1 hm hy hn' hne
        obtain ⟨mu', sd', S', v1, v1', d1, d2, d3, d4⟩ := b11 x r
        rw [c1] at d1
        simp only [Except.ok.injEq, Prod.mk.injEq] at d1
        obtain ⟨rfl, rfl, rfl⟩ := d1
        beta_reduce at d2
        rw [c2] at d2
        simp only [Except.ok.injEq, List.cons.injEq, and_true] at d2
        obtain ⟨rfl, rfl⟩ := d2
        have := hlow r hr x hx
        linarith
      have hqx : q = x := by
        unfold getNextBestSample at hc
        split at hc
        · rcases C05_result_origin _ _ _ _ hc with ⟨h2, -⟩ | ⟨-, h2⟩
          · exact hall q h2
          · exact List.eq_of_mem_replicate (List.mem_of_getLast? h2)
        · have := Option.some.inj (Except.ok.inj hc)
          exact this ▸ hall p b9
      subst hqx
      have hv : v = .fin y := by
        have := hq.target
        simp only [runEnv, ht] at this
        exact (Except.ok.inj this).symm
      rw [hq.state, eX, eY, hv]
      refine ⟨⟨List.replicate_succ'.symm, List.replicate_succ'.symm⟩, fun _ => ?_⟩
      have hw1 : (ws (i + 1)).model.1.gp.historical_hyps =
          (ws i).model.1.gp.historical_hyps ++ [some hy'] := by
        rw [hq.world]
        show s'.1.gp.historical_hyps = _
        rw [← (Prod.mk.inj hst1).1]
        exact b4
      exact .inr ⟨hy', sg, l, by rw [hw1]; simp, b2, b3⟩
  have := (key T le_rfl).1
  rwa [hT'] at this

/-- C150: the same for runs from initial rows that the object draws itself, for instance a single
one. -/
theorem C150_optimize {env : Installed} {a : Args d} {w : BayesianOptimization d} {st : ModelState}
    (hw : create env a = .ok (w, st)) (hgp : a.str_surrogate = "gp") (hacq : a.str_acq = "pure_exploit")
    (hcov : a.str_cov ∈ baseNames) {c : ℝ}
    (hm : PriorFunction a.prior_mu fun _ => c) {H : Set (ℝ × (Fin d → ℝ))}
    (hH : ∀ s l, (s, l) ∈ H → s ≠ 0 ∧ ∀ k, l k ≠ 0) {o : RunOracles d}
    (hfit : ∀ k, FitsIn H a.use_ard (o.routines k).fitHyps)
    (ho : ∀ k, FindsLowest (o.routines k) a.range_X) {clock : ℕ → ℝ}
    {target : ℕ → Point d → Py Flt} {f : Point d → ℝ}
    (ht : ∀ k x, InBox a.range_X x → target k x = .ok (.fin (f x))) {r : Draws d} (hr : UnitDraws r)
    {num_init : ℤ} {n : ℕ} (hn : 1 ≤ n) {x : Point d}
    (hX : getInitials a.range_X r a.str_initial_method_bo num_init = .ok (List.replicate n x))
    (hf : f x < c) {u u' : World d (ModelState × ℕ)}
    (hu : a.str_mlm_method = "converged" → FitsFrom H u.model.1.gp) {res : LoopSt d}
    (h : optimize w o clock target r num_init u = (u', .ok res)) :
    (∀ z ∈ res.X, z = x) ∧ ∀ y ∈ res.Y, y = .fin (f x) := by
  obtain ⟨hbox, u1, u3, r2, h1, h2, h3, hu1, -⟩ := optimize_run hw ht hr hX h
  have hx : InBox a.range_X x := hbox x (by simp; omega)
  rw [List.map_replicate] at h1
  obtain ⟨a1, a2⟩ := C150_run hw hgp hacq hcov hm hH hfit ho hx (fun k => ht k x hx) hf hn (hu1 ▸ hu)
    h1
  rw [h2, h3, a1, a2]
  exact ⟨fun z hz => List.eq_of_mem_replicate hz, fun y hy => List.eq_of_mem_replicate hy⟩

private theorem box_bounded_region (R : Bounds d) : Bornology.IsBounded {z : Point d | InBox R z} := by
  refine (Metric.isBounded_Icc (fun i => (R i).1) (fun i => (R i).2)).subset fun z hz => ?_
  exact ⟨fun i => (hz i).1, fun i => (hz i).2⟩

private theorem ucb_pair (mu sd : Fin 2 → ℝ) (Y : Fin n → ℝ) :
    ucb (List.ofFn mu) (List.ofFn sd) (some (List.ofFn Y)) =
      .ok [-mu 0 + 2 * Real.log (n + 1) * sd 0, -mu 1 + 2 * Real.log (n + 1) * sd 1] := by
  simp [ucb, pyAssert, List.ofFn_succ, pure, Except.pure, bind, Except.bind]

/-- The value at a duplicate of a point. -/
private theorem duplicate_value {base : String} {s : ℝ} {l : Fin d → ℝ} {m f : Point d → ℝ}
    {B Λ smax lmin : ℝ} {D : Set (Point d)} (hΛ0 : 0 ≤ Λ)
    (hΛ : ∀ u v, |m u - m v| ≤ Λ * dist u v) (hl : 0 < lmin) (hs : |s| ≤ smax)
    (hll : ∀ k, lmin ≤ |l k|) (hf : NormAtMostOn D base s l B (fun z => f z - m z))
    {p q : Point d} (hq : q ∈ D) (hp : p ∈ D) (hj : √(∑ i, (p i - q i) ^ 2) < 1e-8) :
    f q ≤ f p + (B * √(2 * duplicateGap smax lmin) + Λ * 1e-8) := by
  have hk := kernel_duplicate base hl hs hll hj
  have a2 := hf.2 2 ![q, p] (by intro i; fin_cases i <;> simp [hp, hq]) ![1, -1]
  simp only [Fin.sum_univ_two, Matrix.cons_val_zero, Matrix.cons_val_one, one_mul, neg_mul,
    mul_one, mul_neg, neg_neg] at a2
  have a3 := kernel_symm base s l q p
  have a4 := kernel_le base s l p p
  have a5 := kernel_le base s l q q
  have a6 : √(kernel base s l q q + -kernel base s l q p +
      (-kernel base s l p q + kernel base s l p p)) ≤ √(2 * duplicateGap smax lmin) :=
    Real.sqrt_le_sqrt (by linarith)
  have a7 := mul_le_mul_of_nonneg_left a6 hf.1
  have a8 := hΛ q p
  have a9 : dist q p ≤ 1e-8 := by
    rw [dist_pi_le_iff (by norm_num)]
    intro k
    rw [Real.dist_eq, abs_sub_comm]
    refine le_trans ?_ hj.le
    rw [← Real.sqrt_sq_eq_abs]
    exact Real.sqrt_le_sqrt (Finset.single_le_sum (f := fun i => (p i - q i) ^ 2)
      (fun i _ => sq_nonneg _) (Finset.mem_univ k))
  have a10 := mul_le_mul_of_nonneg_left a9 hΛ0
  have a11 := (abs_le.1 (a2.trans a7)).2
  have a12 := (abs_le.1 a8).2
  linarith

/-- When the best point by the upper confidence bound is a duplicate of one evaluated, no value in the
region is much lower than the value at the latter. -/
private theorem duplicate_choice_upper {base : String} (hb : base ∈ baseNames) {h : HypDict} {s : ℝ}
    {l : Fin d → ℝ} (hd : Describes h (1 / 100) s l) {prior : Gp.PriorMu d} {m f : Point d → ℝ}
    {B Λ smax lmin δ : ℝ} {D : Set (Point d)} (hm : PriorFunction prior m) (hΛ0 : 0 ≤ Λ)
    (hΛ : ∀ u v, |m u - m v| ≤ Λ * dist u v) (hl : 0 < lmin) (hs : |s| ≤ smax)
    (hll : ∀ k, lmin ≤ |l k|)
    (hf : NormAtMostOn D base s l B (fun z => f z - m z))
    {x : Fin n → Point d} (hxD : ∀ i, x i ∈ D) {p : Point d} (hp : p ∈ D) {j : Fin n}
    (hj : √(∑ i, (p i - x j i) ^ 2) < 1e-8)
    (hch : ∀ z ∈ D, ∃ mu sd S v v', Gp.predictWithHyps (.vec x) (fun i => f (x i))
      (.vec ![p, z]) h base prior = .ok (mu, sd, S) ∧
      ucb (List.ofFn mu) (List.ofFn sd) (some (List.ofFn fun i => f (x i))) = .ok [v, v'] ∧
      v' ≤ v + δ) {z : Point d} (hz : z ∈ D) :
    f (x j) ≤ f z + runErrorUpper B Λ smax lmin δ n := by
  have hpr := PriorFunction.total hm
  have hn : 0 < n := j.pos
  have hclose := duplicate_value hΛ0 hΛ hl hs hll hf (hxD j) hp hj
  have hv0 : 0 ≤ duplicateDeviation smax lmin := Real.sqrt_nonneg _
  obtain ⟨mu, sd, S, v, v', h1, h2, h3⟩ := hch z hz
  have herr : ∀ i, |f ((![p, z] : Fin 2 → Point d) i) - mu i| ≤ B * √(sd i ^ 2 - 1 / 100000) := by
    intro i
    have := predicted_error_on hb hd hm hf hxD h1 (i := i) (by fin_cases i <;> assumption)
    simpa only [sub_self, ne_eq, OfNat.ofNat_ne_zero, not_false_eq_true, zero_pow,
      Finset.sum_const_zero, zero_div, add_zero, Real.sqrt_sq hf.1] using this
  have hfloor : ∀ i, √(1 / 100000) ≤ sd i := fun i => by
    obtain ⟨a, b⟩ := predicted_sq hb hd hpr h1 i
    rw [Real.sqrt_le_left a.le, b]
    exact postCov_diag_ge base (1 / 100) s l (.vec x)
      (.vec fun _ : Fin 1 => (![p, z] : Fin 2 → Point d) i) 0
  have hceil : sd 1 ≤ √(smax ^ 2 + 1 / 100000) := by
    have hv : ∀ {n : ℕ} (v : Fin n → Point d), Suits base base (.vec v) :=
      fun v => ⟨hb, .inl ⟨rfl, _, rfl⟩⟩
    obtain ⟨mu', sd', S', hp', hle⟩ := C33_at_most_prior (hv x)
      (hv (![p, z] : Fin 2 → Point d)) hd (fun i : Fin n => f (x i)) (hm _ _) (hm _ _)
    rw [h1] at hp'
    simp only [Except.ok.injEq, Prod.mk.injEq] at hp'
    obtain ⟨-, rfl, -⟩ := hp'
    refine (hle 1).2.2.trans (Real.sqrt_le_sqrt ?_)
    have : s ^ 2 ≤ smax ^ 2 := sq_le_sq' (by linarith [(abs_le.1 hs).1]) (abs_le.1 hs).2
    linarith
  rw [ucb_pair] at h2
  simp only [Except.ok.injEq, List.cons.injEq, and_true] at h2
  obtain ⟨rfl, rfl⟩ := h2
  have e0 := herr 0
  have e1 := herr 1
  simp only [Matrix.cons_val_zero, Matrix.cons_val_one] at e0 e1
  have hw : 0 < 2 * Real.log ((n : ℝ) + 1) :=
    mul_pos two_pos (Real.log_pos (by have : (0 : ℝ) < n := by exact_mod_cast hn
                                      linarith))
  have key := growing_step hw (Real.sqrt_pos.2 (by positivity)) (by norm_num) (hfloor 0) (hfloor 1)
    hceil h3 e0 e1
  obtain ⟨c1, c2⟩ := predicted_sq hb hd hpr h1 0
  have c3 := duplicate_postCov (base := base) hl hs hll hj
  simp only [Matrix.cons_val_zero] at c2
  rw [← c2] at c3
  have c4 : sd 0 ≤ √(1 / 100000 + duplicateDeviation smax lmin ^ 2) := Real.le_sqrt_of_sq_le c3
  have c5 : √(sd 0 ^ 2 - 1 / 100000) ≤ duplicateDeviation smax lmin := by
    rw [Real.sqrt_le_left hv0]
    linarith
  have c6 := mul_le_mul_of_nonneg_left c5 hf.1
  have c7 := mul_le_mul_of_nonneg_left (sub_le_sub_right c4 √(1 / 100000)) hw.le
  have c8 : B ^ 2 * √(smax ^ 2 + 1 / 100000) / (2 * (2 * Real.log ((n : ℝ) + 1))) =
      B ^ 2 * √(smax ^ 2 + 1 / 100000) / (4 * Real.log (n + 1)) := by
    rw [← mul_assoc]
    norm_num
  rw [c8] at key
  unfold runErrorUpper
  linarith

private theorem runErrorUpper_nonneg {B Λ smax lmin δ : ℝ} (hB : 0 ≤ B) (hΛ : 0 ≤ Λ) (hδ : 0 ≤ δ)
    (n : ℕ) : 0 ≤ runErrorUpper B Λ smax lmin δ n := by
  have h1 : √(1 / 100000) ≤ √(1 / 100000 + duplicateDeviation smax lmin ^ 2) :=
    Real.sqrt_le_sqrt (by linarith [sq_nonneg (duplicateDeviation smax lmin)])
  have h2 : 0 ≤ Real.log ((n : ℝ) + 1) := Real.log_nonneg (by linarith [n.cast_nonneg (α := ℝ)])
  have h3 := mul_nonneg (mul_nonneg zero_le_two h2) (sub_nonneg.2 h1)
  have h4 : 0 ≤ B * duplicateDeviation smax lmin := mul_nonneg hB (Real.sqrt_nonneg _)
  unfold runErrorUpper
  positivity

/-- C150: a run by the upper confidence bound, with its default growing weight, from given rows of the
search space and their exact responses. Either some response is within `δ / 10 + η` of every value, in
the units of normalised responses, or a point proposed after `n` responses was a duplicate, and the
response at the row it duplicates is within `runErrorUpper` for this `n`. -/
theorem C150_upper_run {R : Bounds d} {base : String} (hb : base ∈ baseNames)
    {B Λ smax lmin η : ℝ} (hB : 0 ≤ B) (hΛ : 0 ≤ Λ) (hl : 0 < lmin) (hη : 0 < η) (n₀ : ℕ) :
    ∃ M : ℕ, ∀ (env : Installed) (a : Args d) (w : BayesianOptimization d) (st : ModelState)
      (m : Point d → ℝ) (δ : ℝ) (H : Set (ℝ × (Fin d → ℝ))) (o : RunOracles d) (spread gap : ℝ)
      (f : Point d → ℝ) (clock : ℕ → ℝ) (target : ℕ → Point d → Py Flt) (X : List (Point d)) (T : ℕ)
      (u u' : World d (ModelState × ℕ)) (res : LoopSt d),
      create env a = .ok (w, st) → a.range_X = R → a.str_cov = base → 0 ≤ δ →
      GoodSearch "ucb" a m Λ smax lmin δ H o →
      (a.str_mlm_method = "converged" → FitsFrom H u.model.1.gp) →
      SuitsFits R base H (normalizes a) m B spread gap f →
      (∀ k x, InBox R x → target k x = .ok (.fin (f x))) → (∀ x ∈ X, InBox R x) → X.length = n₀ →
      (∃ x ∈ X, ∃ x' ∈ X, gap ≤ f x' - f x) → M ≤ n₀ + T →
      optimizeWithAllInitialInformation (runEnv w o clock target) T X
        (X.map fun x => Flt.fin (f x)) u = (u', .ok res) →
      ∃ y, Flt.fin y ∈ res.Y ∧
        ((∀ z, InBox R z → y ≤ f z + max 1 (spread / 10) * (δ / 10 + η)) ∨
          ∃ n, n₀ ≤ n ∧ n < M ∧ ∀ z, InBox R z →
            y ≤ f z + max 1 (spread / 10) * runErrorUpper B Λ smax lmin (δ / 10) n) := by
  obtain ⟨M, hM⟩ := C142_refit hb (box_bounded_region R) (kappa := 2) two_pos hB (σmax := 1 / 100)
    (smax := smax) hl hη n₀
  refine ⟨M, fun env a w st m δ H o spread gap f clock target X T u u' res hw hR hcov hδ hg hu hf ht hX
    hlen hgap hT h => ?_⟩
  subst hR hcov hlen
  have hδ' : 0 ≤ δ / 10 := div_nonneg hδ (by norm_num)
  obtain ⟨x, hxD, -, hmem, hstep⟩ := run_choices hw hb hΛ hl hg
    (score := fun mu sd Y => ucb mu sd (some Y)) rfl hf ht hX hgap hu h
  by_cases hdup : ∃ n, X.length ≤ n ∧ n < M ∧ ∃ p hy sg l lo hi,
      RunChoice a m B spread δ H (fun mu sd Y => ucb mu sd (some Y)) f x n p hy sg l lo hi ∧
        ∃ j : Fin n, √(∑ k, (p k - x j k) ^ 2) < 1e-8
  · obtain ⟨n, h1, h2, p, hy, sg, l, lo, hi, hc, j, hj⟩ := hdup
    obtain ⟨c1, c2⟩ := hg.hyps sg l hc.mem
    refine ⟨f (x j), hmem j (by omega), .inr ⟨n, h1, h2, fun z hz => ?_⟩⟩
    exact inUnits_le hc.le hc.spread (runErrorUpper_nonneg hB hΛ hδ' n)
      (duplicate_choice_upper (f := fun z => inUnits (normalizes a) lo hi (f z))
        (x := fun i : Fin n => x i) hb hc.describes hg.prior hΛ hg.lipschitz hl c1 c2 hc.norm
        (fun i => hxD i) hc.inBox hj hc.best hz)
  · have hall : ∀ n, ∃ hy sg l lo hi, X.length ≤ n → n < M →
        RunChoice a m B spread δ H (fun mu sd Y => ucb mu sd (some Y)) f x n (x n) hy sg l lo hi := by
      intro n
      by_cases hn : X.length ≤ n ∧ n < M
      · obtain ⟨p, hy, sg, l, lo, hi, hc, -, rfl | a6⟩ := hstep n hn.1 (by omega)
        · exact ⟨hy, sg, l, lo, hi, fun _ _ => hc⟩
        · exact absurd ⟨n, hn.1, hn.2, p, hy, sg, l, lo, hi, hc, a6⟩ hdup
      · exact ⟨⟨none, none, none, none⟩, 0, 0, 0, 0, fun h1 h2 => absurd ⟨h1, h2⟩ hn⟩
    choose hy sg l lo hi hall using hall
    obtain ⟨n, h1, h2, hle⟩ := hM hy (fun _ => 1 / 100) sg l (fun _ => a.prior_mu) (fun _ => m)
      (fun n z => inUnits (normalizes a) (lo n) (hi n) (f z)) {z | InBox a.range_X z} (fun _ => B)
      (δ / 10) x (fun n i => inUnits (normalizes a) (lo n) (hi n) (f (x i))) le_rfl hxD fun n h1 h2 => by
        have hc := hall n h1 h2
        obtain ⟨c1, c2⟩ := hg.hyps _ _ hc.mem
        exact ⟨hc.describes, by norm_num, c1, c2, hg.prior, hc.norm, by simp, hxD n, hc.best⟩
    have hc := hall n h1 h2
    refine ⟨f (x n), hmem n (by omega), .inl fun z hz => ?_⟩
    refine inUnits_le (b := normalizes a) hc.le hc.spread (by linarith) ?_
    have := hle z hz
    linarith

/-- C150: the same from initial rows that the object draws itself. -/
theorem C150_upper {R : Bounds d} {base : String} (hb : base ∈ baseNames) {B Λ smax lmin η : ℝ}
    (hB : 0 ≤ B) (hΛ : 0 ≤ Λ) (hl : 0 < lmin) (hη : 0 < η) (n₀ : ℕ) :
    ∃ M : ℕ, ∀ (env : Installed) (a : Args d) (w : BayesianOptimization d) (st : ModelState)
      (m : Point d → ℝ) (δ : ℝ) (H : Set (ℝ × (Fin d → ℝ))) (o : RunOracles d) (spread gap : ℝ)
      (f : Point d → ℝ) (clock : ℕ → ℝ) (target : ℕ → Point d → Py Flt) (r : Draws d) (num_init : ℤ)
      (X : List (Point d)) (u u' : World d (ModelState × ℕ)) (res : LoopSt d),
      create env a = .ok (w, st) → a.range_X = R → a.str_cov = base → 0 ≤ δ →
      GoodSearch "ucb" a m Λ smax lmin δ H o →
      (a.str_mlm_method = "converged" → FitsFrom H u.model.1.gp) →
      SuitsFits R base H (normalizes a) m B spread gap f →
      (∀ k x, InBox R x → target k x = .ok (.fin (f x))) → UnitDraws r →
      getInitials R r a.str_initial_method_bo num_init = .ok X → X.length = n₀ →
      (∃ x ∈ X, ∃ x' ∈ X, gap ≤ f x' - f x) → M ≤ n₀ + a.num_iter →
      optimize w o clock target r num_init u = (u', .ok res) →
      ∃ y, Flt.fin y ∈ res.Y ∧
        ((∀ z, InBox R z → y ≤ f z + max 1 (spread / 10) * (δ / 10 + η)) ∨
          ∃ n, n₀ ≤ n ∧ n < M ∧ ∀ z, InBox R z →
            y ≤ f z + max 1 (spread / 10) * runErrorUpper B Λ smax lmin (δ / 10) n) := by
  obtain ⟨M, hM⟩ := C150_upper_run (d := d) (R := R) hb hB hΛ (smax := smax) hl hη n₀
  refine ⟨M, fun env a w st m δ H o spread gap f clock target r num_init X u u' res hw hR hcov hδ hg hu hf
    ht hr hX hlen hgap hT h => ?_⟩
  subst hR
  obtain ⟨hbox, u1, u3, r2, h1, -, h2, hu1, -⟩ := optimize_run hw ht hr hX h
  rw [h2]
  exact hM env a w st m δ H o spread gap f clock target X _ u1 u3 r2 hw rfl hcov hδ hg (hu1 ▸ hu) hf ht hbox hlen
    hgap (by omega) h1

/-! ### Examples -/

/-- C150 at work: on `exp (-|z|² / 2) - 2` over `[0, 10]²`, a run from `(0, 0)` evaluates nothing but
`(0, 0)`, where the function is highest. -/
example (T : ℕ) : ∃ w u res, create ⟨false, false⟩ (searchArgs "pure_exploit" T) = .ok (w, {}) ∧
    optimize w ⟨fun _ => lowRoutines, fun _ => exForest.forest⟩ (fun k => k)
      (fun _ x => .ok (.fin (bump x - 2))) lowRoutines.draws 1 ⟨({}, 0), 0, []⟩ = (u, .ok res) ∧
    res.X.length = T + 2 ∧ (∀ z ∈ res.X, z = fun _ => 0) ∧
    ∀ z : Point 2, bump z - 2 ≤ bump (fun _ => 0) - 2 := by
  obtain ⟨hdraws, ⟨w, hw⟩, hrun, hwell⟩ := search_object (acq := "pure_exploit") (by decide) T
  obtain ⟨u, res, hres, hlen, -⟩ := C72_run hw hrun hwell hdraws (fun k => k)
    (target := fun _ x => .ok (.fin (bump x - 2))) (fun _ x _ => ⟨_, rfl⟩) (num_init := 1)
    (by norm_num) 0 0 []
  have h0 : bump (fun _ => 0) = 1 := by norm_num [bump]
  refine ⟨w, u, res, hw, hres, ?_, ?_, fun z => ?_⟩
  · have : (res.X.length : ℤ) = 1 + (T + 1) := hlen
    omega
  · refine (C150_optimize (n := 1) (f := fun z => bump z - 2) hw rfl rfl
      (show "se" ∈ baseNames by simp [baseNames])
      prior_level (H := {(1, fun _ => 1)}) ?_ ?_ ?_ (fun _ _ _ => rfl) hdraws le_rfl (x := fun _ => 0)
      ?_ ?_ (fun _ => .inl rfl) hres).1
    · rintro s l h
      obtain ⟨rfl, rfl⟩ := Prod.mk.inj h
      simp
    · intro k method f x0 bounds jac v hv
      obtain rfl := Except.ok.inj hv
      exact ⟨1, fun _ => 1, rfl, .inl ⟨rfl, rfl⟩⟩
    · intro k
      refine ⟨fun f g hg hf x0 q hq => ?_, fun f g hg hf q hq => ?_, fun f g hg hf _ _ q hq => ?_⟩ <;>
      · obtain rfl := Except.ok.inj hq
        exact lowest_low hg hf
    · have hm : "sobol" ∈ ALLOWED_SAMPLING_METHOD := by decide
      have hm' : "sobol" ∈ ALLOWED_INITIALIZING_METHOD_BO := by decide
      simp [searchArgs, STR_INITIALIZING_METHOD_BO, getInitials, getSamples, pyAssert, hm, hm', bind,
        Except.bind, getSamplesQmc, lowRoutines, exBox, List.range_succ]
    · have he : Real.exp (-100) ≤ 1 / 100 := by
        rw [Real.exp_neg, inv_le_comm₀ (Real.exp_pos _) (by norm_num)]
        have := Real.add_one_le_exp (100 : ℝ)
        linarith
      have hp := Real.exp_pos (-100)
      have : 10 * Real.exp (-100) / (1 - Real.exp (-100)) < 1 := by
        rw [div_lt_one (by linarith)]
        linarith
      simp only [h0, lowLevel]
      linarith
  · rw [h0]
    have : bump z ≤ 1 := Real.exp_le_one_iff.2 (by nlinarith [sq_nonneg (z 0), sq_nonneg (z 1)])
    linarith

/-- The conditions of the other theorems can be met: on `[0, 1]`, with the kernel `se`, signal and
lengthscale 1, a search from 0 stays where the function is higher by more than `B / 4` than at 1. -/
example {B : ℝ} (hB : 0 < B) : ∃ f : Point 1 → ℝ, NormAtMost "se" 1 (fun _ => 1) B f ∧
    B / 4 < f 0 - f 1 ∧ ∀ x : ℕ → Point 1, x 0 = 0 → (∀ n ≥ 1, x n ∈ Set.Icc (0 : Point 1) 1 ∧
      ChosenBy (fun mu _ _ => pureExploit mu) (Set.Icc 0 1) x (fun i => f (x i))
        ⟨some (.flt (.fin 1)), none, some (.flt (.fin 1)), some (.arr [.fin 1])⟩ "se" none 0 n) →
      ∀ n, f (x n) = f 1 + (f 0 - f 1) := by
  have hd : Describes (⟨some (.flt (.fin 1)), none, some (.flt (.fin 1)), some (.arr [.fin 1])⟩ : HypDict)
      1 1 (fun _ : Fin 1 => 1) := ⟨rfl, rfl, .inl (by simp), by simp⟩
  obtain ⟨f, h1, h2, -, -, h5⟩ := C150_violated (base := "se") (by simp [baseNames]) hd one_ne_zero hB
    (C := Set.Icc (0 : Point 1) 1) (a := 0) (b := 1) (by simp) (by simp) (by simp)
  refine ⟨f, h1, ?_, h5⟩
  have h3 : ¬ ("se" : String) = "matern32" := by decide
  have h4 : ¬ ("se" : String) = "matern52" := by decide
  have hk : kernel "se" 1 (fun _ : Fin 1 => 1) 0 1 < 3 / 4 := by
    have e : kernel "se" 1 (fun _ : Fin 1 => 1) 0 1 = Real.exp (-(1 / 2)) := by
      simp [kernel, profile, h3, h4, seProfile, scaledDistance]
    rw [e, Real.exp_neg]
    have := Real.quadratic_le_exp_of_nonneg (show (0 : ℝ) ≤ 1 / 2 by norm_num)
    rw [inv_lt_comm₀ (Real.exp_pos _) (by norm_num)]
    norm_num at this ⊢
    linarith
  rw [h2]
  simp only [abs_one, mul_one, one_pow, div_one]
  nlinarith

/-- C150 at work: the search of the example of C146, by the upper confidence bound. -/
example {η : ℝ} (hη : 0 < η) : ∃ T w u res,
    create ⟨false, false⟩ (searchArgs "ucb" T) = .ok (w, {}) ∧
    optimize w ⟨fun _ => lowRoutines, fun _ => exForest.forest⟩ (fun k => k)
      (fun _ x => .ok (.fin (bump x))) lowRoutines.draws 2 ⟨({}, 0), 0, []⟩ = (u, .ok res) ∧
    ∃ y, Flt.fin y ∈ res.Y ∧
      ((∀ z, InBox exBox z → y ≤ bump z + max 1 ((1 - Real.exp (-100)) / 10) * (0 / 10 + η)) ∨
        ∃ n, 2 ≤ n ∧ n < T ∧ ∀ z, InBox exBox z → y ≤ bump z + max 1 ((1 - Real.exp (-100)) / 10) *
          runErrorUpper (10 / (1 - Real.exp (-100))) 0 1 1 (0 / 10) n) := by
  have he : Real.exp (-100) < 1 := Real.exp_lt_one_iff.2 (by norm_num)
  have hpos : 0 < 1 - Real.exp (-100) := by linarith
  obtain ⟨T, hT⟩ := C150_upper (d := 2) (R := exBox) (base := "se") (by simp [baseNames])
    (B := 10 / (1 - Real.exp (-100))) (Λ := 0) (smax := 1) (lmin := 1) (by positivity) le_rfl
    one_pos hη 2
  obtain ⟨w, u, res, hw, hres, hgood, hsuits, hdraws, hX, hgap⟩ := search_runs (acq := "ucb") (by decide) T
  refine ⟨T, w, u, res, hw, hres, ?_⟩
  refine hT _ _ _ _ _ _ _ _ _ _ _ _ _ _ _ [fun _ => 0, fun _ => 10] _ _ _ hw rfl rfl le_rfl hgood
    (fun _ => .inl rfl) hsuits (fun _ _ _ => rfl) hdraws hX rfl ⟨fun _ => 10, by simp, fun _ => 0, by simp, hgap.ge⟩ ?_ hres
  show (T : ℤ) ≤ (2 : ℕ) + (T + 1)
  omega

end Verif.Props
