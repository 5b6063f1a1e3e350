import Verif.Lemmas.Thompson
import Verif.Props.Total

/-! C54, C55, C73: Thompson sampling. -/

namespace Verif.Props

open Verif.Spec Verif.Lemmas Verif.UtilsBo Verif.BoCommon Verif.BaseBo Verif.Constants
open Verif.SampleFunctions Verif.ThompsonSampling Verif.WrappersBo

variable {d : ℕ}

/-- C54: what the code does. An iteration that returns had at least two test points, and it returns
the first of them; the sample has no influence. -/
theorem C54_always_first {env : Installed} {o : TsOracles d} {B : Bounds d} {X : List (Point d)}
    {Y : List ℝ} {nY : Bool} {sm : String} {ns : ℤ} {p : Point d}
    (h : iteration env o B X Y nY sm ns = .ok p) :
    ∃ pts, getSamples B o.draws sm ns = .ok pts ∧ 1 < pts.length ∧ pts[0]? = some p ∧
      ∀ f : ℕ → ℝ, iteration env { o with normal := Normal.always f } B X Y nY sm ns = .ok p := by
  obtain ⟨pts, Y', bo, Yt, pred, hp, hl, h0⟩ := iteration_ok h
  refine ⟨pts, ?_, hl, h0, fun f => ?_⟩
  · have := hp.points
    rwa [(modelBo_range (B := B) (bo := bo.1) (st := bo.2) hp.model).1] at this
  · have hp' : Prepared env { o with normal := Normal.always f } B X Y nY sm ns pts Y' bo Yt pred :=
      ⟨hp.lengths, hp.normal, hp.model, hp.points, hp.column, hp.predict⟩
    obtain ⟨q, h1, h2⟩ := (iteration_first hp' (trySample_first rfl)).1 hl
    rw [h0] at h1
    obtain rfl := Option.some.inj h1
    exact h2

/-- C54 as stated fails, and not only in special cases: whenever an iteration returns and its test
points are not all the same, there is a sampled function, over the same test points and with
everything else unchanged, for which the returned point is not where it is smallest. -/
theorem C54_violated {env : Installed} {o : TsOracles d} {B : Bounds d} {X : List (Point d)}
    {Y : List ℝ} {nY : Bool} {sm : String} {ns : ℤ} {p : Point d}
    (h : iteration env o B X Y nY sm ns = .ok p) {pts : List (Point d)}
    (hs : getSamples B o.draws sm ns = .ok pts) (hne : ∃ q ∈ pts, q ≠ p) :
    ∃ f : ℕ → ℝ, iteration env { o with normal := Normal.always f } B X Y nY sm ns = .ok p ∧
      ¬ AtMinimum pts f p := by
  classical
  obtain ⟨pts', hs', hl, h0, hf⟩ := C54_always_first h
  rw [hs] at hs'
  obtain rfl := Except.ok.inj hs'
  refine ⟨fun i => if pts[i]? = some p then 1 else 0, hf _, ?_⟩
  rintro ⟨i, hi, hmin⟩
  obtain ⟨q, hq, hqp⟩ := hne
  obtain ⟨j, hj, rfl⟩ := List.mem_iff_getElem.1 hq
  have := hmin j hj
  simp only at this
  rw [if_pos hi, if_neg (by rw [List.getElem?_eq_getElem hj]; simpa using hqp)] at this
  norm_num at this

/-- C54, the part that holds: the returned point is where the sampled function is smallest if it is
smallest at the first test point. Missing: every other sampled function, see `C54_violated`. -/
theorem C54_minimum_partial {env : Installed} {o : TsOracles d} {B : Bounds d} {X : List (Point d)}
    {Y : List ℝ} {nY : Bool} {sm : String} {ns : ℤ} {p : Point d} {f : ℕ → ℝ}
    (h : iteration env { o with normal := Normal.always f } B X Y nY sm ns = .ok p)
    {pts : List (Point d)} (hs : getSamples B o.draws sm ns = .ok pts)
    (hf : ∀ j < pts.length, f 0 ≤ f j) : AtMinimum pts f p := by
  obtain ⟨pts', hs', hl, h0, -⟩ := C54_always_first h
  have hs'' : getSamples B o.draws sm ns = .ok pts' := hs'
  rw [hs] at hs''
  obtain rfl := Except.ok.inj hs''
  exact ⟨0, h0, hf⟩

/-- C55. A run that returns evaluated the target once per row, in the order of the rows. The first
rows are the initial points and `num_iter` more follow; each response is what the target gave for
its row. The row of pass `k` was chosen from exactly the rows before it; it is one of the test
points of that pass, and within the bounds. -/
theorem C55_keeps_data {env : Installed} {r : Draws d} {o : ℕ → TsOracles d} {B : Bounds d}
    {target : ℕ → Point d → Py Flt} {num_init num_iter : ℤ} {nY : Bool} {sm : String} {ns : ℤ}
    {w w' : World d Unit} (hw : w.log = []) {X : List (Point d)} {Y : List Flt}
    (h : thompsonSamplingGp env r o B target num_init num_iter nY sm ns w = (w', .ok (X, Y))) :
    ∃ X0, getInitials B r sm num_init = .ok X0 ∧ X.length = X0.length + num_iter.toNat ∧
      X.take X0.length = X0 ∧ w'.log = X ∧ Y.length = X.length ∧
      (∀ i y, Y[i]? = some y → ∃ p, X[i]? = some p ∧ target i p = .ok y) ∧
      ∀ k < num_iter.toNat, ∃ pts p Yr, X[X0.length + k]? = some p ∧
        Yr.map Flt.fin = Y.take (X0.length + k) ∧
        iteration env (o k) B (X.take (X0.length + k)) Yr nY sm ns = .ok p ∧
        getSamples B (o k).draws sm ns = .ok pts ∧ p ∈ pts ∧
        (UnitDraws (o k).draws → InBox B p) := by
  simp only [thompsonSamplingGp, bind_apply, RunM.lift] at h
  cases hm : modelBo env B with
  | error e => simp [hm] at h
  | ok b =>
    obtain ⟨bo, st⟩ := b
    obtain ⟨hr, hB⟩ := modelBo_range hm
    simp only [hm, bind_apply, hr] at h
    cases hi : getInitials B r sm num_init with
    | error e => simp [hi] at h
    | ok X0 =>
      simp only [hi] at h
      generalize he : evaluate target X0 w = e at h
      obtain ⟨w1, e | Y0⟩ := e
      · cases h
      obtain ⟨h1, h2⟩ := evaluate_ok (X0 := []) (Y0 := []) hw ⟨rfl, by simp⟩ he
      simp only [List.nil_append] at h1 h2
      obtain ⟨ps, ys, rfl, rfl, h3, h4, h5, h6⟩ := loop_ok h1 h2 h
      refine ⟨X0, rfl, by simp [h3], by simp, h4, h5.1, h5.2, fun k hk => ?_⟩
      obtain ⟨Yr, e1, e2⟩ := h6 k ps[k] (List.getElem?_eq_getElem (by omega))
      obtain ⟨pts, g1, -, g2, -⟩ := C54_always_first e2
      rw [Nat.zero_add] at e2 g1
      have hmem := List.mem_of_getElem? g2
      refine ⟨pts, ps[k], Yr, ?_, ?_, ?_, g1, hmem, fun hu => ?_⟩
      · rw [List.getElem?_append_right (by omega)]
        simp [List.getElem?_eq_getElem (show k < ps.length by omega)]
      · rw [e1, ← h2.1, List.take_length_add_append]
      · rw [List.take_length_add_append]
        exact e2
      · exact C13_in_box B hB _ hu sm ns pts g1 _ hmem

/-- C73. With at least one initial point and two test points, an initialising method, and routines
that work, a run returns `num_init + num_iter` rows. With a single test point every iteration
fails with an `IndexError`: the sample is then a plain number. -/
theorem C73_run (env : Installed) (hd : 0 < d) {r : Draws d} (hr : UnitDraws r)
    {o : ℕ → TsOracles d} (ho : ∀ k, TsWell (o k)) {B : Bounds d} (hB : ∀ i, (B i).1 ≤ (B i).2)
    {target : ℕ → Point d → Py Flt}
    (ht : ∀ k x, InBox B x → ∃ y : ℝ, target k x = .ok (.fin y)) {num_init : ℤ}
    (hi : 1 ≤ num_init) (num_iter : ℕ) (nY : Bool) {sm : String}
    (hsm : sm ∈ ["sobol", "halton", "uniform", "gaussian"]) {ns : ℤ} (w : World d Unit)
    (hw : w.log = []) :
    (2 ≤ ns → ∃ w' X Y, thompsonSamplingGp env r o B target num_init num_iter nY sm ns w =
      (w', .ok (X, Y)) ∧ (X.length : ℤ) = num_init + num_iter ∧ Y.length = X.length ∧
      ∀ x ∈ X, InBox B x) ∧
    (ns = 1 → 0 < num_iter → ∃ w',
      thompsonSamplingGp env r o B target num_init num_iter nY sm ns w = (w', .error .index)) := by
  have hal : sm ∈ ALLOWED_SAMPLING_METHOD := by
    simp only [List.mem_cons, List.not_mem_nil, or_false] at hsm
    rcases hsm with rfl | rfl | rfl | rfl <;> decide
  have hin : sm = "uniform" ∨ sm = "gaussian" ∨ sm = "sobol" ∨ sm = "halton" := by
    simp only [List.mem_cons, List.not_mem_nil, or_false] at hsm
    tauto
  obtain ⟨bo, st, hm, hrB⟩ := modelBo_total env hB
  obtain ⟨X0, h0, hne, hbox⟩ := samples_total hd hB hr hal (ns := num_init) (by omega)
  have h0' : getInitials B r sm num_init = .ok X0 := by rw [C13_initials, if_pos hin, h0]
  obtain ⟨w1, Y0, h1, h2⟩ := evaluate_total ht w hbox
  have hrun : thompsonSamplingGp env r o B target num_init num_iter nY sm ns w =
      ThompsonSampling.loop env o target B nY sm ns num_iter 0 X0 (Y0.map Flt.fin) w1 := by
    simp only [thompsonSamplingGp, bind_apply, RunM.lift, hm, hrB, h0', h1, Int.toNat_natCast]
  obtain ⟨h3, h4⟩ := loop_total' env hd ho hB ht nY hal (ns := ns) num_iter 0 w1 hne h2.symm
  constructor
  · intro hns
    obtain ⟨w', ⟨X, Y⟩, h5⟩ := h3 hns
    refine ⟨w', X, Y, hrun.trans h5, ?_⟩
    obtain ⟨X0', g1, g2, g3, -, g4, -, g5⟩ := C55_keeps_data hw (hrun.trans h5)
    rw [h0'] at g1
    obtain rfl := Except.ok.inj g1
    have hlen : (X0.length : ℤ) = num_init := by
      obtain ⟨m, rfl⟩ := Int.eq_ofNat_of_zero_le (show 0 ≤ num_init by omega)
      have hg : sm ≠ "grid" := by rcases hin with rfl | rfl | rfl | rfl <;> decide
      exact_mod_cast (C14_count_partial B r sm hg m X0 h0).1
    refine ⟨by rw [g2, Int.toNat_natCast]; push_cast; rw [hlen], g4, fun x hx => ?_⟩
    obtain ⟨i, hil, rfl⟩ := List.mem_iff_getElem.1 hx
    by_cases hi0 : i < X0.length
    · refine hbox _ ?_
      have : (X.take X0.length)[i]'(by simp; omega) = X[i] := by simp
      rw [← this]
      simp [g3]
    · obtain ⟨pts, p, Yr, k1, -, -, -, -, k2⟩ := g5 (i - X0.length) (by omega)
      rw [show X0.length + (i - X0.length) = i by omega, List.getElem?_eq_getElem hil] at k1
      rw [Option.some.inj k1]
      exact k2 (ho _).draws
  · intro hns hn
    exact ⟨w1, hrun.trans (h4 hns hn)⟩

/-- C81. The sample of an iteration is drawn with the first of the jitters
0, 1e-4, 0.01, 1, 10, 100, 1000, 10000 on the diagonal that does not lead to a `ValueError`. If all
do, the iteration raises a `ValueError`; any other exception is passed on as it is. -/
theorem C81_jitter {env : Installed} {o : TsOracles d} {B : Bounds d} (hB : ∀ i, (B i).1 ≤ (B i).2)
    {X : List (Point d)} {Y Y' : List ℝ} {Yt : Fin X.length → ℝ} {nY : Bool} {sm : String} {ns : ℤ}
    {pts : List (Point d)} {mu sd : Fin pts.length → ℝ}
    {S : Matrix (Fin pts.length) (Fin pts.length) ℝ} (hl : X.length = Y.length)
    (hY : (nY = true ∧ normalizeMinMax Y = .ok Y') ∨ (nY = false ∧ Y = Y'))
    (hYt : List.ofFn Yt = Y') (hp : getSamples B o.draws sm ns = .ok pts)
    (hpred : Gp.predictWithOptimizedHyps o.fitHyps (.vec X.get) Yt (.vec pts.get) "matern52" "BFGS"
      none = .ok (mu, sd, S)) :
    let draw := fun j : ℝ => o.normal.frozen mu (S + j • 1)
    let jitters : List ℝ := [0, 1 / 10000, 1 / 100, 1, 10, 100, 1000, 10000]
    (∀ pre j post, jitters = pre ++ j :: post → (∀ i ∈ pre, draw i = .error .value) →
      (∀ rv, draw j = .ok rv → 1 < pts.length →
        ∃ p, pts[0]? = some p ∧ iteration env o B X Y nY sm ns = .ok p) ∧
      ∀ e, draw j = .error e → e ≠ .value → iteration env o B X Y nY sm ns = .error e) ∧
    ((∀ i ∈ jitters, draw i = .error .value) →
      iteration env o B X Y nY sm ns = .error .value) := by
  intro draw jitters
  have hj : listJitters = jitters := by
    simp only [listJitters, jitters]
    norm_num
  obtain ⟨bo, st, hm, hr⟩ := modelBo_total env hB
  have hprep : Prepared env o B X Y nY sm ns pts Y' (bo, st) Yt (mu, sd, S) := by
    refine ⟨hl, ?_, hm, by rw [hr]; exact hp, ?_, hpred⟩
    · rcases hY with ⟨rfl, h⟩ | ⟨rfl, rfl⟩
      · exact h
      · rfl
    · subst hYt
      have h1 : (List.ofFn Yt).length = X.length := List.length_ofFn
      rw [column, dif_pos h1.symm]
      congr 1
      ext i
      simp
  constructor
  · intro pre j post hsplit hpre
    have h1 : trySample o.normal mu S listJitters = trySample o.normal mu S (j :: post) := by
      rw [hj, hsplit]
      exact trySample_skip hpre
    constructor
    · intro rv hrv h2
      refine (iteration_first hprep (rv := rv) ?_).1 h2
      rw [h1, trySample]
      simp only [sampleFunctions, draw] at hrv ⊢
      simp only [hrv, bind, Except.bind, pure, Except.pure]
    · intro e he hne
      rw [iteration_prepared hprep, h1, trySample]
      simp only [sampleFunctions, draw] at he ⊢
      simp only [he, bind, Except.bind]
  · intro hall
    have h1 : trySample o.normal mu S listJitters = .ok none := by
      rw [hj, ← List.append_nil jitters, trySample_skip hall]
      rfl
    rw [iteration_prepared hprep, h1]
    rfl

/-- Routines for the examples: the hyperparameters stay at their start, the test points are two
opposite corners in turn, and the sample is twice the index of the test point, downwards. -/
noncomputable def exTs : TsOracles 2 where
  fitHyps := exRoutines.fitHyps
  draws := ⟨fun _ => 1 / 2, fun k => 100 * k, fun k _ => if k % 2 = 0 then 0 else 1, fun _ _ => 1⟩
  normal := Normal.always fun i => -2 * i

theorem exTs_well : TsWell exTs where
  fit := exRoutines_fit _
  draws := by
    refine ⟨fun k => by norm_num [exTs], fun k j => ?_, fun k j => by norm_num [exTs]⟩
    simp only [exTs]
    split <;> norm_num
  normal := fun _ _ _ _ _ => ⟨_, rfl⟩

/-- C54: the hypotheses of `C54_violated` are met, and the sample of this example itself is a
counterexample: it is smallest at the second of the two test points, and the first is returned. -/
example : ∃ p pts, iteration ⟨false, false⟩ exTs exBox [![1, 2], ![3, 4]] [3, 1] true "sobol" 2 =
    .ok p ∧ getSamples exBox exTs.draws "sobol" 2 = .ok pts ∧ (∃ q ∈ pts, q ≠ p) ∧
    ¬ AtMinimum pts (fun i => -2 * i) p := by
  obtain ⟨p, h, -⟩ := (iteration_total ⟨false, false⟩ (by norm_num) exTs_well exBox_le
    (X := [![1, 2], ![3, 4]]) (Y := [3, 1]) (by simp) rfl true (sm := "sobol") (by decide)
    (ns := 2)).1 (by norm_num)
  obtain ⟨pts, h1, h2, h3, -⟩ := C54_always_first h
  have hp : pts = [fun _ => 0, fun _ => 10] := by
    have h1' := h1
    simp only [getSamples, pyAssert, bind, Except.bind, getSamplesQmc,
      show "sobol" ∈ ALLOWED_SAMPLING_METHOD by decide, if_true] at h1'
    simp [exTs, exBox, List.range_succ] at h1'
    rw [← h1']
  subst hp
  obtain rfl := Option.some.inj h3
  refine ⟨_, _, h, h1, ⟨fun _ => 10, by simp, fun h => ?_⟩, ?_⟩
  · have := congrFun h 0
    norm_num at this
  · rintro ⟨i, hi, hmin⟩
    have h10 := hmin 1 (by simp)
    obtain rfl | rfl | hi2 : i = 0 ∨ i = 1 ∨ 2 ≤ i := by omega
    · norm_num at h10
    · have := congrFun (Option.some.inj hi) 0
      norm_num at this
    · rw [List.getElem?_eq_none (by simpa using hi2)] at hi
      cases hi

/-- C81: a generator that refuses every covariance matrix. -/
example : iteration ⟨false, false⟩ { exTs with normal := ⟨fun _ _ => .error .value⟩ } exBox
    [![1, 2], ![3, 4]] [3, 1] false "sobol" 2 = .error .value := by
  obtain ⟨pts, Y', bo, Yt, pred, h, hs, -⟩ := prepared_total ⟨false, false⟩ (by norm_num)
    exTs_well.fit exTs_well.draws exBox_le (X := [![1, 2], ![3, 4]]) (Y := [3, 1]) (by simp) rfl false
    (sm := "sobol") (by decide) (ns := 2) (by norm_num)
  have h2 : [3, 1] = Y' := Except.ok.inj h.normal
  have h3 : List.ofFn Yt = Y' := by
    subst h2
    have := h.column
    rw [column, dif_pos (by simp)] at this
    rw [← Except.ok.inj this]
    simp
  exact (C81_jitter exBox_le (o := { exTs with normal := ⟨fun _ _ => .error .value⟩ }) rfl
    (.inr ⟨rfl, h2⟩) h3 hs h.predict).2 fun _ _ => rfl

/-- C55, C73: a run of two initial points and three iterations. -/
example : ∃ w' X Y, thompsonSamplingGp ⟨false, false⟩ exTs.draws (fun _ => exTs) exBox
    (fun k x => .ok (.fin (x 0 + k))) 2 3 true "sobol" 5 ⟨(), 0, []⟩ = (w', .ok (X, Y)) ∧
    X.length = 5 := by
  obtain ⟨w', X, Y, h, h1, -⟩ := (C73_run ⟨false, false⟩ (by norm_num) exTs_well.draws
    (fun _ => exTs_well) exBox_le (target := fun k x => .ok (.fin (x 0 + k)))
    (fun _ _ _ => ⟨_, rfl⟩) (num_init := 2) (by norm_num) 3 true (sm := "sobol") (by decide)
    (ns := 5) ⟨(), 0, []⟩ rfl).1 (by norm_num)
  exact ⟨w', X, Y, h, by exact_mod_cast h1⟩

end Verif.Props
