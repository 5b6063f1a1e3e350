import Verif.Lemmas.PointwisePredict
import Verif.Lemmas.StepTrace
import Verif.Lemmas.Selection
import Verif.Props.Selection

/-! The acquisition values of a batch of candidates, and the choice among them. -/

namespace Verif.Lemmas

open Verif.BoCommon Verif.UtilsBo Verif.UtilsCovariance Verif.Constants Verif.BaseBo Verif.Spec
open Verif.Covariance (Inputs)

variable {n d : ℕ}

theorem py_bind_ok {α β : Type} {x : Py α} {f : α → Py β} {b : β} (h : (x >>= f) = .ok b) :
    ∃ a, x = .ok a ∧ f a = .ok b := by
  cases x with
  | error e => cases h
  | ok a => exact ⟨a, rfl, h⟩

theorem acq_single {name : String} {noise : Option ℝ} {f : AcqFun}
    (hf : chooseFunAcquisition name noise = .ok f) {m s v : ℝ} {Y : List ℝ}
    (h : f [m] [s] Y = .ok [v]) : AcqAt name noise m s Y v := by
  have hbest : ∀ b, npMin Y = .ok b → IsBest b Y := fun b hb => npMin_ok.1 hb
  unfold chooseFunAcquisition at hf
  by_cases h0 : name ∈ ALLOWED_BO_ACQ
  swap
  · simp [pyAssert, h0, bind, Except.bind] at hf
  simp only [pyAssert, h0, if_true, bind, Except.bind] at hf
  unfold AcqAt
  split at hf
  · next hn =>
    obtain rfl := Except.ok.inj hf
    cases hb : npMin Y with
    | error e => simp [Acquisition.pi, pyAssert, hb, bind, Except.bind] at h
    | ok b =>
    by_cases hg : (0 : ℝ) = s + JITTER_ACQ
    · simp [Acquisition.pi, Acquisition.guardDiv, pyAssert, hb, ← hg, bind, Except.bind] at h
    · simp [Acquisition.pi, Acquisition.guardDiv, pyAssert, hb, hg, bind, Except.bind, pure,
        Except.pure] at h
      exact .inl ⟨hn, b, hbest b hb, h.symm⟩
  split at hf
  · next hn =>
    obtain rfl := Except.ok.inj hf
    cases hb : npMin Y with
    | error e => simp [Acquisition.ei, pyAssert, hb, bind, Except.bind] at h
    | ok b =>
    by_cases hg : (0 : ℝ) = s + JITTER_ACQ
    · simp [Acquisition.ei, Acquisition.guardDiv, pyAssert, hb, ← hg, bind, Except.bind] at h
    · simp [Acquisition.ei, Acquisition.guardDiv, pyAssert, hb, hg, bind, Except.bind, pure,
        Except.pure] at h
      exact .inr (.inl ⟨hn, b, hbest b hb, h.symm⟩)
  split at hf
  · next hn =>
    obtain rfl := Except.ok.inj hf
    simp [Acquisition.ucb, pyAssert, bind, Except.bind, pure, Except.pure] at h
    exact .inr (.inr (.inl ⟨hn, h.symm⟩))
  split at hf
  · next hn =>
    cases noise with
    | none => cases hf
    | some noise =>
    obtain rfl := Except.ok.inj hf
    cases hb : npMin Y with
    | error e => simp [Acquisition.aei, pyAssert, hb, bind, Except.bind] at h
    | ok b =>
    by_cases hg : (0 : ℝ) = s + JITTER_ACQ
    · simp [Acquisition.aei, Acquisition.guardDiv, pyAssert, hb, ← hg, bind, Except.bind] at h
    · by_cases hg2 : (0 : ℝ) = √(s ^ 2 + noise ^ 2)
      · simp [Acquisition.aei, Acquisition.guardDiv, pyAssert, hb, hg, ← hg2, bind,
          Except.bind] at h
      · simp [Acquisition.aei, Acquisition.guardDiv, pyAssert, hb, hg, hg2, bind, Except.bind, pure,
          Except.pure] at h
        exact .inr (.inr (.inr (.inl ⟨hn, b, noise, hbest b hb, rfl, h.symm⟩)))
  split at hf
  · next hn =>
    obtain rfl := Except.ok.inj hf
    simp [Acquisition.pureExploit, pure, Except.pure] at h
    exact .inr (.inr (.inr (.inr (.inl ⟨hn, h.symm⟩))))
  split at hf
  · next hn =>
    obtain rfl := Except.ok.inj hf
    simp [Acquisition.pureExplore, pure, Except.pure] at h
    exact .inr (.inr (.inr (.inr (.inr ⟨hn, h.symm⟩))))
  · cases hf

theorem noiseArg_ok {h : HypDict} {noise : Option ℝ} (hn : noiseArg h = .ok noise) :
    noise = noiseOf h := by
  unfold noiseArg at hn
  unfold noiseOf
  split at hn
  · next h0 => rw [h0]; exact (Except.ok.inj hn).symm
  · next x h0 =>
    rw [h0]
    cases x <;> simp [Covariance.finite, bind, Except.bind, pure, Except.pure] at hn ⊢
    exact hn.symm
  · cases hn

/-- What `compute_acquisitions` does with any predictor. -/
noncomputable def batchAcq (name : String) (noise : Option ℝ)
    (post : List (Point d) → Py (List ℝ × List ℝ)) (Y : List ℝ) (pts : List (Point d)) :
    Py (List ℝ) := do
  let f ← chooseFunAcquisition name noise
  let (m, s) ← post pts
  let a ← f m s Y
  return (a.map (· * MULTIPLIER_ACQ)).map (-1 * ·)

theorem batchAcq_ok {name : String} {noise : Option ℝ}
    {post : List (Point d) → Py (List ℝ × List ℝ)} {Y : List ℝ} {pts : List (Point d)}
    {out : List ℝ} (h : batchAcq name noise post Y pts = .ok out) :
    ∃ f m s a, chooseFunAcquisition name noise = .ok f ∧ post pts = .ok (m, s) ∧
      f m s Y = .ok a ∧ out = a.map fun v => -10 * v := by
  unfold batchAcq at h
  cases hf : chooseFunAcquisition name noise with
  | error e => rw [hf] at h; cases h
  | ok f =>
  cases hp : post pts with
  | error e => simp [hf, hp, bind, Except.bind] at h
  | ok ms =>
  obtain ⟨m, s⟩ := ms
  cases ha : f m s Y with
  | error e => simp [hf, hp, ha, bind, Except.bind] at h
  | ok a =>
  refine ⟨f, m, s, a, rfl, rfl, ha, ?_⟩
  simp only [hf, hp, ha, bind, Except.bind, pure, Except.pure, Except.ok.injEq,
    List.map_map] at h
  rw [← h]
  refine List.map_congr_left fun v _ => ?_
  simp only [Function.comp, MULTIPLIER_ACQ]
  ring

/-- One candidate alone. -/
theorem batchAcq_single {name : String} {noise : Option ℝ}
    {post : List (Point d) → Py (List ℝ × List ℝ)} {Y : List ℝ}
    (hlen : ∀ pts m s, post pts = .ok (m, s) → m.length = pts.length ∧ s.length = pts.length)
    {q : Point d} {w : Flt} (h : onePoint (batchAcq name noise post Y) q = .ok w) :
    ∃ m s v, post [q] = .ok ([m], [s]) ∧ AcqAt name noise m s Y v ∧ w = .fin (-10 * v) ∧
      batchAcq name noise post Y [q] = .ok [-10 * v] := by
  unfold onePoint at h
  cases hb : batchAcq name noise post Y [q] with
  | error e => rw [hb] at h; cases h
  | ok out =>
  obtain ⟨f, m, s, a, hf, hp, ha, rfl⟩ := batchAcq_ok hb
  obtain ⟨hm, hs⟩ := hlen _ _ _ hp
  obtain ⟨hla, hrow⟩ := acq_row hf (hm.trans hs.symm) ha
  obtain ⟨m0, rfl⟩ := List.length_eq_one_iff.1 hm
  obtain ⟨s0, rfl⟩ := List.length_eq_one_iff.1 hs
  obtain ⟨v, hv, hfv⟩ := hrow 0 m0 s0 rfl rfl
  obtain ⟨v0, rfl⟩ := List.length_eq_one_iff.1 hla
  obtain rfl : v0 = v := by simpa using hv
  refine ⟨m0, s0, v0, hp, acq_single hf hfv, ?_, rfl⟩
  rw [hb] at h
  simpa [bind, Except.bind, pyIndex, pure, Except.pure] using h.symm

/-- A batch is evaluated candidate by candidate when the predictor is. -/
theorem batchAcq_row {name : String} {noise : Option ℝ}
    {post : List (Point d) → Py (List ℝ × List ℝ)} {Y : List ℝ}
    (hlen : ∀ pts m s, post pts = .ok (m, s) → m.length = pts.length ∧ s.length = pts.length)
    {pts : List (Point d)} {out : List ℝ} (h : batchAcq name noise post Y pts = .ok out) :
    out.length = pts.length ∧
    ((∀ m s, post pts = .ok (m, s) → ∀ (i : ℕ) q x y, pts[i]? = some q → m[i]? = some x →
      s[i]? = some y → post [q] = .ok ([x], [y])) →
      ∀ (i : ℕ) q a, pts[i]? = some q → out[i]? = some a →
        batchAcq name noise post Y [q] = .ok [a]) := by
  obtain ⟨f, m, s, a, hf, hp, ha, rfl⟩ := batchAcq_ok h
  obtain ⟨hm, hs⟩ := hlen _ _ _ hp
  obtain ⟨hla, hrow⟩ := acq_row hf (hm.trans hs.symm) ha
  refine ⟨by simp [hla, hm], ?_⟩
  intro hpost i q w hq hw
  have hi : i < pts.length := (List.getElem?_eq_some_iff.1 hq).1
  obtain ⟨v, hv, hfv⟩ := hrow i m[i] s[i] (List.getElem?_eq_getElem (by omega))
    (List.getElem?_eq_getElem (by omega))
  have h1 := hpost m s hp i q _ _ hq (List.getElem?_eq_getElem (by omega))
    (List.getElem?_eq_getElem (by omega))
  have : w = -10 * v := by
    rw [List.getElem?_map, hv] at hw
    simpa using hw.symm
  subst this
  simp only [batchAcq, hf, h1, hfv, bind, Except.bind, pure, Except.pure, List.map_cons,
    List.map_nil, Except.ok.injEq, MULTIPLIER_ACQ, List.cons.injEq, and_true]
  ring

/-- The chosen candidate. -/
theorem optimizeAcq_ok {bo : BaseBO d} {o : Oracles d} {f : Point d → Py Flt} {sm : String}
    {ns : ℤ} {p : Point d} {pts : List (Point d)}
    (h : optimizeAcq bo o f sm ns = .ok (p, pts)) :
    ∃ g : Point d → Flt, (∀ q ∈ pts, f q = .ok (g q)) ∧
      ∃ k, FirstBest (fun _ => True) (pts.map fun q => (q, g q)) k p (g p) := by
  unfold optimizeAcq at h
  obtain ⟨pts', -, h⟩ := py_bind_ok h
  cases hb : getBestAcquisitionByEvaluation pts' f with
  | error e =>
    obtain ⟨_, -, h⟩ := py_bind_ok h
    rw [hb] at h
    cases h
  | ok best =>
    obtain ⟨g, hg⟩ := Props.evaluated_of_ok hb
    obtain ⟨_, -, h⟩ := py_bind_ok h
    rw [hb] at h
    rcases Props.C03_best_by_evaluation pts' f g hg with ⟨k, x, h1, h2⟩ | ⟨h1, -⟩
    · rw [hb] at h1
      obtain rfl := Except.ok.inj h1
      simp only [bind, Except.bind, pyIndex, List.getElem?_cons_zero, pure, Except.pure,
        Except.ok.injEq, Prod.mk.injEq] at h
      obtain ⟨rfl, rfl⟩ := h
      exact ⟨g, hg, k, h2⟩
    · rw [hb] at h1; cases h1

/-- Finite values: the first best one is the first lowest one. -/
theorem firstLowest_of_firstBest {pts : List (Point d)} {g : Point d → Flt} {v : Point d → ℝ}
    (hv : ∀ q ∈ pts, g q = .fin (v q)) {k : ℕ} {p : Point d}
    (h : FirstBest (fun _ => True) (pts.map fun q => (q, g q)) k p (g p)) :
    FirstLowest v pts k p := by
  obtain ⟨h1, -, -, h4, h5⟩ := h
  rw [List.getElem?_map, Option.map_eq_some_iff] at h1
  obtain ⟨p', h1, hp'⟩ := h1
  obtain rfl := (Prod.mk.inj hp').1
  have hp : p' ∈ pts := List.mem_of_getElem? h1
  refine ⟨h1, ?_, ?_⟩
  · intro q hq
    obtain ⟨j, hj⟩ := List.getElem?_of_mem hq
    have := h4 j q (g q) (by simp [hj]) trivial
    rw [hv p' hp, hv q hq] at this
    rcases this with h | h
    · cases h
    · exact (Flt.fin_le_fin _ _).1 h
  · intro j q hj hq
    have := h5 j q (g q) hj (by simp [hq]) trivial
    rw [hv p' hp, hv q (List.mem_of_getElem? hq)] at this
    rcases this with h | h
    · cases h
    · exact (Flt.fin_lt_fin _ _).1 h

end Verif.Lemmas
