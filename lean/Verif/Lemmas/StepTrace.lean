import Verif.Lemmas.OptM
import Verif.Spec.Run

/-! What a successful call of `optimize` went through. -/

namespace Verif.Lemmas

open Verif.BoCommon Verif.UtilsBo Verif.UtilsCovariance Verif.Constants Verif.BaseBo Verif.Spec
open Verif.Covariance (Inputs)

variable {n d : ℕ}

theorem now_ok {σ : Type} {c : ℕ → ℝ} {s r : σ × ℕ} {x : ℝ}
    (h : (OptM.now c : OptM σ ℝ) s = (r, .ok x)) : x = c s.2 ∧ r = (s.1, s.2 + 1) := by
  obtain ⟨h1, h2⟩ := Prod.mk.inj h
  exact ⟨(Except.ok.inj h2).symm, h1.symm⟩

theorem inBounds_ok {points out : List (Point d)} {B : Bounds d}
    (h : checkPointsInBounds points B = .ok out) : out = points ∧ ∀ p ∈ points, InBox B p := by
  unfold checkPointsInBounds at h
  by_cases h1 : ∀ p ∈ points, ∀ i, (B i).1 ≤ p i
  · by_cases h2 : ∀ p ∈ points, ∀ i, p i ≤ (B i).2
    · simp only [pyAssert, if_pos h1, if_pos h2] at h
      exact ⟨(Except.ok.inj h).symm, fun p hp i => ⟨h1 p hp i, h2 p hp i⟩⟩
    · simp only [pyAssert, if_pos h1, if_neg h2] at h
      cases h
  · simp only [pyAssert, if_neg h1] at h
    cases h

theorem nextInBounds_ok {p q : Point d} {B : Bounds d}
    (h : (do pyIndex (← checkPointsInBounds [p] B) 0 : Py (Point d)) = .ok q) :
    q = p ∧ InBox B p := by
  cases hc : checkPointsInBounds [p] B with
  | error e => rw [hc] at h; cases h
  | ok l =>
    rw [hc] at h
    obtain ⟨rfl, hb⟩ := inBounds_ok hc
    exact ⟨(Except.ok.inj h).symm, hb p (by simp)⟩

theorem column_ok {Y : List ℝ} {v : Fin n → ℝ} (h : column n Y = .ok v) :
    n = Y.length ∧ List.ofFn v = Y := by
  unfold column at h
  split at h
  · next hn =>
    refine ⟨hn, ?_⟩
    obtain rfl := Except.ok.inj h
    subst hn
    exact List.ofFn_getElem
  · cases h

/-- A method call that never reads the clock. -/
def NoClock {σ α : Type} (m : OptM σ α) : Prop := ∀ s t, (m (s, t)).1.2 = t

theorem NoClock.bind {σ α β : Type} {m : OptM σ α} {f : α → OptM σ β} (h : NoClock m)
    (hf : ∀ a, NoClock (f a)) : NoClock (m >>= f) := by
  intro s t
  have h1 := h s t
  rcases OptM.bind_cases m f (s, t) with ⟨a, s1, e1, e2⟩ | ⟨e, s1, e1, e2⟩
  · rw [e2]
    rw [e1] at h1
    obtain ⟨s1, t1⟩ := s1
    simp only at h1
    subst h1
    exact hf a s1 t1
  · rw [e2]
    rw [e1] at h1
    exact h1

theorem NoClock.lift {σ α : Type} (p : Py α) : NoClock (OptM.lift p : OptM σ α) := fun _ _ => rfl
theorem NoClock.get {σ : Type} : NoClock (OptM.get : OptM σ σ) := fun _ _ => rfl
theorem NoClock.set {σ : Type} (a : σ) : NoClock (OptM.set a) := fun _ _ => rfl
theorem NoClock.pure {σ α : Type} (a : α) : NoClock (Pure.pure a : OptM σ α) := fun _ _ => rfl

/-- The fit never reads the clock. -/
theorem fitSurrogate_noClock (bo : BoWGp.BOwGP d) (o : Oracles d) (X : Inputs n d)
    (Y : Fin n → ℝ) (mlm : String) : NoClock (BoWGp.fitSurrogate bo o X Y mlm) := by
  unfold BoWGp.fitSurrogate
  split
  · exact .bind (.lift _) fun _ => .pure _
  split
  · exact .bind (.lift _) fun _ => .lift _
  split
  · refine .bind .get fun s => ?_
    split
    · exact .bind (.lift _) fun _ => .bind (.lift _) fun _ => .bind (.set _) fun _ => .pure _
    · refine .bind (.lift _) fun h => ?_
      cases h with
      | none => exact .lift _
      | some h => exact .bind (.lift _) fun _ => .pure _
  · exact .lift _

theorem gp_optimize_ok {bo : BoWGp.BOwGP d} {o : Oracles d} {clock : ℕ → ℝ} {X : Inputs n d}
    {Y : List ℝ} {sm : String} {ns : ℤ} {mlm : String} {st : BoWGp.GpState} {t : ℕ}
    {r : BoWGp.GpState × ℕ} {p : Point d} {info : DictInfo n d}
    (h : BoWGp.optimize bo o clock X Y sm ns mlm (st, t) = (r, .ok (p, info))) :
    X.rank = 2 ∧ n = Y.length ∧ 0 < ns ∧ sm ∈ ALLOWED_SAMPLING_METHOD ∧ mlm ∈ ALLOWED_MLM_METHOD ∧
    info.Y_original = Y ∧
    (if bo.normalize_Y = true ∧ mlm ≠ "converged" then normalizeMinMax Y else .ok Y) =
      .ok info.Y_normalized ∧
    ∃ Y_train st1, column n info.Y_normalized = .ok Y_train ∧
      BoWGp.fitSurrogate bo o X Y_train mlm (st, t + 2) = ((st1, t + 2), .ok info.fit) ∧
      r = ({ st1 with historical_hyps := st1.historical_hyps ++ [info.fit.map (·.2.2)] }, t + 6) ∧
      optimizeAcq bo.toBaseBO o (onePoint (BoWGp.negAcquisition bo X Y_train info.fit)) sm ns =
        .ok (p, info.next_points) ∧
      InBox bo.range_X p ∧ (∀ q ∈ info.next_points, InBox bo.range_X q) ∧
      BoWGp.negAcquisition bo X Y_train info.fit info.next_points = .ok info.acquisitions ∧
      info.time_surrogate = clock (t + 2) - clock (t + 1) ∧
      info.time_acq = clock (t + 4) - clock (t + 3) ∧
      info.time_overall = clock (t + 5) - clock t := by
  unfold BoWGp.optimize at h
  obtain ⟨_, s1, a, h⟩ := OptM.bind_ok h
  obtain ⟨a1, rfl⟩ := lift_ok a
  obtain ⟨_, s1, a, h⟩ := OptM.bind_ok h
  obtain ⟨a2, rfl⟩ := lift_ok a
  obtain ⟨_, s1, a, h⟩ := OptM.bind_ok h
  obtain ⟨a3, rfl⟩ := lift_ok a
  obtain ⟨_, s1, a, h⟩ := OptM.bind_ok h
  obtain ⟨a4, rfl⟩ := lift_ok a
  obtain ⟨_, s1, a, h⟩ := OptM.bind_ok h
  obtain ⟨a5, rfl⟩ := lift_ok a
  obtain ⟨_, s1, a, h⟩ := OptM.bind_ok h
  obtain ⟨rfl, rfl⟩ := now_ok a
  obtain ⟨Y', s1, a, h⟩ := OptM.bind_ok h
  obtain ⟨a6, rfl⟩ := lift_ok a
  obtain ⟨Yt, s1, a, h⟩ := OptM.bind_ok h
  obtain ⟨a7, rfl⟩ := lift_ok a
  obtain ⟨_, s1, a, h⟩ := OptM.bind_ok h
  obtain ⟨rfl, rfl⟩ := now_ok a
  obtain ⟨fit, s1, a8, h⟩ := OptM.bind_ok h
  have ht := fitSurrogate_noClock bo o X Yt mlm st (t + 1 + 1)
  rw [a8] at ht
  obtain ⟨st1, t1⟩ := s1
  simp only at ht
  subst ht
  obtain ⟨_, s1, a, h⟩ := OptM.bind_ok h
  obtain rfl : ({ st1 with historical_hyps := st1.historical_hyps ++ [fit.map (·.2.2)] },
    t + 1 + 1) = s1 := (Prod.mk.inj a).1
  obtain ⟨_, s1, a, h⟩ := OptM.bind_ok h
  obtain ⟨rfl, rfl⟩ := now_ok a
  obtain ⟨_, s1, a, h⟩ := OptM.bind_ok h
  obtain ⟨rfl, rfl⟩ := now_ok a
  obtain ⟨⟨p', pts'⟩, s1, a, h⟩ := OptM.bind_ok h
  obtain ⟨a9, rfl⟩ := lift_ok a
  obtain ⟨p1, s1, a, h⟩ := OptM.bind_ok h
  obtain ⟨a10, rfl⟩ := lift_ok a
  obtain ⟨pts, s1, a, h⟩ := OptM.bind_ok h
  obtain ⟨a11, rfl⟩ := lift_ok a
  obtain ⟨_, s1, a, h⟩ := OptM.bind_ok h
  obtain ⟨rfl, rfl⟩ := now_ok a
  obtain ⟨acqs, s1, a, h⟩ := OptM.bind_ok h
  obtain ⟨a12, rfl⟩ := lift_ok a
  obtain ⟨_, s1, a, h⟩ := OptM.bind_ok h
  obtain ⟨rfl, rfl⟩ := now_ok a
  obtain ⟨hr, hi⟩ := Prod.mk.inj h
  obtain ⟨rfl, rfl⟩ := Prod.mk.inj (Except.ok.inj hi)
  obtain ⟨rfl, b1⟩ := nextInBounds_ok a10
  obtain ⟨rfl, b2⟩ := inBounds_ok a11
  exact ⟨pyAssert_ok a1, (column_ok a2).1, pyAssert_ok a3, pyAssert_ok a4, pyAssert_ok a5, rfl, a6,
    Yt, st1, a7, a8, hr.symm, a9, b1, b2, a12, rfl, rfl, rfl⟩

theorem tp_optimize_ok {bo : BoWTp.BOwTP d} {o : Oracles d} {clock : ℕ → ℝ} {X : Inputs n d}
    {Y : List ℝ} {sm : String} {ns : ℤ} {st : BoWTp.TpState} {t : ℕ}
    {r : BoWTp.TpState × ℕ} {p : Point d} {info : DictInfo n d}
    (h : BoWTp.optimize bo o clock X Y sm ns (st, t) = (r, .ok (p, info))) :
    X.rank = 2 ∧ n = Y.length ∧ 0 < ns ∧ sm ∈ ALLOWED_SAMPLING_METHOD ∧
    info.Y_original = Y ∧
    (if bo.normalize_Y = true then normalizeMinMax Y else .ok Y) = .ok info.Y_normalized ∧
    ∃ Y_train fit, column n info.Y_normalized = .ok Y_train ∧ info.fit = some fit ∧
      Tp.getOptimizedKernel o.fitHyps X Y_train bo.prior_mu bo.str_cov bo.str_optimizer_method_tp
        bo.use_ard = .ok fit ∧
      r = ({ st with historical_hyps := st.historical_hyps ++ [fit.2.2] }, t + 6) ∧
      optimizeAcq bo.toBaseBO o (onePoint (BoWTp.negAcquisition bo X Y_train fit)) sm ns =
        .ok (p, info.next_points) ∧
      InBox bo.range_X p ∧ (∀ q ∈ info.next_points, InBox bo.range_X q) ∧
      BoWTp.negAcquisition bo X Y_train fit info.next_points = .ok info.acquisitions ∧
      info.time_surrogate = clock (t + 2) - clock (t + 1) ∧
      info.time_acq = clock (t + 4) - clock (t + 3) ∧
      info.time_overall = clock (t + 5) - clock t := by
  unfold BoWTp.optimize at h
  obtain ⟨_, s1, a, h⟩ := OptM.bind_ok h
  obtain ⟨a1, rfl⟩ := lift_ok a
  obtain ⟨_, s1, a, h⟩ := OptM.bind_ok h
  obtain ⟨a2, rfl⟩ := lift_ok a
  obtain ⟨_, s1, a, h⟩ := OptM.bind_ok h
  obtain ⟨a3, rfl⟩ := lift_ok a
  obtain ⟨_, s1, a, h⟩ := OptM.bind_ok h
  obtain ⟨a4, rfl⟩ := lift_ok a
  obtain ⟨_, s1, a, h⟩ := OptM.bind_ok h
  obtain ⟨rfl, rfl⟩ := now_ok a
  obtain ⟨Y', s1, a, h⟩ := OptM.bind_ok h
  obtain ⟨a6, rfl⟩ := lift_ok a
  obtain ⟨Yt, s1, a, h⟩ := OptM.bind_ok h
  obtain ⟨a7, rfl⟩ := lift_ok a
  obtain ⟨_, s1, a, h⟩ := OptM.bind_ok h
  obtain ⟨rfl, rfl⟩ := now_ok a
  obtain ⟨fit, s1, a, h⟩ := OptM.bind_ok h
  obtain ⟨a8, rfl⟩ := lift_ok a
  obtain ⟨s2, s1, a, h⟩ := OptM.bind_ok h
  obtain ⟨e1, e2⟩ := Prod.mk.inj a
  obtain rfl := Except.ok.inj e2
  subst e1
  obtain ⟨_, s1, a, h⟩ := OptM.bind_ok h
  obtain rfl : ({ st with historical_hyps := st.historical_hyps ++ [fit.2.2] },
    t + 1 + 1) = s1 := (Prod.mk.inj a).1
  obtain ⟨_, s1, a, h⟩ := OptM.bind_ok h
  obtain ⟨rfl, rfl⟩ := now_ok a
  obtain ⟨_, s1, a, h⟩ := OptM.bind_ok h
  obtain ⟨rfl, rfl⟩ := now_ok a
  obtain ⟨⟨p', pts'⟩, s1, a, h⟩ := OptM.bind_ok h
  obtain ⟨a9, rfl⟩ := lift_ok a
  obtain ⟨p1, s1, a, h⟩ := OptM.bind_ok h
  obtain ⟨a10, rfl⟩ := lift_ok a
  obtain ⟨pts, s1, a, h⟩ := OptM.bind_ok h
  obtain ⟨a11, rfl⟩ := lift_ok a
  obtain ⟨_, s1, a, h⟩ := OptM.bind_ok h
  obtain ⟨rfl, rfl⟩ := now_ok a
  obtain ⟨acqs, s1, a, h⟩ := OptM.bind_ok h
  obtain ⟨a12, rfl⟩ := lift_ok a
  obtain ⟨_, s1, a, h⟩ := OptM.bind_ok h
  obtain ⟨rfl, rfl⟩ := now_ok a
  obtain ⟨hr, hi⟩ := Prod.mk.inj h
  obtain ⟨rfl, rfl⟩ := Prod.mk.inj (Except.ok.inj hi)
  obtain ⟨rfl, b1⟩ := nextInBounds_ok a10
  obtain ⟨rfl, b2⟩ := inBounds_ok a11
  exact ⟨pyAssert_ok a1, (column_ok a2).1, pyAssert_ok a3, pyAssert_ok a4, rfl, a6,
    Yt, fit, a7, rfl, a8, hr.symm, a9, b1, b2, a12, rfl, rfl, rfl⟩

theorem trees_optimize_ok {σ : Type} {bo : BaseBO d} {o : BoWTrees.TreesOracles d}
    {clock : ℕ → ℝ} {X : List (Point d)} {Y : List ℝ} {sm : String} {ns : ℤ} {st : σ} {t : ℕ}
    {r : σ × ℕ} {p : Point d} {info : BoWTrees.DictInfoTrees d}
    (h : BoWTrees.optimize bo o clock X Y sm ns (st, t) = (r, .ok (p, info))) :
    X.length = Y.length ∧ 0 < ns ∧ sm ∈ ALLOWED_SAMPLING_METHOD ∧ info.Y_original = Y ∧
    (if bo.normalize_Y = true then normalizeMinMax Y else .ok Y) = .ok info.Y_normalized ∧
    BoWTrees.getTrees bo o.forest X info.Y_normalized = .ok info.trees ∧
    r = (st, t + 6) ∧
    getSamples bo.range_X o.draws sm ns = .ok info.next_points ∧
    (∀ q ∈ info.next_points, InBox bo.range_X q) ∧
    (∃ a, BoWTrees.computeAcquisitions bo info.next_points X info.Y_normalized info.trees = .ok a ∧
      info.acquisitions = a.map (-1 * ·)) ∧
    (∃ i, npArgmin (info.acquisitions.map Flt.fin) = .ok i ∧ pyIndex info.next_points i = .ok p) ∧
    info.time_surrogate = clock (t + 2) - clock (t + 1) ∧
    info.time_acq = clock (t + 4) - clock (t + 3) ∧
    info.time_overall = clock (t + 5) - clock t := by
  unfold BoWTrees.optimize at h
  obtain ⟨_, s1, a, h⟩ := OptM.bind_ok h
  obtain ⟨a2, rfl⟩ := lift_ok a
  obtain ⟨_, s1, a, h⟩ := OptM.bind_ok h
  obtain ⟨a3, rfl⟩ := lift_ok a
  obtain ⟨_, s1, a, h⟩ := OptM.bind_ok h
  obtain ⟨a4, rfl⟩ := lift_ok a
  obtain ⟨_, s1, a, h⟩ := OptM.bind_ok h
  obtain ⟨rfl, rfl⟩ := now_ok a
  obtain ⟨Y', s1, a, h⟩ := OptM.bind_ok h
  obtain ⟨a6, rfl⟩ := lift_ok a
  obtain ⟨_, s1, a, h⟩ := OptM.bind_ok h
  obtain ⟨rfl, rfl⟩ := now_ok a
  obtain ⟨fit, s1, a, h⟩ := OptM.bind_ok h
  obtain ⟨a8, rfl⟩ := lift_ok a
  obtain ⟨_, s1, a, h⟩ := OptM.bind_ok h
  obtain ⟨rfl, rfl⟩ := now_ok a
  obtain ⟨_, s1, a, h⟩ := OptM.bind_ok h
  obtain ⟨rfl, rfl⟩ := now_ok a
  obtain ⟨pts', s1, a, h⟩ := OptM.bind_ok h
  obtain ⟨a9, rfl⟩ := lift_ok a
  obtain ⟨pts, s1, a, h⟩ := OptM.bind_ok h
  obtain ⟨a11, rfl⟩ := lift_ok a
  obtain ⟨acqs, s1, a, h⟩ := OptM.bind_ok h
  obtain ⟨a12, rfl⟩ := lift_ok a
  obtain ⟨i, s1, a, h⟩ := OptM.bind_ok h
  obtain ⟨a13, rfl⟩ := lift_ok a
  obtain ⟨q, s1, a, h⟩ := OptM.bind_ok h
  obtain ⟨a14, rfl⟩ := lift_ok a
  obtain ⟨_, s1, a, h⟩ := OptM.bind_ok h
  obtain ⟨rfl, rfl⟩ := now_ok a
  obtain ⟨_, s1, a, h⟩ := OptM.bind_ok h
  obtain ⟨rfl, rfl⟩ := now_ok a
  obtain ⟨hr, hi⟩ := Prod.mk.inj h
  obtain ⟨rfl, rfl⟩ := Prod.mk.inj (Except.ok.inj hi)
  obtain ⟨rfl, b2⟩ := inBounds_ok a11
  exact ⟨pyAssert_ok a2, pyAssert_ok a3, pyAssert_ok a4, rfl, a6, a8, hr.symm, a9, b2,
    ⟨acqs, a12, rfl⟩, ⟨i, a13, a14⟩, rfl, rfl, rfl⟩

end Verif.Lemmas
