import Verif.Lemmas.StepTrace
import Verif.Spec.StepState

/-! What any call of `optimize`, successful or not, does to a Gaussian process model. -/

namespace Verif.Lemmas

open Verif.BoCommon Verif.UtilsBo Verif.UtilsCovariance Verif.Constants Verif.BaseBo
open Verif.Covariance (Inputs)

variable {n d : ℕ}

/-- A method call that leaves the object as it is and may read the clock. -/
def Reads {σ α : Type} (m : OptM σ α) : Prop := ∀ s, (m s).1.1 = s.1 ∧ s.2 ≤ (m s).1.2

theorem Reads.bind {σ α β : Type} {m : OptM σ α} {f : α → OptM σ β} (h : Reads m)
    (hf : ∀ a, Reads (f a)) : Reads (m >>= f) := by
  intro s
  have h1 := h s
  rcases OptM.bind_cases m f s with ⟨a, s1, e1, e2⟩ | ⟨e, s1, e1, e2⟩
  · rw [e2]
    rw [e1] at h1
    have h2 := hf a s1
    exact ⟨h2.1.trans h1.1, h1.2.trans h2.2⟩
  · rw [e2]
    rw [e1] at h1
    exact h1

theorem Reads.lift {σ α : Type} (p : Py α) : Reads (OptM.lift p : OptM σ α) :=
  fun _ => ⟨rfl, le_rfl⟩
theorem Reads.now {σ : Type} (c : ℕ → ℝ) : Reads (OptM.now c : OptM σ ℝ) :=
  fun s => ⟨rfl, Nat.le_succ s.2⟩
theorem Reads.pure {σ α : Type} (a : α) : Reads (Pure.pure a : OptM σ α) := fun _ => ⟨rfl, le_rfl⟩

theorem lift_cases {σ α β : Type} (p : Py α) (f : α → OptM σ β) (s : σ × ℕ) :
    (∃ a, p = .ok a ∧ (OptM.lift p >>= f) s = f a s) ∨
      ∃ e, p = .error e ∧ (OptM.lift p >>= f) s = (s, .error e) := by
  cases p with
  | ok a => exact .inl ⟨a, rfl, rfl⟩
  | error e => exact .inr ⟨e, rfl, rfl⟩

/-- The fit, in each mode and with each outcome. -/
theorem fitSurrogate_cases (bo : BoWGp.BOwGP d) (o : Oracles d) (X : Inputs n d)
    (Y : Fin n → ℝ) (mlm : String) (st : BoWGp.GpState) (t : ℕ) :
    (∃ e, BoWGp.fitSurrogate bo o X Y mlm (st, t) = ((st, t), .error e)) ∨
    (mlm = "converged" ∧ st.is_optimize_hyps = true ∧ ∃ fit conv,
      Gp.getOptimizedKernel o.fitHyps X Y bo.prior_mu bo.str_cov bo.str_optimizer_method_gp
        bo.str_modelselection_method bo.use_ard = .ok fit ∧
      BoWGp.checkHistory st.historical_hyps fit.2.2 bo.str_cov FIX_GP_NOISE = .ok conv ∧
      BoWGp.fitSurrogate bo o X Y mlm (st, t) =
        (({ st with is_optimize_hyps := !conv }, t), .ok (some fit))) ∨
    (mlm = "converged" ∧ st.is_optimize_hyps = false ∧ ∃ h K P w,
      st.historical_hyps.getLast? = some (some h) ∧
      Covariance.getKernelInverse X h bo.str_cov (fix_noise := FIX_GP_NOISE) = .ok (K, P, w) ∧
      BoWGp.fitSurrogate bo o X Y mlm (st, t) = ((st, t), .ok (some (K, P, h)))) ∨
    (mlm ≠ "converged" ∧ ∃ f, BoWGp.fitSurrogate bo o X Y mlm (st, t) = ((st, t), .ok f)) := by
  unfold BoWGp.fitSurrogate
  split
  · next h =>
    rcases lift_cases (Gp.getOptimizedKernel o.fitHyps X Y bo.prior_mu bo.str_cov
      bo.str_optimizer_method_gp bo.str_modelselection_method bo.use_ard)
      (fun fit => (pure (some fit) : OptM BoWGp.GpState _)) (st, t) with ⟨a, -, e⟩ | ⟨a, -, e⟩
    · exact .inr (.inr (.inr ⟨by simp [h], some a, e⟩))
    · exact .inl ⟨a, e⟩
  split
  · next h =>
    rcases lift_cases _ _ _ with ⟨a, -, e⟩ | ⟨a, -, e⟩
    · rw [e]
      cases hc : BoWGp.combinedFit (n := n) _ _ with
      | ok f => exact .inr (.inr (.inr ⟨by simp [h], f, rfl⟩))
      | error e => exact .inl ⟨e, rfl⟩
    · rw [e]
      exact .inl ⟨a, rfl⟩
  split
  · next h =>
    have hg : ∀ {β} (f : BoWGp.GpState → OptM BoWGp.GpState β),
        (OptM.get >>= f) (st, t) = f st (st, t) := fun _ => rfl
    rw [hg]
    cases hf : st.is_optimize_hyps with
    | true =>
      simp only [if_true]
      rcases lift_cases _ _ _ with ⟨a, ha, e⟩ | ⟨a, -, e⟩
      · rw [e]
        rcases lift_cases _ _ _ with ⟨b, hb, e⟩ | ⟨b, -, e⟩
        · rw [e]
          exact .inr (.inl ⟨h, trivial, a, b, ha, hb, rfl⟩)
        · rw [e]
          exact .inl ⟨b, rfl⟩
      · rw [e]
        exact .inl ⟨a, rfl⟩
    | false =>
      simp only [Bool.false_eq_true, if_false]
      rcases lift_cases _ _ _ with ⟨a, ha, e⟩ | ⟨a, -, e⟩
      · rw [e]
        have hl : st.historical_hyps.getLast? = some a := by
          unfold pyLast at ha
          split at ha
          · next h => rw [h, Except.ok.inj ha]
          · cases ha
        cases a with
        | none => exact .inl ⟨_, rfl⟩
        | some h' =>
          dsimp only
          rcases lift_cases (Covariance.getKernelInverse X h' bo.str_cov
            (fix_noise := FIX_GP_NOISE)) _ _ with ⟨⟨K, P, w⟩, hb, e⟩ | ⟨b, -, e⟩
          · rw [e]
            exact .inr (.inr (.inl ⟨h, trivial, h', K, P, w, hl, hb, rfl⟩))
          · rw [e]
            exact .inl ⟨b, rfl⟩
      · rw [e]
        exact .inl ⟨a, rfl⟩
  · exact .inl ⟨_, rfl⟩

theorem finites_ok : ∀ {l : List Flt} {v : List ℝ}, finites l = .ok v → l = v.map Flt.fin
  | [], v, h => by
    obtain rfl := Except.ok.inj h
    rfl
  | .fin x :: t, v, h => by
    unfold finites at h
    cases ht : finites t with
    | error e => rw [ht] at h; cases h
    | ok w =>
      rw [ht] at h
      obtain rfl := Except.ok.inj h
      rw [finites_ok ht]
      rfl
  | .pinf :: t, v, h => by cases h
  | .ninf :: t, v, h => by cases h
  | .nan :: t, v, h => by cases h

theorem finites_map (l : List ℝ) : finites (l.map Flt.fin) = .ok l := by
  induction l with
  | nil => rfl
  | cons a t ih =>
    rw [List.map_cons]
    unfold finites
    simp only [ih]
    rfl

theorem near_iff (v w : List ℝ) (hl : w.length = v.length) :
    normList (List.zipWith (· - ·) w v) < normList v * 0.05 ↔ Spec.Near v w := by
  have e : (List.zipWith (· - ·) w v).map (· ^ 2) =
      List.zipWith (fun a b => (b - a) ^ 2) v w := by
    rw [List.map_zipWith, List.zipWith_comm]
  have ha : 0 ≤ (List.zipWith (fun a b => (b - a) ^ 2) v w).sum := by
    refine List.sum_nonneg fun x hx => ?_
    rw [← e] at hx
    obtain ⟨y, -, rfl⟩ := List.mem_map.1 hx
    positivity
  have hb : 0 ≤ (v.map (· ^ 2)).sum := List.sum_nonneg fun x hx => by
    obtain ⟨y, -, rfl⟩ := List.mem_map.1 hx
    positivity
  unfold normList Spec.Near
  rw [e, and_iff_right hl.symm]
  generalize (List.zipWith (fun a b => (b - a) ^ 2) v w).sum = a at *
  generalize (v.map (· ^ 2)).sum = b at *
  rw [show Real.sqrt b * 0.05 = Real.sqrt ((1 / 20) ^ 2 * b) by
    rw [Real.sqrt_mul (by positivity), Real.sqrt_sq (by norm_num)]; ring]
  exact Real.sqrt_lt_sqrt_iff ha

/-- The verdict on a new fit. -/
theorem checkHistory_true (hist : List (Option HypDict)) (hyps : HypDict) (name : String)
    (fix conv : Bool) (h : BoWGp.checkHistory hist hyps name fix = .ok conv) :
    conv = true ↔ ∃ prev v w, hist.getLast? = some (some prev) ∧
      convertHyps name prev true fix = .ok (v.map Flt.fin) ∧
      convertHyps name hyps true fix = .ok (w.map Flt.fin) ∧ Spec.Near v w := by
  unfold BoWGp.checkHistory at h
  split at h
  · next hl =>
    obtain rfl := Except.ok.inj h
    simp [hl]
  · cases h
  · next last hl =>
    unfold checkHypsConvergence at h
    simp only [List.getLast?_singleton] at h
    cases h1 : convertHyps name hyps true fix with
    | error e => rw [h1] at h; cases h
    | ok l1 =>
      rw [h1] at h
      cases h2 : finites l1 with
      | error e => simp only [bind, Except.bind, h2] at h; cases h
      | ok w =>
        cases h3 : convertHyps name last true fix with
        | error e => simp only [bind, Except.bind, h2, h3] at h; cases h
        | ok l2 =>
          cases h4 : finites l2 with
          | error e => simp only [bind, Except.bind, h2, h3, h4] at h; cases h
          | ok v =>
            simp only [bind, Except.bind, h2, h3, h4] at h
            split at h
            · cases h
            · next hlen =>
              rw [not_not] at hlen
              have h5 := finites_ok h2
              have h6 := finites_ok h4
              subst h5 h6
              have : conv = true ↔ Spec.Near v w := by
                rw [← near_iff v w hlen]
                split at h
                · next hn => obtain rfl := Except.ok.inj h; simpa using hn
                · next hn => obtain rfl := Except.ok.inj h; simpa using hn
              rw [this]
              constructor
              · exact fun hn => ⟨last, v, w, hl, h3, rfl, hn⟩
              · rintro ⟨prev, v', w', e1, e2, e3, e4⟩
                rw [hl] at e1
                cases e1
                rw [h3] at e2
                have inj := (List.map_injective_iff.2 fun a b h => Flt.fin.inj h :
                  Function.Injective (List.map Flt.fin))
                rw [inj (Except.ok.inj e2), inj (Except.ok.inj e3)]
                exact e4

/-- Any call: it stops before the third reading of the clock with the object as it was, or the fit
succeeds and is appended to the history. -/
theorem gp_optimize_cases (bo : BoWGp.BOwGP d) (o : Oracles d) (clock : ℕ → ℝ) (X : Inputs n d)
    (Y : List ℝ) (sm : String) (ns : ℤ) (mlm : String) (st : BoWGp.GpState) (t : ℕ) :
    (∃ t' e, t' ≤ t + 2 ∧ BoWGp.optimize bo o clock X Y sm ns mlm (st, t) = ((st, t'), .error e)) ∨
    ∃ Y' Yt f st1,
      (if bo.normalize_Y = true ∧ mlm ≠ "converged" then normalizeMinMax Y else .ok Y) = .ok Y' ∧
      column n Y' = .ok Yt ∧
      BoWGp.fitSurrogate bo o X Yt mlm (st, t + 2) = ((st1, t + 2), .ok f) ∧
      (BoWGp.optimize bo o clock X Y sm ns mlm (st, t)).1.1 =
        { st1 with historical_hyps := st1.historical_hyps ++ [f.map (·.2.2)] } ∧
      t + 3 ≤ (BoWGp.optimize bo o clock X Y sm ns mlm (st, t)).1.2 ∧
      ∀ p info, (BoWGp.optimize bo o clock X Y sm ns mlm (st, t)).2 = .ok (p, info) →
        info.fit = f := by
  have key : (∃ t' e, t' ≤ t + 2 ∧
      BoWGp.optimize bo o clock X Y sm ns mlm (st, t) = ((st, t'), .error e)) ∨
    ∃ Y' Yt f st1,
      (if bo.normalize_Y = true ∧ mlm ≠ "converged" then normalizeMinMax Y else .ok Y) = .ok Y' ∧
      column n Y' = .ok Yt ∧
      BoWGp.fitSurrogate bo o X Yt mlm (st, t + 2) = ((st1, t + 2), .ok f) ∧
      (BoWGp.optimize bo o clock X Y sm ns mlm (st, t)).1.1 =
        { st1 with historical_hyps := st1.historical_hyps ++ [f.map (·.2.2)] } ∧
      t + 3 ≤ (BoWGp.optimize bo o clock X Y sm ns mlm (st, t)).1.2 := by
    unfold BoWGp.optimize
    rcases lift_cases _ _ _ with ⟨_, -, e⟩ | ⟨a, -, e⟩
    case inr => rw [e]; exact .inl ⟨t, a, by omega, rfl⟩
    rw [e]
    rcases lift_cases _ _ _ with ⟨_, -, e⟩ | ⟨a, -, e⟩
    case inr => rw [e]; exact .inl ⟨t, a, by omega, rfl⟩
    rw [e]
    rcases lift_cases _ _ _ with ⟨_, -, e⟩ | ⟨a, -, e⟩
    case inr => rw [e]; exact .inl ⟨t, a, by omega, rfl⟩
    rw [e]
    rcases lift_cases _ _ _ with ⟨_, -, e⟩ | ⟨a, -, e⟩
    case inr => rw [e]; exact .inl ⟨t, a, by omega, rfl⟩
    rw [e]
    rcases lift_cases _ _ _ with ⟨_, -, e⟩ | ⟨a, -, e⟩
    case inr => rw [e]; exact .inl ⟨t, a, by omega, rfl⟩
    rw [e]
    rw [OptM.bind_of_ok (m := OptM.now clock) (s := (st, t)) (s1 := (st, t + 1)) rfl]
    rcases lift_cases _ _ _ with ⟨Y', hY', e⟩ | ⟨a, -, e⟩
    case inr => rw [e]; exact .inl ⟨t + 1, a, by omega, rfl⟩
    rw [e]
    rcases lift_cases _ _ _ with ⟨Yt, hYt, e⟩ | ⟨a, -, e⟩
    case inr => rw [e]; exact .inl ⟨t + 1, a, by omega, rfl⟩
    rw [e]
    rw [OptM.bind_of_ok (m := OptM.now clock) (s := (st, t + 1)) (s1 := (st, t + 2)) rfl]
    have hfit : (∃ e, BoWGp.fitSurrogate bo o X Yt mlm (st, t + 2) = ((st, t + 2), .error e)) ∨
        ∃ st1 f, BoWGp.fitSurrogate bo o X Yt mlm (st, t + 2) = ((st1, t + 2), .ok f) := by
      rcases fitSurrogate_cases bo o X Yt mlm st (t + 2) with h | ⟨-, -, _, _, -, -, h⟩ |
        ⟨-, -, _, _, _, _, -, -, h⟩ | ⟨-, _, h⟩
      · exact .inl h
      · exact .inr ⟨_, _, h⟩
      · exact .inr ⟨_, _, h⟩
      · exact .inr ⟨_, _, h⟩
    rcases hfit with ⟨e, hf⟩ | ⟨st1, f, hf⟩
    · rw [OptM.bind_of_error hf]
      exact .inl ⟨t + 2, e, le_rfl, rfl⟩
    refine .inr ⟨Y', Yt, f, st1, hY', hYt, hf, ?_⟩
    rw [OptM.bind_of_ok hf, OptM.bind_of_ok (m := BoWGp.appendHistory f)
      (s1 := ({ st1 with historical_hyps := st1.historical_hyps ++ [f.map (·.2.2)] }, t + 2)) rfl,
      OptM.bind_of_ok (m := OptM.now clock) rfl]
    have hr : ∀ {α} {m : OptM BoWGp.GpState α} {s : BoWGp.GpState × ℕ}, Reads m →
        (m s).1.1 = s.1 ∧ s.2 ≤ (m s).1.2 := fun h => h _
    refine hr ?_
    refine .bind (.now _) fun _ => .bind (.lift _) fun _ => .bind (.lift _) fun _ =>
      .bind (.lift _) fun _ => .bind (.now _) fun _ => .bind (.lift _) fun _ =>
      .bind (.now _) fun _ => .pure _
  rcases key with h | ⟨Y', Yt, f, st1, h1, h2, h3, h4, h5⟩
  · exact .inl h
  refine .inr ⟨Y', Yt, f, st1, h1, h2, h3, h4, h5, fun p info hi => ?_⟩
  obtain ⟨-, -, -, -, -, -, g1, Yt', st1', g2, g3, -⟩ :=
    gp_optimize_ok (r := (BoWGp.optimize bo o clock X Y sm ns mlm (st, t)).1) (Prod.ext rfl hi)
  rw [h1] at g1
  obtain rfl := Except.ok.inj g1
  rw [h2] at g2
  obtain rfl := Except.ok.inj g2
  rw [h3] at g3
  exact (Except.ok.inj (Prod.mk.inj g3).2).symm

end Verif.Lemmas
