import Verif.Lemmas.WrapperClass
import Verif.Lemmas.WrappersBo
import Verif.Lemmas.StepState
import Verif.Props.Propose
import Verif.Props.Units

/-! The steps of a run for the three surrogates. -/

namespace Verif.Lemmas

open Verif.Spec Verif.BoCommon Verif.UtilsBo Verif.Constants Verif.BaseBo Verif.WrapperClass
open Verif.WrappersBo (Info Env)

variable {d : ℕ}

theorem map_ok {α β : Type} {p : Py α} {f : α → β} {b : β} (h : p.map f = .ok b) :
    ∃ a, p = .ok a ∧ f a = b := by
  rcases p with e | a
  · cases h
  · exact ⟨a, rfl, Except.ok.inj h⟩

theorem pair_eta {α β : Type} {m : α × Py β} {b : β} (h : m.2 = .ok b) : m = (m.1, .ok b) := by
  rw [← h]

/-- What every successful step gives. -/
structure StepOk (w : BayesianOptimization d) (clock : ℕ → ℝ) (t : ℕ) (p : Point d) (i : Info d) :
    Prop where
  point : InBox w.model_bo.range_X p
  points : ∀ q ∈ i.next_points, InBox w.model_bo.range_X q
  lengths : i.next_points.length = i.acquisitions.length
  finite : ∀ v ∈ i.acquisitions, ∃ x : ℝ, v = .fin x
  surrogate : i.time_surrogate = clock (t + 2) - clock (t + 1)
  acq : i.time_acq = clock (t + 4) - clock (t + 3)

theorem modelOptimize_ok {w : BayesianOptimization d} {o : RunOracles d} {clock : ℕ → ℝ} {k : ℕ}
    {X : List (Point d)} {Y : List ℝ} {sm : String} {ns : ℤ} {mlm : Option String}
    {s : ModelState} {t : ℕ} {r : ModelState × ℕ} {p : Point d} {i : Info d}
    (h : modelOptimize w.model_bo o clock k X Y sm ns mlm (s, t) = (r, .ok (p, i))) :
    r.2 = t + 6 ∧ StepOk w clock t p i := by
  have fin : ∀ l : List ℝ, ∀ v ∈ l.map Flt.fin, ∃ x : ℝ, v = .fin x := by
    intro l v hv
    obtain ⟨x, -, rfl⟩ := List.mem_map.1 hv
    exact ⟨x, rfl⟩
  unfold modelOptimize at h
  split at h
  · next bo hm =>
    obtain ⟨hr, h⟩ := Prod.mk.inj h
    obtain ⟨⟨p', inf⟩, h2, e⟩ := map_ok h
    obtain ⟨rfl, rfl⟩ := Prod.mk.inj e
    have h' := pair_eta h2
    obtain ⟨-, -, -, -, -, -, -, _, _, -, -, e1, -, e2, e3, -, e4, e5, -⟩ := gp_optimize_ok h'
    obtain ⟨_, _, _, _, _, -, -, -, -, -, -, e6, -⟩ := Props.C60_gp h'
    refine ⟨by rw [← hr]; simp only; rw [e1], ?_⟩
    constructor
    · rw [hm]; exact e2
    · rw [hm]; exact e3
    · simpa [info] using e6.symm
    · exact fin _
    · exact e4
    · exact e5
  · next bo hm =>
    split at h
    · cases (Prod.mk.inj h).2
    obtain ⟨hr, h⟩ := Prod.mk.inj h
    obtain ⟨⟨p', inf⟩, h2, e⟩ := map_ok h
    obtain ⟨rfl, rfl⟩ := Prod.mk.inj e
    have h' := pair_eta h2
    obtain ⟨-, -, -, -, -, -, _, _, -, -, -, e1, -, e2, e3, -, e4, e5, -⟩ := tp_optimize_ok h'
    obtain ⟨_, _, _, _, _, -, -, -, -, -, -, e6, -⟩ := Props.C60_tp h'
    refine ⟨by rw [← hr]; simp only; rw [e1], ?_⟩
    constructor
    · rw [hm]; exact e2
    · rw [hm]; exact e3
    · simpa [info] using e6.symm
    · exact fin _
    · exact e4
    · exact e5
  · next bo hm =>
    split at h
    · cases (Prod.mk.inj h).2
    obtain ⟨hr, h⟩ := Prod.mk.inj h
    obtain ⟨⟨p', inf⟩, h2, e⟩ := map_ok h
    obtain ⟨rfl, rfl⟩ := Prod.mk.inj e
    have h' := pair_eta h2
    obtain ⟨-, -, -, -, -, -, e1, -, e3, -, -, e4, e5, -⟩ := trees_optimize_ok h'
    obtain ⟨g, j', -, e7, -, e6⟩ := Props.C60_trees h'
    refine ⟨by rw [← hr]; exact congrArg Prod.snd e1, ?_⟩
    constructor
    · rw [hm]; exact e3 _ (List.mem_of_getElem? e7.1)
    · rw [hm]; exact e3
    · simp [infoTrees, e6]
    · exact fin _
    · exact e4
    · exact e5

theorem single_ok {w : BayesianOptimization d} {o : RunOracles d} {clock : ℕ → ℝ} {k : ℕ}
    {X : List (Point d)} {Y : List ℝ} {s : ModelState} {t : ℕ} {r : ModelState × ℕ} {p : Point d}
    {i : Info d} (h : optimizeSingleIteration w o clock k X Y (s, t) = (r, .ok (p, i))) :
    r.2 = t + 6 ∧ StepOk w clock t p i := by
  unfold optimizeSingleIteration at h
  split at h
  · exact modelOptimize_ok h
  split at h
  · exact modelOptimize_ok h
  split at h
  · exact modelOptimize_ok h
  · cases (Prod.mk.inj h).2

theorem step_ok {w : BayesianOptimization d} {o : RunOracles d} {clock : ℕ → ℝ}
    {X : List (Point d)} {Y : List Flt} {s : ModelState × ℕ} {t : ℕ} {r : (ModelState × ℕ) × ℕ}
    {p : Point d} {i : Info d} (h : step w o clock s t X Y = (r, .ok (p, i))) :
    r.2 = t + 6 ∧ r.1.2 = s.2 + 1 ∧ StepOk w clock t p i := by
  unfold step at h
  split at h
  · cases (Prod.mk.inj h).2
  · next Yr hY =>
    obtain ⟨hr, h⟩ := Prod.mk.inj h
    obtain ⟨e1, e2⟩ := single_ok (pair_eta h)
    rw [← hr]
    exact ⟨e1, rfl, e2⟩

/-! ### The clock decides nothing -/

/-- Two results of a step that differ at most in their times. -/
def SameButTimes (a b : Point d × Info d) : Prop :=
  a.1 = b.1 ∧ a.2.next_points = b.2.next_points ∧ a.2.acquisitions = b.2.acquisitions

theorem fitSurrogate_rel {n : ℕ} (bo : BoWGp.BOwGP d) (o : Oracles d) (X : Covariance.Inputs n d)
    (Y : Fin n → ℝ) (mlm : String) :
    Rel Eq (BoWGp.fitSurrogate bo o X Y mlm) (BoWGp.fitSurrogate bo o X Y mlm) := by
  unfold BoWGp.fitSurrogate
  split
  · refine .bind (.lift_eq _) ?_
    rintro a _ rfl
    exact .pure rfl
  split
  · refine .bind (.lift_eq _) ?_
    rintro a _ rfl
    exact .lift_eq _
  split
  · refine .bind .get ?_
    rintro s _ rfl
    split
    · refine .bind (.lift_eq _) ?_
      rintro a _ rfl
      refine .bind (.lift_eq _) ?_
      rintro b _ rfl
      refine .bind (.set _) ?_
      rintro c _ rfl
      exact .pure rfl
    · refine .bind (.lift_eq _) ?_
      rintro h _ rfl
      cases h with
      | none => exact .lift_eq _
      | some h =>
        refine .bind (.lift_eq _) ?_
        rintro a _ rfl
        exact .pure rfl
  · exact .lift_eq _

/-- Two results of `optimize` that differ at most in their times. -/
def SameInfo {n : ℕ} (a b : Point d × DictInfo n d) : Prop :=
  a.1 = b.1 ∧ a.2.next_points = b.2.next_points ∧ a.2.acquisitions = b.2.acquisitions ∧
    a.2.Y_original = b.2.Y_original ∧ a.2.Y_normalized = b.2.Y_normalized ∧ a.2.fit = b.2.fit

theorem gp_clock {n : ℕ} (bo : BoWGp.BOwGP d) (o : Oracles d) (c c' : ℕ → ℝ)
    (X : Covariance.Inputs n d) (Y : List ℝ) (sm : String) (ns : ℤ) (mlm : String) :
    Rel SameInfo (BoWGp.optimize bo o c X Y sm ns mlm) (BoWGp.optimize bo o c' X Y sm ns mlm) := by
  unfold BoWGp.optimize
  iterate 5
    refine .bind (.lift_eq _) ?_
    rintro a _ rfl
  refine .bind (.now _ _) fun _ _ _ => ?_
  refine .bind (.lift_eq _) ?_
  rintro Y' _ rfl
  refine .bind (.lift_eq _) ?_
  rintro Yt _ rfl
  refine .bind (.now _ _) fun _ _ _ => ?_
  refine .bind (fitSurrogate_rel _ _ _ _ _) ?_
  rintro fit _ rfl
  refine .bind (R := Eq) ?_ ?_
  · unfold BoWGp.appendHistory
    refine .bind .get ?_
    rintro s _ rfl
    exact .set _
  rintro _ _ _
  refine .bind (.now _ _) fun _ _ _ => ?_
  refine .bind (.now _ _) fun _ _ _ => ?_
  refine .bind (.lift_eq _) ?_
  rintro ⟨p, ps⟩ _ rfl
  iterate 2
    refine .bind (.lift_eq _) ?_
    rintro _ _ rfl
  refine .bind (.now _ _) fun _ _ _ => ?_
  refine .bind (.lift_eq _) ?_
  rintro _ _ rfl
  refine .bind (.now _ _) fun _ _ _ => ?_
  exact .pure ⟨rfl, rfl, rfl, rfl, rfl, rfl⟩

theorem tp_clock {n : ℕ} (bo : BoWTp.BOwTP d) (o : Oracles d) (c c' : ℕ → ℝ)
    (X : Covariance.Inputs n d) (Y : List ℝ) (sm : String) (ns : ℤ) :
    Rel SameInfo (BoWTp.optimize bo o c X Y sm ns) (BoWTp.optimize bo o c' X Y sm ns) := by
  unfold BoWTp.optimize
  iterate 4
    refine .bind (.lift_eq _) ?_
    rintro a _ rfl
  refine .bind (.now _ _) fun _ _ _ => ?_
  refine .bind (.lift_eq _) ?_
  rintro Y' _ rfl
  refine .bind (.lift_eq _) ?_
  rintro Yt _ rfl
  refine .bind (.now _ _) fun _ _ _ => ?_
  refine .bind (.lift_eq _) ?_
  rintro fit _ rfl
  refine .bind .get ?_
  rintro s _ rfl
  refine .bind (.set _) ?_
  rintro _ _ _
  refine .bind (.now _ _) fun _ _ _ => ?_
  refine .bind (.now _ _) fun _ _ _ => ?_
  refine .bind (.lift_eq _) ?_
  rintro ⟨p, ps⟩ _ rfl
  iterate 2
    refine .bind (.lift_eq _) ?_
    rintro _ _ rfl
  refine .bind (.now _ _) fun _ _ _ => ?_
  refine .bind (.lift_eq _) ?_
  rintro _ _ rfl
  refine .bind (.now _ _) fun _ _ _ => ?_
  exact .pure ⟨rfl, rfl, rfl, rfl, rfl, rfl⟩

theorem trees_clock {σ : Type} (bo : BaseBO d) (o : BoWTrees.TreesOracles d) (c c' : ℕ → ℝ)
    (X : List (Point d)) (Y : List ℝ) (sm : String) (ns : ℤ) :
    Rel (fun a b : Point d × BoWTrees.DictInfoTrees d => a.1 = b.1 ∧
        a.2.next_points = b.2.next_points ∧ a.2.acquisitions = b.2.acquisitions)
      (BoWTrees.optimize (σ := σ) bo o c X Y sm ns) (BoWTrees.optimize bo o c' X Y sm ns) := by
  unfold BoWTrees.optimize
  iterate 3
    refine .bind (.lift_eq _) ?_
    rintro a _ rfl
  refine .bind (.now _ _) fun _ _ _ => ?_
  refine .bind (.lift_eq _) ?_
  rintro Y' _ rfl
  refine .bind (.now _ _) fun _ _ _ => ?_
  refine .bind (.lift_eq _) ?_
  rintro fit _ rfl
  refine .bind (.now _ _) fun _ _ _ => ?_
  refine .bind (.now _ _) fun _ _ _ => ?_
  iterate 5
    refine .bind (.lift_eq _) ?_
    rintro _ _ rfl
  refine .bind (.now _ _) fun _ _ _ => ?_
  refine .bind (.now _ _) fun _ _ _ => ?_
  exact .pure ⟨rfl, rfl, rfl⟩

theorem OutRel.map {α β γ δ : Type} {R : α → β → Prop} {Q : γ → δ → Prop} {p : Py α} {q : Py β}
    {f : α → γ} {g : β → δ} (h : OutRel R p q) (hf : ∀ a b, R a b → Q (f a) (g b)) :
    OutRel Q (p.map f) (q.map g) := by
  rcases p with e | a <;> rcases q with e' | b
  · exact h
  · exact h
  · exact h
  · exact hf a b h

theorem model_clock (m : Surrogate d) (o : RunOracles d) (c c' : ℕ → ℝ) (k : ℕ)
    (X : List (Point d)) (Y : List ℝ) (sm : String) (ns : ℤ) (mlm : Option String) :
    Rel SameButTimes (modelOptimize m o c k X Y sm ns mlm) (modelOptimize m o c' k X Y sm ns mlm) := by
  intro s t t'
  cases m with
  | gp bo =>
    obtain ⟨h1, h2⟩ := gp_clock bo (o.routines k) c c' (.vec X.get) Y sm ns
      (mlm.getD STR_MLM_METHOD) s.gp t t'
    refine ⟨?_, h2.map fun a b h => ⟨h.1, h.2.1, congrArg (List.map Flt.fin) h.2.2.1⟩⟩
    simp only [modelOptimize]
    rw [h1]
  | tp bo =>
    cases mlm with
    | some mlm => exact ⟨rfl, rfl⟩
    | none =>
      obtain ⟨h1, h2⟩ := tp_clock bo (o.routines k) c c' (.vec X.get) Y sm ns s.tp t t'
      refine ⟨?_, h2.map fun a b h => ⟨h.1, h.2.1, congrArg (List.map Flt.fin) h.2.2.1⟩⟩
      simp only [modelOptimize, Option.isSome_none, Bool.false_eq_true, if_false]
      rw [h1]
  | trees bo =>
    cases mlm with
    | some mlm => exact ⟨rfl, rfl⟩
    | none =>
      obtain ⟨h1, h2⟩ := trees_clock bo ⟨o.forest k, (o.routines k).draws⟩ c c' X Y sm ns s t t'
      exact ⟨h1, h2.map fun a b h => ⟨h.1, h.2.1, congrArg (List.map Flt.fin) h.2.2⟩⟩

theorem single_clock (w : BayesianOptimization d) (o : RunOracles d) (c c' : ℕ → ℝ) (k : ℕ)
    (X : List (Point d)) (Y : List ℝ) :
    Rel SameButTimes (optimizeSingleIteration w o c k X Y)
      (optimizeSingleIteration w o c' k X Y) := by
  unfold optimizeSingleIteration
  split
  · exact model_clock _ _ _ _ _ _ _ _ _ _
  split
  · exact model_clock _ _ _ _ _ _ _ _ _ _
  split
  · exact model_clock _ _ _ _ _ _ _ _ _ _
  · exact .lift rfl

end Verif.Lemmas
