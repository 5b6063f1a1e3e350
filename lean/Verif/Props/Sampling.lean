import Verif.Model.BaseBo
import Verif.Props.Grids
import Verif.Spec.Run
import Mathlib.Tactic.Positivity

/-! # C13, C14: sampled points lie in the search space and are as many as asked for -/

namespace Verif.Props

open Verif.BaseBo Verif.Constants Verif.Spec

private theorem scale_mem {a b u : ℝ} (hab : a ≤ b) (h0 : 0 ≤ u) (h1 : u ≤ 1) :
    a ≤ a + (b - a) * u ∧ a + (b - a) * u ≤ b := by
  constructor <;> nlinarith

theorem rowsToPoints_ok {α : Type} {d : ℕ} (rows : List (List α)) (h : ∀ r ∈ rows, r.length = d) :
    ∃ pts, rowsToPoints d rows = .ok pts ∧ pts.length = rows.length ∧
      ∀ (i : ℕ) (p : Fin d → α), pts[i]? = some p → ∃ row, rows[i]? = some row ∧
        ∀ j : Fin d, row[j.val]? = some (p j) := by
  induction rows with
  | nil => exact ⟨[], rfl, rfl, by simp⟩
  | cons row rest ih =>
    obtain ⟨pts, h1, h2, h3⟩ := ih (fun r hr => h r (by simp [hr]))
    have hr := h row (by simp)
    apply Exists.intro
    apply And.intro
    · simp only [rowsToPoints, hr, dif_pos, h1, bind, Except.bind, pure, Except.pure]
      rfl
    · refine ⟨by simp [h2], ?_⟩
      intro i p hp
      cases i with
      | zero =>
        simp only [List.getElem?_cons_zero, Option.some.injEq] at hp
        exact ⟨row, rfl, fun j => by rw [← hp]; simp⟩
      | succ i =>
        simp only [List.getElem?_cons_succ] at hp ⊢
        exact h3 i p hp

private theorem grid_ok {d : ℕ} (hd : 0 < d) (B : Bounds d) (hB : ∀ i, (B i).1 ≤ (B i).2)
    (n : ℕ) :
    ∃ pts, getSamplesGrid B n = .ok pts ∧ pts.length = n ^ d ∧
      ∀ p ∈ pts, ∀ j, ∃ k < n, p j = axisNode n (B j) k := by
  obtain ⟨rows, h1, h2, idx, hnd, hidx, hrows⟩ := C15_grid (List.ofFn B) n
    (by intro h; rw [List.ofFn_eq_nil_iff] at h; omega)
    (by intro r hr; rw [List.mem_ofFn] at hr; obtain ⟨i, rfl⟩ := hr; exact hB i)
  rw [List.length_ofFn] at h2 hidx
  have hlen : ∀ r ∈ rows, r.length = d := by
    intro r hr
    rw [hrows, List.mem_map] at hr
    obtain ⟨p, hp, rfl⟩ := hr
    simp [((hidx p).1 hp).1]
  obtain ⟨pts, g1, g2, g3⟩ := rowsToPoints_ok rows hlen
  refine ⟨pts, by simp [getSamplesGrid, h1, bind, Except.bind, g1], by rw [g2, h2], ?_⟩
  intro p hp j
  obtain ⟨i, hi⟩ := List.mem_iff_getElem?.1 hp
  obtain ⟨row, hrow, hj⟩ := g3 i p hi
  have hm : row ∈ rows := List.mem_iff_getElem?.2 ⟨i, hrow⟩
  rw [hrows, List.mem_map] at hm
  obtain ⟨q, hq, rfl⟩ := hm
  obtain ⟨hql, hqn⟩ := (hidx q).1 hq
  have hjq : j.val < q.length := by rw [hql]; exact j.isLt
  refine ⟨q[j.val], hqn _ (List.getElem_mem _), ?_⟩
  have := hj j
  rw [List.getElem?_eq_getElem (by simp [hql]), Option.some.injEq, List.getElem_zipWith] at this
  rw [← this]
  simp

private theorem axisNode_mem {n : ℕ} {r : ℝ × ℝ} {k : ℕ} (h : r.1 ≤ r.2) (hk : k < n) :
    r.1 ≤ axisNode n r k ∧ axisNode n r k ≤ r.2 := by
  simp only [axisNode]
  rcases Nat.lt_or_ge n 2 with hn | hn
  · have : k = 0 := by omega
    subst this
    simpa using h
  · have h2 : (2 : ℝ) ≤ n := by exact_mod_cast hn
    have hk' : (k : ℝ) ≤ (n : ℝ) - 1 := by
      have : k + 1 ≤ n := hk
      have : ((k + 1 : ℕ) : ℝ) ≤ n := by exact_mod_cast this
      push_cast at this; linarith
    have hpos : (0 : ℝ) < (n : ℝ) - 1 := by linarith
    have hkn : (k : ℝ) / ((n : ℝ) - 1) ≤ 1 := (div_le_one hpos).2 hk'
    have hk0 : 0 ≤ (k : ℝ) / ((n : ℝ) - 1) := by positivity
    have e : (k : ℝ) * (r.2 - r.1) / ((n : ℝ) - 1) = (r.2 - r.1) * ((k : ℝ) / ((n : ℝ) - 1)) := by
      ring
    rw [e]
    exact scale_mem h hk0 hkn

/-- C13. Every sampled point lies in the search space, whatever the method and whatever the
generators produce. -/
theorem C13_in_box {d : ℕ} (B : Bounds d) (hB : ∀ i, (B i).1 ≤ (B i).2) (r : Draws d)
    (hr : UnitDraws r) (m : String) (n : ℤ) (pts : List (Point d))
    (h : getSamples B r m n = .ok pts) : ∀ p ∈ pts, InBox B p := by
  obtain ⟨hu, hs, hh⟩ := hr
  by_cases hm : m ∈ ALLOWED_SAMPLING_METHOD
  · simp only [getSamples, pyAssert, hm, if_true, bind, Except.bind, pure, Except.pure] at h
    have qmc : ∀ u : ℕ → Fin d → ℝ, (∀ k j, 0 ≤ u k j ∧ u k j ≤ 1) →
        getSamplesQmc B u n = .ok pts → ∀ p ∈ pts, InBox B p := by
      intro u hu h p hp
      simp only [getSamplesQmc] at h
      split at h
      · cases h
      · rw [Except.ok.injEq] at h
        subst h
        simp only [List.mem_map] at hp
        obtain ⟨i, _, rfl⟩ := hp
        intro j
        have := scale_mem (hB j) (hu i j).1 (hu i j).2
        constructor <;> linarith [this.1, this.2]
    split at h
    · by_cases hn : n < 0
      · obtain ⟨e, he⟩ := C15_fails (List.ofFn B) n (Or.inr (Or.inr hn))
        simp [getSamplesGrid, he, bind, Except.bind] at h
      · obtain ⟨k, rfl⟩ := Int.eq_ofNat_of_zero_le (not_lt.1 hn)
        rcases Nat.eq_zero_or_pos d with hd | hd
        · subst hd
          intro p _ i
          exact i.elim0
        · obtain ⟨pts', h1, _, h3⟩ := grid_ok hd B hB k
          have : pts = pts' := by
            have h' : getSamplesGrid B (k : ℤ) = .ok pts := h
            rw [h1] at h'; exact (Except.ok.inj h').symm
          subst this
          intro p hp j
          obtain ⟨i, hi, he⟩ := h3 p hp j
          rw [he]
          exact axisNode_mem (hB j) hi
    · split at h
      · rw [Except.ok.injEq] at h
        subst h
        intro p hp
        simp only [getSamplesUniform, List.mem_map] at hp
        obtain ⟨i, _, rfl⟩ := hp
        exact fun j => scale_mem (hB j) (hu _).1 (hu _).2
      · split at h
        · rw [Except.ok.injEq] at h
          subst h
          intro p hp
          simp only [getSamplesGaussian, List.mem_map] at hp
          obtain ⟨i, _, rfl⟩ := hp
          exact fun j => ⟨le_min (le_max_right _ _) (hB j), min_le_right _ _⟩
        · split at h
          · exact qmc _ hs h
          · split at h
            · exact qmc _ hh h
            · cases h
  · simp [getSamples, pyAssert, hm, bind, Except.bind] at h

/-- C13. Sampling succeeds for each of the five methods and a non-negative number of samples
(`grid` needs at least one dimension); other names are refused. -/
theorem C13_succeeds_iff {d : ℕ} (hd : 0 < d) (B : Bounds d) (hB : ∀ i, (B i).1 ≤ (B i).2)
    (r : Draws d) (m : String) (n : ℕ) :
    (∃ pts, getSamples B r m n = .ok pts) ↔
      m = "grid" ∨ m = "uniform" ∨ m = "gaussian" ∨ m = "sobol" ∨ m = "halton" := by
  constructor
  · rintro ⟨pts, h⟩
    by_contra hm
    have : m ∉ ALLOWED_SAMPLING_METHOD := by
      simp only [ALLOWED_SAMPLING_METHOD, ALLOWED_INITIALIZING_METHOD_BO, List.mem_append,
        List.mem_cons, List.not_mem_nil, or_false]
      tauto
    simp [getSamples, pyAssert, this, bind, Except.bind] at h
  · have hq : ∀ u : ℕ → Fin d → ℝ, ∃ pts, getSamplesQmc B u (n : ℤ) = .ok pts := by
      intro u
      exact ⟨_, by simp [getSamplesQmc, show ¬ ((n : ℤ) < 0) by omega]; rfl⟩
    have hmem : ∀ s, s ∈ ["uniform", "gaussian", "sobol", "halton", "grid"] →
        s ∈ ALLOWED_SAMPLING_METHOD := fun s hs => hs
    rintro (rfl | rfl | rfl | rfl | rfl)
    · obtain ⟨pts, h1, _⟩ := grid_ok hd B hB n
      exact ⟨pts, by simp [getSamples, pyAssert, hmem, bind, Except.bind, h1]⟩
    · exact ⟨_, by simp [getSamples, pyAssert, hmem, bind, Except.bind, pure, Except.pure]; rfl⟩
    · exact ⟨_, by simp [getSamples, pyAssert, hmem, bind, Except.bind, pure, Except.pure]; rfl⟩
    · obtain ⟨pts, h1⟩ := hq r.sobol
      exact ⟨pts, by simp [getSamples, pyAssert, hmem, bind, Except.bind, h1]⟩
    · obtain ⟨pts, h1⟩ := hq r.halton
      exact ⟨pts, by simp [getSamples, pyAssert, hmem, bind, Except.bind, h1]⟩

/-- C13. `get_initials` is `get_samples` without `grid`. -/
theorem C13_initials {d : ℕ} (B : Bounds d) (r : Draws d) (m : String) (n : ℤ) :
    getInitials B r m n =
      if m = "uniform" ∨ m = "gaussian" ∨ m = "sobol" ∨ m = "halton" then getSamples B r m n
      else .error .assertion := by
  have : m ∈ ALLOWED_INITIALIZING_METHOD_BO ↔
      (m = "uniform" ∨ m = "gaussian" ∨ m = "sobol" ∨ m = "halton") := by
    simp [ALLOWED_INITIALIZING_METHOD_BO]
  by_cases h : m = "uniform" ∨ m = "gaussian" ∨ m = "sobol" ∨ m = "halton" <;>
    simp [getInitials, pyAssert, this, h, bind, Except.bind]

/-- C14 (the four random methods). Exactly `n` points are returned, and with the same seed a
larger request returns them first. Missing: `grid`, see `C14_grid_count`. -/
theorem C14_count_partial {d : ℕ} (B : Bounds d) (r : Draws d) (m : String) (hm : m ≠ "grid")
    (n : ℕ) (pts : List (Point d)) (h : getSamples B r m n = .ok pts) :
    pts.length = n ∧ ∀ k : ℕ, ∃ more, getSamples B r m (n + k : ℕ) = .ok (pts ++ more) := by
  by_cases hal : m ∈ ALLOWED_SAMPLING_METHOD
  · have rng : ∀ (f : ℕ → Point d) (k : ℕ), ∃ more, (List.range (n + k)).map f =
        (List.range n).map f ++ more := by
      intro f k
      exact ⟨_, by rw [List.range_add, List.map_append]⟩
    have qmc : ∀ u : ℕ → Fin d → ℝ, getSamplesQmc B u (n : ℤ) = .ok pts →
        pts.length = n ∧ ∀ k : ℕ, ∃ more, getSamplesQmc B u ((n + k : ℕ) : ℤ) = .ok (pts ++ more) := by
      intro u h
      have hn : ¬ ((n : ℤ) < 0) := by omega
      simp only [getSamplesQmc, hn, if_false, Except.ok.injEq, Int.toNat_natCast] at h
      subst h
      refine ⟨by simp, fun k => ?_⟩
      obtain ⟨more, hmore⟩ := rng (fun (i : ℕ) (j : Fin d) =>
        u i j * ((B j).2 - (B j).1) + (B j).1) k
      refine ⟨more, ?_⟩
      have hn' : ¬ (((n + k : ℕ) : ℤ) < 0) := by omega
      simp only [getSamplesQmc, hn', if_false, Except.ok.injEq, Int.toNat_natCast]
      exact hmore
    simp only [getSamples, pyAssert, hal, if_true, bind, Except.bind, pure, Except.pure, hm,
      if_false] at h ⊢
    split_ifs at h ⊢ with h1 h2 h3 h4
    · rw [Except.ok.injEq] at h
      subst h
      refine ⟨by simp [getSamplesUniform], fun k => ?_⟩
      obtain ⟨more, hmore⟩ := rng (fun (i : ℕ) (j : Fin d) =>
        (B j).1 + ((B j).2 - (B j).1) * r.uniform (i * d + j)) k
      exact ⟨more, by rw [Except.ok.injEq]; exact hmore⟩
    · rw [Except.ok.injEq] at h
      subst h
      refine ⟨by simp [getSamplesGaussian], fun k => ?_⟩
      obtain ⟨more, hmore⟩ := rng (fun (i : ℕ) (j : Fin d) =>
        clip (r.normal (i * d + j) * (((B j).2 - (B j).1) / 4) + ((B j).2 + (B j).1) / 2)
          (B j).1 (B j).2) k
      exact ⟨more, by rw [Except.ok.injEq]; exact hmore⟩
    · exact qmc _ h
    · exact qmc _ h
  · simp [getSamples, pyAssert, hal, bind, Except.bind] at h

/-- C14 is violated by `grid`: it returns `n ^ d` points. -/
theorem C14_grid_count {d : ℕ} (hd : 0 < d) (B : Bounds d) (hB : ∀ i, (B i).1 ≤ (B i).2)
    (r : Draws d) (n : ℕ) : ∃ pts, getSamples B r "grid" n = .ok pts ∧ pts.length = n ^ d := by
  obtain ⟨pts, h1, h2, _⟩ := grid_ok hd B hB n
  refine ⟨pts, ?_, h2⟩
  have : "grid" ∈ ALLOWED_SAMPLING_METHOD := by
    simp [ALLOWED_SAMPLING_METHOD, ALLOWED_INITIALIZING_METHOD_BO]
  simp [getSamples, pyAssert, this, bind, Except.bind, h1]

/-- C14 as stated fails: asking for 3 points in the plane by `grid` gives 9. -/
theorem C14_grid_violates : ∃ (B : Bounds 2) (r : Draws 2) (pts : List (Point 2)),
    getSamples B r "grid" 3 = .ok pts ∧ pts.length ≠ 3 := by
  obtain ⟨pts, h1, h2⟩ := C14_grid_count (d := 2) (by norm_num) (fun _ => (0, 1))
    (by intro i; norm_num) ⟨fun _ => 0, fun _ => 0, fun _ _ => 0, fun _ _ => 0⟩ 3
  exact ⟨_, _, pts, h1, by rw [h2]; norm_num⟩

/-- C13, C14: the hypotheses are met by draws of one half on `[0, 2] x [1, 1]`. -/
example : UnitDraws (⟨fun _ => 1 / 2, fun k => 100 * k, fun _ _ => 1 / 2, fun _ _ => 1⟩ : Draws 2) ∧
    (∀ i, ((![(0, 2), (1, 1)] : Bounds 2) i).1 ≤ ((![(0, 2), (1, 1)] : Bounds 2) i).2) ∧
    ∃ pts, getSamples (![(0, 2), (1, 1)] : Bounds 2)
      ⟨fun _ => 1 / 2, fun k => 100 * k, fun _ _ => 1 / 2, fun _ _ => 1⟩ "gaussian" (5 : ℕ) = .ok pts := by
  have hB : ∀ i, ((![(0, 2), (1, 1)] : Bounds 2) i).1 ≤ ((![(0, 2), (1, 1)] : Bounds 2) i).2 := by
    intro i
    fin_cases i <;> norm_num
  refine ⟨⟨fun k => by norm_num, fun k j => by norm_num, fun k j => by norm_num⟩, hB, ?_⟩
  exact (C13_succeeds_iff (by norm_num) _ hB _ "gaussian" 5).2 (by tauto)

end Verif.Props
