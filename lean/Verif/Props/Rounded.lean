import Verif.Lemmas.Rounded
import Verif.Spec.Rounded
import Verif.Props.Curves

/-! # C103-C105: sampling, normalisation and curves in double precision -/

namespace Verif.Props

open Verif.Spec Verif.Lemmas Verif.Rounded Verif.Constants

variable {fl : ℝ → ℝ}

private theorem grid_box (h : Nearest fl) {d : ℕ} {B : Bounds d} (hB : DoubleBox B)
    (hw : ∀ i, (B i).1 = (B i).2 ∨ (2 : ℝ) ^ (-960 : ℤ) ≤ (B i).2 - (B i).1) {n : ℕ}
    (hn : n ≤ 2 ^ 50) {pts : List (Point d)} (hg : Rounded.getSamplesGrid fl B n = .ok pts) :
    ∀ p ∈ pts, InBox B p := by
  simp only [Rounded.getSamplesGrid, Rounded.getGrids, rounded_mapM_linspace, pyAssert, bind,
    Except.bind] at hg
  rw [if_pos (by
    intro r hr
    rw [List.mem_ofFn] at hr
    obtain ⟨i, rfl⟩ := hr
    exact (hB i).2.2)] at hg
  simp only at hg
  cases hm : UtilsCommon.meshgridRows
      ((List.ofFn B).map fun r => Rounded.linspaceNat fl r.1 r.2 n) with
  | error e => rw [hm] at hg; cases hg
  | ok rows =>
    rw [hm] at hg
    simp only at hg
    have hall := meshgridRows_mem hm
    have hlen : ∀ r ∈ rows, r.length = d := by
      intro r hr
      rw [(hall r hr).length_eq]
      simp
    obtain ⟨pts', g1, -, g3⟩ := rowsToPoints_ok rows hlen
    rw [g1, Except.ok.injEq] at hg
    subst hg
    intro p hp j
    obtain ⟨i, hi⟩ := List.mem_iff_getElem?.1 hp
    obtain ⟨row, hrow, hj⟩ := g3 i p hi
    have hf := hall row (List.mem_of_getElem? hrow)
    have hjl : j.val < row.length := by rw [hlen row (List.mem_of_getElem? hrow)]; exact j.isLt
    have := (List.forall₂_iff_get.1 hf).2 j.val hjl (by simp)
    have hv := hj j
    rw [List.getElem?_eq_getElem hjl, Option.some.injEq] at hv
    simp only [List.get_eq_getElem, hv, List.getElem_map, List.getElem_ofFn] at this
    exact linspaceNat_mem h (hB j).1 (hB j).2.1 (hw j) hn _ this

/-- C103. In double precision, with any way of rounding to a nearest double, every sampled point lies
in the search space. The grid needs sides that are 0 or at least `2^-960` and at most `2^50`
values. -/
theorem C103_in_box (h : Nearest fl) {d : ℕ} (B : Bounds d) (hB : DoubleBox B) (r : BaseBo.Draws d)
    (hr : DoubleDraws r) (m : String) (n : ℤ)
    (hm : m = "grid" → n ≤ 2 ^ 50 ∧
      ∀ i, (B i).1 = (B i).2 ∨ (2 : ℝ) ^ (-960 : ℤ) ≤ (B i).2 - (B i).1)
    (pts : List (Point d)) (hs : Rounded.getSamples fl B r m n = .ok pts) :
    ∀ p ∈ pts, InBox B p := by
  obtain ⟨hu, hso, hh⟩ := hr
  by_cases hmem : m ∈ ALLOWED_SAMPLING_METHOD
  · simp only [Rounded.getSamples, pyAssert, hmem, if_true, bind, Except.bind, pure,
      Except.pure] at hs
    have qmc : ∀ u : ℕ → Fin d → ℝ, (∀ k j, u k j ∈ Double ∧ 0 ≤ u k j ∧ u k j < 1) →
        Rounded.getSamplesQmc fl B u n = .ok pts → ∀ p ∈ pts, InBox B p := by
      intro u hu hq p hp
      simp only [Rounded.getSamplesQmc] at hq
      split at hq
      · cases hq
      · rw [Except.ok.injEq] at hq
        subst hq
        simp only [List.mem_map] at hp
        obtain ⟨i, _, rfl⟩ := hp
        exact fun j => scale_box h (hB j).1 (hB j).2.1 (hB j).2.2 (hu i j).1 (hu i j).2.1
          (hu i j).2.2
    split at hs
    · rename_i hgrid
      obtain ⟨hn, hw⟩ := hm hgrid
      by_cases hneg : n < 0
      · rcases Nat.eq_zero_or_pos d with hd | hd
        · subst hd
          intro p _ i
          exact i.elim0
        · exfalso
          simp only [Rounded.getSamplesGrid, Rounded.getGrids, pyAssert, bind, Except.bind] at hs
          split at hs
          · cases hs
          · rename_i v hv
            split at hv
            · cases hv
            · split at hv
              · cases hv
              · rename_i v2 hv2
                obtain ⟨k, rfl⟩ : ∃ k, d = k + 1 := ⟨d - 1, by omega⟩
                rw [List.ofFn_succ, List.mapM_cons] at hv2
                simp [Rounded.linspace, hneg, bind, Except.bind] at hv2
      · obtain ⟨k, rfl⟩ := Int.eq_ofNat_of_zero_le (not_lt.1 hneg)
        exact grid_box h hB hw (by exact_mod_cast hn) hs
    · split at hs
      · rw [Except.ok.injEq] at hs
        subst hs
        intro p hp
        simp only [Rounded.getSamplesUniform, List.mem_map] at hp
        obtain ⟨i, _, rfl⟩ := hp
        intro j
        have := scale_box h (hB j).1 (hB j).2.1 (hB j).2.2 (hu (i * d + j)).1 (hu (i * d + j)).2.1
          (hu (i * d + j)).2.2
        rwa [mul_comm, add_comm] at this
      · split at hs
        · rw [Except.ok.injEq] at hs
          subst hs
          intro p hp
          simp only [Rounded.getSamplesGaussian, List.mem_map] at hp
          obtain ⟨i, _, rfl⟩ := hp
          exact fun j => ⟨le_min (le_max_right _ _) (hB j).2.2, min_le_right _ _⟩
        · split at hs
          · exact qmc _ hso hs
          · split at hs
            · exact qmc _ hh hs
            · cases hs
  · simp [Rounded.getSamples, pyAssert, hmem, bind, Except.bind] at hs

/-- C103. The check of `check_points_in_bounds` accepts sampled points. -/
theorem C103_accepted (h : Nearest fl) {d : ℕ} (B : Bounds d) (hB : DoubleBox B)
    (r : BaseBo.Draws d) (hr : DoubleDraws r) (m : String) (n : ℤ)
    (hm : m = "grid" → n ≤ 2 ^ 50 ∧
      ∀ i, (B i).1 = (B i).2 ∨ (2 : ℝ) ^ (-960 : ℤ) ≤ (B i).2 - (B i).1)
    (pts : List (Point d)) (hs : Rounded.getSamples fl B r m n = .ok pts) :
    UtilsBo.checkPointsInBounds pts B = .ok pts := by
  have hb := C103_in_box h B hB r hr m n hm pts hs
  simp only [UtilsBo.checkPointsInBounds, pyAssert, bind, Except.bind, pure, Except.pure]
  rw [if_pos (fun p hp i => (hb p hp i).1), if_pos (fun p hp i => (hb p hp i).2)]

private theorem one_mem : (1 : ℝ) ∈ Double := by
  have := double_nat (m := 1) (by norm_num)
  simpa using this

/-- C103. The draw 1 itself would not do: the scaled point may leave the search space. -/
theorem C103_one_escapes (h : Nearest fl) : ∃ (B : Bounds 1) (r : BaseBo.Draws 1)
    (pts : List (Point 1)), DoubleBox B ∧ UnitDraws r ∧
      Rounded.getSamples fl B r "sobol" 1 = .ok pts ∧ ∃ p ∈ pts, ¬ InBox B p := by
  have hhi : (3 / 2 ^ 54 : ℝ) ∈ Double := by
    refine ⟨3, -54, by norm_num, by norm_num, ?_⟩
    rw [zpow_neg]
    norm_num
  have hz : (1 + 1 / 2 ^ 52 : ℝ) ∈ Double := by
    refine ⟨2 ^ 52 + 1, -52, by norm_num, by norm_num, ?_⟩
    rw [zpow_neg]
    norm_num
  have hm1 : (-1 : ℝ) ∈ Double := double_neg one_mem
  refine ⟨fun _ => (-1, 3 / 2 ^ 54), ⟨fun _ => 0, fun _ => 0, fun _ _ => 1, fun _ _ => 0⟩,
    [fun _ => fl (fl (1 * fl (3 / 2 ^ 54 - -1)) + -1)], fun i => ⟨hm1, hhi, by norm_num⟩,
    ⟨fun _ => by norm_num, fun _ _ => by norm_num,
      fun _ _ => by norm_num⟩, ?_, ?_⟩
  · simp only [Rounded.getSamples, pyAssert, ALLOWED_SAMPLING_METHOD,
      ALLOWED_INITIALIZING_METHOD_BO, bind, Except.bind, Rounded.getSamplesQmc]
    simp
  · refine ⟨_, List.mem_cons_self, fun hin => ?_⟩
    have h1 := (hin 0).2
    simp only [one_mul] at h1
    have e : (3 / 2 ^ 54 - -1 : ℝ) = 1 + 3 / 2 ^ 54 := by ring
    rw [e] at h1
    have hn := h.near (1 + 3 / 2 ^ 54) _ hz
    rw [abs_of_nonneg (a := (1 + 1 / 2 ^ 52 - (1 + 3 / 2 ^ 54) : ℝ)) (by norm_num)] at hn
    have hgt : 1 < fl (1 + 3 / 2 ^ 54) := by
      have := (abs_le.1 hn).1
      have h5 : (0 : ℝ) < 3 / 2 ^ 54 - (1 + 1 / 2 ^ 52 - (1 + 3 / 2 ^ 54)) := by norm_num
      linarith
    have h2 := double_gt_one (h.mem _) hgt
    rw [fl_of_mem h (h.mem _)] at h1
    have h3 : (1 / 2 ^ 52 : ℝ) ≤ fl (fl (1 + 3 / 2 ^ 54) + -1) := by
      refine le_fl_of_le h ?_ (by linarith)
      refine ⟨1, -52, by norm_num, by norm_num, ?_⟩
      rw [zpow_neg]
      norm_num
    have h4 : (3 / 2 ^ 54 : ℝ) < 1 / 2 ^ 52 := by norm_num
    linarith

/-- C103. On a search space as small as the smallest doubles a grid may leave it. -/
theorem C103_tiny_grid_escapes (h : Nearest fl) (r : BaseBo.Draws 1) : ∃ (B : Bounds 1)
    (pts : List (Point 1)), DoubleBox B ∧
      Rounded.getSamples fl B r "grid" 11 = .ok pts ∧ ∃ p ∈ pts, ¬ InBox B p := by
  set η : ℝ := (2 : ℝ) ^ (-1074 : ℤ) with hη
  have hp : 0 < η := by positivity
  have hk : ∀ k : ℕ, k < 2 ^ 53 → (k : ℝ) * η ∈ Double := fun k hk =>
    ⟨k, -1074, by rw [abs_of_nonneg (by omega)]; exact_mod_cast hk, le_rfl, by simp [hη]⟩
  have h16 := hk 16 (by norm_num)
  have h2 := hk 2 (by norm_num)
  have h18 := hk 18 (by norm_num)
  push_cast at h16 h2 h18
  have hstep : fl (16 * η / 10) = 2 * η := by
    have hn := h.near (16 * η / 10) _ h2
    rw [abs_of_nonneg (a := 2 * η - 16 * η / 10) (by linarith)] at hn
    obtain ⟨k, hkk⟩ := double_multiple (h.mem (16 * η / 10))
    rw [← hη] at hkk
    rw [hkk] at hn ⊢
    have a := abs_le.1 hn
    have a1 : (1 : ℝ) < k := by
      by_contra hc
      push Not at hc
      nlinarith
    have a2 : (k : ℝ) < 3 := by
      by_contra hc
      push Not at hc
      nlinarith
    have b1 : 1 < k := by exact_mod_cast a1
    have b2 : k < 3 := by exact_mod_cast a2
    have : k = 2 := by omega
    rw [this]
    norm_num
  have hentry : linspaceEntry fl 0 (16 * η) ((9 : ℕ) + 1) 9 = 18 * η := by
    simp only [linspaceEntry, sub_zero, fl_of_mem h h16]
    rw [show ((9 : ℕ) : ℝ) + 1 = 10 by norm_num, hstep, if_neg (by positivity)]
    rw [show ((9 : ℕ) : ℝ) * (2 * η) = 18 * η by push_cast; ring, add_zero, fl_of_mem h h18,
      fl_of_mem h h18]
  have hrows : Rounded.getGrids fl (List.ofFn fun _ : Fin 1 => ((0 : ℝ), 16 * η)) ((11 : ℕ) : ℤ) =
      .ok ((Rounded.linspaceNat fl 0 (16 * η) 11).map ([·])) := by
    simp only [Rounded.getGrids, rounded_mapM_linspace, pyAssert, bind, Except.bind]
    rw [if_pos (by simp; linarith)]
    simp only [List.ofFn_succ, List.ofFn_zero, List.map_cons, List.map_nil,
      UtilsCommon.meshgridRows, UtilsCommon.cart]
    generalize Rounded.linspaceNat fl 0 (16 * η) 11 = v
    congr 1
    induction v with
    | nil => rfl
    | cons x t ih => simpa using ih
  obtain ⟨pts, g1, g2, g3⟩ := rowsToPoints_ok (d := 1)
    ((Rounded.linspaceNat fl 0 (16 * η) 11).map ([·])) (by simp)
  refine ⟨fun _ => (0, 16 * η), pts, fun i => ⟨double_zero, h16, by simp; linarith⟩, ?_, ?_⟩
  · simp only [Rounded.getSamples, pyAssert, ALLOWED_SAMPLING_METHOD,
      ALLOWED_INITIALIZING_METHOD_BO, bind, Except.bind, Rounded.getSamplesGrid]
    rw [show (11 : ℤ) = ((11 : ℕ) : ℤ) by norm_num, hrows]
    simp only [g1]
    simp
  · have hl : (Rounded.linspaceNat fl 0 (16 * η) 11).length = 11 := by
      simp [Rounded.linspaceNat]
    have hlt : 9 < pts.length := by
      rw [g2, List.length_map, hl]
      norm_num
    refine ⟨pts[9], List.getElem_mem hlt, fun hin => ?_⟩
    obtain ⟨row, hrow, hj⟩ := g3 9 pts[9] (List.getElem?_eq_getElem hlt)
    have h9 : (Rounded.linspaceNat fl 0 (16 * η) 11)[9]? = some (18 * η) := by
      simp only [Rounded.linspaceNat]
      rw [List.getElem?_append_left (by simp), List.getElem?_map, List.getElem?_range (by norm_num),
        Option.map_some, hentry]
    rw [List.getElem?_map, h9, Option.map_some, Option.some.injEq] at hrow
    subst hrow
    have := hj 0
    simp only [Fin.val_zero, List.getElem?_cons_zero, Option.some.injEq] at this
    have h5 := (hin 0).2
    rw [← this] at h5
    simp only at h5
    linarith

private noncomputable def exDraws : BaseBo.Draws 2 := ⟨fun _ => 1 / 2, fun _ => 3, fun _ _ => 1 / 4, fun _ _ => 0⟩

/-- Concrete case of C103: a search space, draws and a way of rounding as assumed. -/
example : Nearest roundUp ∧ DoubleBox (fun _ : Fin 2 => ((-1 : ℝ), (3 : ℝ))) ∧ DoubleDraws exDraws := by
  have h3 : (3 : ℝ) ∈ Double := by
    have := double_nat (m := 3) (by norm_num)
    simpa using this
  have hh : (1 / 2 : ℝ) ∈ Double := ⟨1, -1, by norm_num, by norm_num, by norm_num⟩
  have hq : (1 / 4 : ℝ) ∈ Double := ⟨1, -2, by norm_num, by norm_num, by rw [zpow_neg]; norm_num⟩
  exact ⟨roundUp_nearest, fun _ => ⟨double_neg one_mem, h3, by norm_num⟩,
    fun _ => ⟨hh, by norm_num [exDraws], by norm_num [exDraws]⟩,
    fun _ _ => ⟨hq, by norm_num [exDraws], by norm_num [exDraws]⟩,
    fun _ _ => ⟨double_zero, by norm_num [exDraws], by norm_num [exDraws]⟩⟩

/-! ### C104 -/

private theorem rounded_normalize_eq {Y : List ℝ} {mx mn : ℝ}
    (hM : mx ∈ Y ∧ ∀ y ∈ Y, y ≤ mx) (hm : mn ∈ Y ∧ ∀ y ∈ Y, mn ≤ y) (hne : mx ≠ mn) :
    Rounded.normalizeMinMax fl Y =
      .ok (Y.map (fun y => fl (fl (fl (y - mn) / fl (mx - mn)) * 10))) := by
  simp [Rounded.normalizeMinMax, npMax_ok.2 hM, npMin_ok.2 hm, hne, bind, Except.bind, pure,
    Except.pure, MULTIPLIER_RESPONSE]

/-- C104. Normalisation in double precision: the least response becomes exactly 0, the greatest
exactly 10, every other value lies between and is within `6e-15` of the exact value; the order is
never reversed, responses that differ by at least `2e-15` of the range stay strictly ordered, and a
response stays above the best one unless the distance is less than `2^-1000` of the range. -/
theorem C104_normalize (h : Nearest fl) (Y : List ℝ) (hY : ∀ y ∈ Y, y ∈ Double) (lo hi : ℝ)
    (hlo : lo ∈ Y ∧ ∀ y ∈ Y, lo ≤ y) (hhi : hi ∈ Y ∧ ∀ y ∈ Y, y ≤ hi) (hlt : lo < hi) :
    ∃ out, Rounded.normalizeMinMax fl Y = .ok out ∧ out.length = Y.length ∧
      (∀ (i : ℕ) (y v : ℝ), Y[i]? = some y → out[i]? = some v →
        0 ≤ v ∧ v ≤ 10 ∧ |v - 10 * ((y - lo) / (hi - lo))| ≤ 6 / 10 ^ 15 ∧
        (y = lo → v = 0) ∧ (y = hi → v = 10) ∧
        ((2 : ℝ) ^ (-1000 : ℤ) * (hi - lo) ≤ y - lo → 0 < v)) ∧
      ∀ (i j : ℕ) (y z v w : ℝ), Y[i]? = some y → Y[j]? = some z → out[i]? = some v →
        out[j]? = some w → (y ≤ z → v ≤ w) ∧ (2 / 10 ^ 15 * (hi - lo) ≤ z - y → v < w) := by
  have hD : 0 < hi - lo := sub_pos.2 hlt
  have dlo := hY lo hlo.1
  have dhi := hY hi hhi.1
  have hw : 0 < fl (hi - lo) := fl_sub_pos h dhi dlo hlt
  have ten : (10 : ℝ) ∈ Double := by
    have := double_nat (m := 10) (by norm_num)
    simpa using this
  refine ⟨_, rounded_normalize_eq hhi hlo hlt.ne', by simp, ?_, ?_⟩
  · intro i y v hy hv
    rw [List.getElem?_map, hy, Option.map_some, Option.some.injEq] at hv
    subst hv
    have hm : y ∈ Y := List.mem_of_getElem? hy
    obtain ⟨q0, q1, -⟩ := normalized_bounds h (hY y hm) dlo dhi (hlo.2 y hm) (hhi.2 y hm) hlt
    refine ⟨fl_nonneg h (by linarith), fl_le_of_le h ten (by linarith), ?_, ?_, ?_, ?_⟩
    · have := normalized_error h (hY y hm) dlo dhi (hlo.2 y hm) (hhi.2 y hm) hlt
      rwa [mul_comm 10 ((y - lo) / (hi - lo))]
    · rintro rfl
      rw [sub_self, fl_zero h, zero_div, fl_zero h, zero_mul, fl_zero h]
    · rintro rfl
      rw [div_self hw.ne', fl_of_mem h one_mem, one_mul, fl_of_mem h ten]
    · exact normalized_pos h (hY y hm) dlo dhi (hlo.2 y hm) (hhi.2 y hm) hlt
  · intro i j y z v w hy hz hv hw'
    rw [List.getElem?_map, hy, Option.map_some, Option.some.injEq] at hv
    rw [List.getElem?_map, hz, Option.map_some, Option.some.injEq] at hw'
    subst hv hw'
    constructor
    · intro hyz
      apply fl_mono h
      refine mul_le_mul_of_nonneg_right (fl_mono h ?_) (by norm_num)
      exact div_le_div_of_nonneg_right (fl_mono h (by linarith)) hw.le
    · intro hyz
      have my : y ∈ Y := List.mem_of_getElem? hy
      have mz : z ∈ Y := List.mem_of_getElem? hz
      have e1 := abs_le.1 (normalized_error h (hY y my) dlo dhi (hlo.2 y my) (hhi.2 y my) hlt)
      have e2 := abs_le.1 (normalized_error h (hY z mz) dlo dhi (hlo.2 z mz) (hhi.2 z mz) hlt)
      have e3 : 2 / 10 ^ 15 ≤ (z - lo) / (hi - lo) - (y - lo) / (hi - lo) := by
        rw [← sub_div, le_div_iff₀ hD]
        linarith
      have e4 : (6 / 10 ^ 15 + 6 / 10 ^ 15 : ℝ) < 2 / 10 ^ 15 * 10 := by norm_num
      linarith [e1.2, e2.1]

/-- C104. A constant column is returned as it is. -/
theorem C104_constant (fl : ℝ → ℝ) (Y : List ℝ) (hY : Y ≠ []) (hc : ∀ a ∈ Y, ∀ b ∈ Y, a = b) :
    Rounded.normalizeMinMax fl Y = .ok Y := by
  obtain ⟨c, hm⟩ := List.exists_mem_of_ne_nil Y hY
  have hM : npMax Y = .ok c := npMax_ok.2 ⟨hm, fun y hy => (hc y hy c hm).le⟩
  have hn : npMin Y = .ok c := npMin_ok.2 ⟨hm, fun y hy => (hc y hy c hm).ge⟩
  simp [Rounded.normalizeMinMax, hM, hn, bind, Except.bind, pure, Except.pure]

/-- C104. Closer responses may become equal: the order is kept, but not strictly. -/
theorem C104_merges (h : Nearest fl) : ∃ Y out : List ℝ, (∀ y ∈ Y, y ∈ Double) ∧
    Rounded.normalizeMinMax fl Y = .ok out ∧ Y[1]? ≠ Y[2]? ∧ out[1]? = out[2]? := by
  have hs : (1 / 2 ^ 60 : ℝ) ∈ Double := by
    refine ⟨1, -60, by norm_num, by norm_num, ?_⟩
    rw [zpow_neg]
    norm_num
  refine ⟨[-1, 0, 1 / 2 ^ 60, 1], _, ?_, rounded_normalize_eq (mx := 1) (mn := -1) ?_ ?_ ?_, ?_, ?_⟩
  · intro y hy
    simp only [List.mem_cons, List.not_mem_nil, or_false] at hy
    rcases hy with rfl | rfl | rfl | rfl
    · exact double_neg one_mem
    · exact double_zero
    · exact hs
    · exact one_mem
  · norm_num
  · norm_num
  · norm_num
  · norm_num
  · have e : fl (1 / 2 ^ 60 - -1) = 1 := by
      have hn := h.near (1 / 2 ^ 60 - -1) 1 one_mem
      rw [abs_of_nonpos (a := (1 - (1 / 2 ^ 60 - -1) : ℝ)) (by norm_num)] at hn
      have h1 := (abs_le.1 hn).2
      have h2 : 1 ≤ fl (1 / 2 ^ 60 - -1) := le_fl_of_le h one_mem (by norm_num)
      rcases h2.lt_or_eq with hlt | heq
      · exfalso
        have := double_gt_one (h.mem _) hlt
        have h3 : (1 / 2 ^ 60 - -1 + -(1 - (1 / 2 ^ 60 - -1)) : ℝ) < 1 + 1 / 2 ^ 52 := by norm_num
        linarith
      · exact heq.symm
    have e0 : fl (0 - -1) = 1 := by
      rw [show (0 - -1 : ℝ) = 1 by norm_num, fl_of_mem h one_mem]
    simp only [List.map_cons, List.getElem?_cons_succ, List.getElem?_cons_zero, e, e0]

/-- Concrete case of C104: three doubles, not all equal. -/
example : (∀ y ∈ ([3, 1, 2] : List ℝ), y ∈ Double) ∧
    ((1 : ℝ) ∈ ([3, 1, 2] : List ℝ) ∧ ∀ y ∈ ([3, 1, 2] : List ℝ), 1 ≤ y) ∧
    ((3 : ℝ) ∈ ([3, 1, 2] : List ℝ) ∧ ∀ y ∈ ([3, 1, 2] : List ℝ), y ≤ 3) := by
  refine ⟨?_, by norm_num, by norm_num⟩
  intro y hy
  simp only [List.mem_cons, List.not_mem_nil, or_false] at hy
  rcases hy with rfl | rfl | rfl
  · have := double_nat (m := 3) (by norm_num)
    simpa using this
  · exact one_mem
  · have := double_nat (m := 2) (by norm_num)
    simpa using this

/-! ### C105 -/

/-- Column `j` of the running minima. -/
theorem minima_column (Y : Arr2 Flt) (n j : ℕ) (hj : j < Y.ncols - n + 1) (hn : n < Y.ncols) :
    UtilsCommon.column (Y.rows.map fun row => UtilsCommon.minimaRow row n) j =
      Y.rows.map fun row => UtilsCommon.accMin Flt.pinf (row.take (n + j)) := by
  have hs : sliceBound Y.ncols n = n := by simp [sliceBound, hn.le]
  rw [show Y.rows.map (fun row => UtilsCommon.accMin Flt.pinf (row.take (n + j))) =
    (Y.rows.map fun row => UtilsCommon.minimaRow row n).map (fun c => (c[j]?).getD Flt.nan) by
      rw [List.map_map]
      apply List.map_congr_left
      intro row hr
      have hl := Y.wf row hr
      simp only [Function.comp]
      rw [minimaRow_getElem? row n j (by rw [hl, hs]; exact hj), hl, hs]
      rfl]
  apply column_eq_map
  intro c hcm
  obtain ⟨row, hr, rfl⟩ := List.mem_map.1 hcm
  have hl := Y.wf row hr
  rw [minimaRow_getElem? row n j (by rw [hl, hs]; exact hj)]
  rfl

private theorem rounded_minimum_ok {o : SumOrder} {Y : Arr2 Flt} {n : ℕ} {minima : List (List Flt)}
    {mean : List Flt} (h : Rounded.getMinimum fl o Y n = .ok (minima, mean)) :
    n < Y.ncols ∧ minima = Y.rows.map (fun row => UtilsCommon.minimaRow row n) ∧
      mean = (List.range (Y.ncols - n + 1)).map (fun j =>
        Rounded.meanF fl o (Y.rows.map fun row => UtilsCommon.accMin Flt.pinf (row.take (n + j)))) := by
  have hs : sliceBound Y.ncols n = n := by simp [sliceBound]
  by_cases hc : (Y.ncols : ℤ) > (n : ℤ)
  · simp only [Rounded.getMinimum, pyAssert, hc, if_true, bind, Except.bind, pure, Except.pure,
      Except.ok.injEq, Prod.mk.injEq, hs] at h
    obtain ⟨rfl, rfl⟩ := h
    have hn : n < Y.ncols := by exact_mod_cast hc
    refine ⟨hn, rfl, ?_⟩
    apply List.map_congr_left
    intro j hj
    rw [minima_column Y n j (List.mem_range.1 hj) hn]
  · simp [Rounded.getMinimum, pyAssert, hc, bind, Except.bind] at h

private theorem accMin_upper {row : List Flt} (h : Flt.ninf ∉ row) :
    Upper (UtilsCommon.accMin Flt.pinf row) := by
  obtain ⟨h1, -, h3⟩ := accMin_best row
  refine ⟨h1, fun he => ?_⟩
  rw [he] at h3
  rcases h3 with h3 | h3
  · exact h h3
  · cases h3

private theorem accMin_antitone (row : List Flt) (k : ℕ) :
    UtilsCommon.accMin Flt.pinf (row.take (k + 1)) ≤ UtilsCommon.accMin Flt.pinf (row.take k) := by
  obtain ⟨h1, h2, h3⟩ := accMin_best (row.take k)
  obtain ⟨g1, g2, g3⟩ := accMin_best (row.take (k + 1))
  rcases h3 with h3 | h3
  · have hin : UtilsCommon.accMin Flt.pinf (row.take k) ∈ row.take (k + 1) := by
      have e : row.take k = (row.take (k + 1)).take k := by
        rw [List.take_take, Nat.min_eq_left (by omega)]
      have h3' : UtilsCommon.accMin Flt.pinf (row.take k) ∈ (row.take (k + 1)).take k := e ▸ h3
      exact List.mem_of_mem_take h3'
    rcases g2 _ hin with hh | hh
    · exact absurd hh h1
    · exact hh
  · rw [h3]
    revert g1
    generalize UtilsCommon.accMin Flt.pinf (row.take (k + 1)) = a
    intro g1
    cases a <;> simp_all

/-- C105. In double precision the running minima are exact, and their mean over the rounds never
rises, in whatever order the rounds are added (observations of `-inf` excluded). -/
theorem C105_minima (h : Nearest fl) (o : SumOrder) (Y : Arr2 Flt) (ho : o.Covers Y.rows.length)
    (hY : ∀ row ∈ Y.rows, Flt.ninf ∉ row) (n : ℕ) (minima : List (List Flt)) (mean : List Flt)
    (hr : Rounded.getMinimum fl o Y n = .ok (minima, mean)) :
    (∃ exact, UtilsCommon.getMinimum Y n = .ok exact ∧ minima = exact.minima) ∧
      mean.length = Y.ncols - n + 1 ∧
      ∀ (k : ℕ) (a b : Flt), mean[k]? = some a → mean[k + 1]? = some b → b ≤ a := by
  obtain ⟨hn, rfl, rfl⟩ := rounded_minimum_ok hr
  refine ⟨?_, by simp, ?_⟩
  · have hc : (Y.ncols : ℤ) > (n : ℤ) := by exact_mod_cast hn
    simp only [UtilsCommon.getMinimum, pyAssert, hc, if_true, bind, Except.bind, pure, Except.pure]
    exact ⟨_, rfl, rfl⟩
  · intro k a b ha hb
    have hk : k + 1 < Y.ncols - n + 1 := by
      have := (List.getElem?_eq_some_iff.1 hb).1
      simpa using this
    rw [List.getElem?_map, List.getElem?_range (by omega), Option.map_some, Option.some.injEq] at ha hb
    subst ha hb
    refine (meanF_mono h _ _ o (by simp) (by simpa using ho) ?_).1
    intro i hi
    have hi' : i < Y.rows.length := by simpa using hi
    have hm := hY _ (List.getElem_mem hi')
    refine ⟨UtilsCommon.accMin Flt.pinf (Y.rows[i].take (n + (k + 1))), _,
      by rw [List.getElem?_map, List.getElem?_eq_getElem hi', Option.map_some], by rw [List.getElem?_map, List.getElem?_eq_getElem hi', Option.map_some],
      accMin_upper (fun hc => hm (List.mem_of_mem_take hc)),
      accMin_upper (fun hc => hm (List.mem_of_mem_take hc)), accMin_antitone _ (n + k)⟩

/-- C105. The mean of the running minima is close to the exact one: entry `k`, for finite minima
`x_1, ..., x_r`, differs from their mean by at most `(1 + 2^-53)^r - 1` times the mean of the
`|x_i|`, and the smallest double. -/
theorem C105_minima_accuracy (h : Nearest fl) (o : SumOrder) (Y : Arr2 Flt)
    (ho : o.Covers Y.rows.length) (n : ℕ) (minima : List (List Flt)) (mean : List Flt)
    (hr : Rounded.getMinimum fl o Y n = .ok (minima, mean)) (k : ℕ) (hk : k ≤ Y.ncols - n)
    (xs : List ℝ) (hx : ∀ x ∈ xs, x ∈ Double)
    (hm : minima.map (fun c => c[k]?) = xs.map (fun x => some (Flt.fin x))) :
    ∃ m, mean[k]? = some (Flt.fin m) ∧
      |m - xs.sum / xs.length| ≤ ((1 + 1 / 2 ^ 53) ^ xs.length - 1) * ((xs.map abs).sum / xs.length) +
        (2 : ℝ) ^ (-1075 : ℤ) := by
  obtain ⟨hn, rfl, rfl⟩ := rounded_minimum_ok hr
  have hs : sliceBound Y.ncols n = n := by simp [sliceBound]
  have hcol : Y.rows.map (fun row => UtilsCommon.accMin Flt.pinf (row.take (n + k))) =
      xs.map Flt.fin := by
    have e1 : (Y.rows.map (fun row => UtilsCommon.accMin Flt.pinf (row.take (n + k)))).map some =
        (xs.map Flt.fin).map some := by
      rw [List.map_map, List.map_map]
      rw [List.map_map] at hm
      have e2 : xs.map (some ∘ Flt.fin) = xs.map (fun x => some (Flt.fin x)) := rfl
      rw [e2, ← hm]
      apply List.map_congr_left
      intro row hrow
      have hl := Y.wf row hrow
      simp only [Function.comp]
      rw [minimaRow_getElem? row n k (by rw [hl, hs]; omega), hl, hs]
    exact List.map_injective_iff.2 (Option.some_injective _) e1
  have hlen : Y.rows.length = xs.length := by
    have := congrArg List.length hcol
    simpa using this
  rw [hlen] at ho
  obtain ⟨m, h1, h2⟩ := meanF_accuracy h xs hx o ho
  refine ⟨m, ?_, h2⟩
  rw [List.getElem?_map, List.getElem?_range (by omega), Option.map_some, hcol, h1]

/-- C105. In double precision the mean elapsed time starts at 0 and never falls, and entry `k` is
within `(1 + 2^-53)^(k + r) - 1` of the exact mean (relatively, for `r` rounds), in whatever order the
rounds are added. -/
theorem C105_time (h : Nearest fl) (o : SumOrder) (T : Arr2 ℝ) (ho : o.Covers T.rows.length)
    (hT : ∀ row ∈ T.rows, ∀ x ∈ row, x ∈ Double ∧ 0 ≤ x) (n : ℕ) (inc : Bool) (c : List Flt)
    (hc : Rounded.getTime fl o T n inc = .ok c) :
    c.length = T.ncols - firstCounted n inc + 1 ∧
    ∃ e f : List ℝ, UtilsCommon.getTime T n inc = .ok e ∧ c = f.map Flt.fin ∧ f[0]? = some 0 ∧
      (∀ (k : ℕ) (a b : ℝ), f[k]? = some a → f[k + 1]? = some b → a ≤ b) ∧
      ∀ (k : ℕ) (a x : ℝ), f[k]? = some a → e[k]? = some x →
        |a - x| ≤ ((1 + 1 / 2 ^ 53) ^ (k + T.rows.length) - 1) * x + (2 : ℝ) ^ (-1075 : ℤ) := by
  have hs : sliceBound T.ncols n = n := by simp [sliceBound]
  set D := firstCounted n inc with hD
  have hrow : ∀ row ∈ T.rows, (if inc then sliceFrom row n else row) = row.drop D := by
    intro row hr
    have hl : row.length = T.ncols := T.wf row hr
    cases inc <;> simp [hD, firstCounted, sliceFrom, hl, hs]
  have hce : c = (List.range (T.ncols - D + 1)).map (fun j => Rounded.meanF fl o
      ((UtilsCommon.column (T.rows.map (fun t => Rounded.timeRow fl t n inc)) j).map Flt.fin)) ∧
      ∃ e, UtilsCommon.getTime T n inc = .ok e := by
    cases inc with
    | false =>
      simp only [Rounded.getTime, bind, Except.bind, pure, Except.pure, Bool.false_eq_true,
        if_false, Except.ok.injEq] at hc
      rw [← hc]
      refine ⟨by simp [hD, firstCounted], ?_⟩
      simp only [UtilsCommon.getTime, bind, Except.bind, pure, Except.pure, Bool.false_eq_true,
        if_false]
      exact ⟨_, rfl⟩
    | true =>
      by_cases hgt : (T.ncols : ℤ) > n
      · simp only [Rounded.getTime, pyAssert, hgt, if_true, bind, Except.bind, pure, Except.pure,
          Except.ok.injEq, hs] at hc
        rw [← hc]
        refine ⟨by simp [hD, firstCounted], ?_⟩
        simp only [UtilsCommon.getTime, pyAssert, hgt, if_true, bind, Except.bind, pure, Except.pure]
        exact ⟨_, rfl⟩
      · simp [Rounded.getTime, pyAssert, hgt, bind, Except.bind] at hc
  obtain ⟨hce, e, he⟩ := hce
  obtain ⟨hel, hek⟩ := C17_curve T n inc e he
  have hpos : ∀ row ∈ T.rows, ∀ x ∈ row.drop D, x ∈ Double ∧ 0 ≤ x :=
    fun row hr x hx => hT row hr x (List.mem_of_mem_drop hx)
  have hent : ∀ row ∈ T.rows, ∀ k ≤ T.ncols - D, ∃ a,
      (Rounded.timeRow fl row n inc)[k]? = some a ∧ a ∈ Double ∧ 0 ≤ a ∧
      |a - ((row.drop D).take k).sum| ≤ ((1 + 1 / 2 ^ 53) ^ k - 1) * ((row.drop D).take k).sum ∧
      ∀ b, (Rounded.timeRow fl row n inc)[k + 1]? = some b → a ≤ b := by
    intro row hr k hk
    have hl : row.length = T.ncols := T.wf row hr
    have e1 : Rounded.timeRow fl row n inc = 0 :: Rounded.cumsum fl 0 (row.drop D) := by
      simp only [Rounded.timeRow, hrow row hr]
      rfl
    rw [e1]
    have := timeRow_entry h (row.drop D) (hpos row hr) 0 double_zero le_rfl k
      (by rw [List.length_drop, hl]; exact hk)
    simpa only [zero_add] using this
  set g : ℕ → List ℝ → ℝ := fun k row => ((Rounded.timeRow fl row n inc)[k]?).getD 0 with hg
  have hcol : ∀ k ≤ T.ncols - D,
      UtilsCommon.column (T.rows.map (fun t => Rounded.timeRow fl t n inc)) k = T.rows.map (g k) := by
    intro k hk
    rw [show T.rows.map (g k) = (T.rows.map fun t => Rounded.timeRow fl t n inc).map
      (fun c => (c[k]?).getD 0) by rw [List.map_map]; rfl]
    apply column_eq_map
    intro r hr
    obtain ⟨row, hm, rfl⟩ := List.mem_map.1 hr
    obtain ⟨a, ha, -⟩ := hent row hm k hk
    rw [ha]
    rfl
  have hgk : ∀ k ≤ T.ncols - D, ∀ row ∈ T.rows, g k row ∈ Double ∧ 0 ≤ g k row ∧
      |g k row - ((row.drop D).take k).sum| ≤
        ((1 + 1 / 2 ^ 53) ^ k - 1) * ((row.drop D).take k).sum ∧
      (k + 1 ≤ T.ncols - D → g k row ≤ g (k + 1) row) := by
    intro k hk row hr
    obtain ⟨a, h1, h2, h3, h4, h5⟩ := hent row hr k hk
    have ea : g k row = a := by simp [hg, h1]
    rw [ea]
    refine ⟨h2, h3, h4, fun hk1 => ?_⟩
    obtain ⟨b, g1, -⟩ := hent row hr (k + 1) hk1
    have eb : g (k + 1) row = b := by simp [hg, g1]
    rw [eb]
    exact h5 b g1
  have hmean : ∀ k ≤ T.ncols - D, ∃ m, c[k]? = some (Flt.fin m) ∧
      |m - (T.rows.map (g k)).sum / T.rows.length| ≤ ((1 + 1 / 2 ^ 53) ^ T.rows.length - 1) *
        ((T.rows.map (g k)).sum / T.rows.length) + (2 : ℝ) ^ (-1075 : ℤ) := by
    intro k hk
    obtain ⟨m, h1, h2⟩ := meanF_accuracy h (T.rows.map (g k)) (by
      intro x hx
      obtain ⟨row, hr, rfl⟩ := List.mem_map.1 hx
      exact (hgk k hk row hr).1) o (by simpa using ho)
    refine ⟨m, ?_, ?_⟩
    · rw [hce, List.getElem?_map, List.getElem?_range (by omega), Option.map_some, hcol k hk, h1]
    · have ea : (T.rows.map (g k)).map abs = T.rows.map (g k) := by
        rw [List.map_map]
        apply List.map_congr_left
        intro row hr
        exact abs_of_nonneg (hgk k hk row hr).2.1
      rwa [ea, List.length_map] at h2
  have hclen : c.length = T.ncols - D + 1 := by rw [hce]; simp
  refine ⟨hclen, e, c.map (fun a => match a with | .fin x => x | _ => 0), he, ?_, ?_, ?_, ?_⟩
  · rw [List.map_map]
    apply List.ext_getElem?
    intro k
    rw [List.getElem?_map]
    rcases Nat.lt_or_ge k c.length with hk | hk
    · obtain ⟨m, hm, -⟩ := hmean k (by omega)
      rw [hm]
      rfl
    · rw [List.getElem?_eq_none hk]
      rfl
  · have : c[0]? = some (Flt.fin 0) := by
      rw [hce, List.getElem?_map, List.getElem?_range (by omega), Option.map_some, hcol 0 (by omega)]
      have hz : T.rows.map (g 0) = T.rows.map (fun _ => (0 : ℝ)) := by
        apply List.map_congr_left
        intro row _
        simp [hg, Rounded.timeRow]
      have hlt : ∀ i ∈ o.entries, i < (T.rows.map (fun _ => (0 : ℝ))).length := fun i hi => by
        rw [List.length_map]
        exact List.mem_range.1 (ho.mem_iff.1 hi)
      have h0 : ∀ o : SumOrder, sumR fl (T.rows.map (fun _ => (0 : ℝ))) o = 0 := by
        intro o
        induction o with
        | entry i =>
          simp only [sumR, List.getElem?_map]
          cases T.rows[i]? <;> rfl
        | add a b iha ihb => simp only [sumR, iha, ihb, add_zero, fl_zero h]
      rw [hz, Rounded.meanF, sumF_finite _ o hlt, h0]
      simp [Flt.divPos, roundF, fl_zero h]
    rw [List.getElem?_map, this]
    rfl
  · intro k a b ha hb
    have hk : k + 1 < c.length := by
      have := (List.getElem?_eq_some_iff.1 hb).1
      simpa using this
    obtain ⟨x, hx, -⟩ := hmean k (by omega)
    obtain ⟨y, hy, -⟩ := hmean (k + 1) (by omega)
    rw [List.getElem?_map, hx, Option.map_some, Option.some.injEq] at ha
    rw [List.getElem?_map, hy, Option.map_some, Option.some.injEq] at hb
    simp only at ha hb
    subst ha hb
    rw [hce, List.getElem?_map, List.getElem?_range (by omega), Option.map_some,
      Option.some.injEq, hcol k (by omega)] at hx
    rw [hce, List.getElem?_map, List.getElem?_range (by omega), Option.map_some,
      Option.some.injEq, hcol (k + 1) (by omega)] at hy
    have hmono := (meanF_mono h ((T.rows.map (g k)).map Flt.fin) ((T.rows.map (g (k + 1))).map Flt.fin)
      o (by simp) (by simpa using ho) (by
        intro i hi
        have hi' : i < T.rows.length := by simpa using hi
        refine ⟨Flt.fin (g k T.rows[i]), Flt.fin (g (k + 1) T.rows[i]), by simp [hi'], by simp [hi'],
          by simp [Upper], by simp [Upper], ?_⟩
        exact (hgk k (by omega) _ (List.getElem_mem hi')).2.2.2 (by omega))).1
    rw [hx, hy] at hmono
    exact hmono
  · intro k a x ha hx
    have hk : k < c.length := by
      have := (List.getElem?_eq_some_iff.1 ha).1
      simpa using this
    obtain ⟨m, hm, hb⟩ := hmean k (by omega)
    rw [List.getElem?_map, hm, Option.map_some, Option.some.injEq] at ha
    simp only at ha
    subst ha
    rw [hek k (by omega), Option.some.injEq] at hx
    subst hx
    set r := T.rows.length
    set S := (T.rows.map (fun row => ((row.drop D).take k).sum)).sum
    set G := (T.rows.map (g k)).sum
    have hkk : k ≤ T.ncols - D := by omega
    have hGS : |G - S| ≤ ((1 + 1 / 2 ^ 53) ^ k - 1) * S := by
      have : ∀ rows : List (List ℝ), (∀ row ∈ rows, row ∈ T.rows) →
          |(rows.map (g k)).sum - (rows.map (fun row => ((row.drop D).take k).sum)).sum| ≤
          ((1 + 1 / 2 ^ 53) ^ k - 1) * (rows.map (fun row => ((row.drop D).take k).sum)).sum := by
        intro rows
        induction rows with
        | nil => simp
        | cons row t ih =>
          intro hall
          have h1 := (hgk k hkk row (hall row (by simp))).2.2.1
          have h2 := ih (fun s hs => hall s (by simp [hs]))
          simp only [List.map_cons, List.sum_cons]
          set P : ℝ := (1 + 1 / 2 ^ 53) ^ k
          rw [add_sub_add_comm, mul_add]
          exact (abs_add_le _ _).trans (add_le_add h1 h2)
      exact this T.rows (fun _ h => h)
    have hr0 : (0 : ℝ) ≤ r := Nat.cast_nonneg _
    have hPr : 1 ≤ (1 + 1 / 2 ^ 53 : ℝ) ^ r := one_le_pow₀ (by norm_num)
    have hPk : 1 ≤ (1 + 1 / 2 ^ 53 : ℝ) ^ k := one_le_pow₀ (by norm_num)
    rw [pow_add]
    set Pr := (1 + 1 / 2 ^ 53 : ℝ) ^ r
    set Pk := (1 + 1 / 2 ^ 53 : ℝ) ^ k
    have h1 : |G / r - S / r| ≤ (Pk - 1) * (S / r) := by
      rw [← sub_div, abs_div, abs_of_nonneg hr0, ← mul_div_assoc]
      exact div_le_div_of_nonneg_right hGS hr0
    have h2 : G / r ≤ Pk * (S / r) := by linarith [(abs_le.1 h1).2]
    have h3 : (Pr - 1) * (G / r) ≤ (Pr - 1) * (Pk * (S / r)) :=
      mul_le_mul_of_nonneg_left h2 (by linarith)
    have e1 : m - S / r = (m - G / r) + (G / r - S / r) := by ring
    rw [e1]
    refine (abs_add_le _ _).trans ?_
    have e2 : (Pk * Pr - 1) * (S / r) = (Pr - 1) * (Pk * (S / r)) + (Pk - 1) * (S / r) := by ring
    rw [e2]
    linarith

/-- Concrete case of C105: two rounds, added in the order second plus first. -/
example : (SumOrder.add (.entry 1) (.entry 0)).Covers 2 ∧
    (∀ row ∈ ([[Flt.fin 3, Flt.fin 1], [Flt.fin 2, Flt.nan]] : List (List Flt)), Flt.ninf ∉ row) ∧
    ∀ row ∈ ([[1, 2], [2, 1]] : List (List ℝ)), ∀ x ∈ row, x ∈ Double ∧ 0 ≤ x := by
  have h2 : (2 : ℝ) ∈ Double := by
    have := double_nat (m := 2) (by norm_num)
    simpa using this
  refine ⟨?_, by simp, ?_⟩
  · simp only [SumOrder.Covers, SumOrder.entries]
    exact List.Perm.swap 0 1 []
  · intro row hr x hx
    simp only [List.mem_cons, List.not_mem_nil, or_false] at hr
    rcases hr with rfl | rfl <;> simp only [List.mem_cons, List.not_mem_nil, or_false] at hx <;>
      rcases hx with rfl | rfl <;> first | exact ⟨one_mem, by norm_num⟩ | exact ⟨h2, by norm_num⟩

end Verif.Props
