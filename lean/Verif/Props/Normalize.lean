import Verif.Model.UtilsBo
import Verif.Lemmas.Flt
import Mathlib.Tactic.NormNum
import Mathlib.Tactic.FieldSimp
import Mathlib.Tactic.Ring

/-! # C01, C02: response normalisation -/

namespace Verif.Props

open Verif.UtilsBo Verif.Constants

/-- The explicit formula, used by the proofs below. -/
private theorem normalize_eq {Y : List ℝ} {mx mn : ℝ}
    (hM : mx ∈ Y ∧ ∀ y ∈ Y, y ≤ mx) (hm : mn ∈ Y ∧ ∀ y ∈ Y, mn ≤ y) (hne : mx ≠ mn) :
    normalizeMinMax Y = .ok (Y.map (fun y => (y - mn) / (mx - mn) * 10)) := by
  simp [normalizeMinMax, npMax_ok.2 hM, npMin_ok.2 hm, hne, bind, Except.bind, pure,
    Except.pure, MULTIPLIER_RESPONSE]

private theorem normalize_const {Y : List ℝ} {c : ℝ} (hc : c ∈ Y) (h : ∀ y ∈ Y, y = c) :
    normalizeMinMax Y = .ok Y := by
  have hM : npMax Y = .ok c := npMax_ok.2 ⟨hc, fun y hy => (h y hy).le⟩
  have hm : npMin Y = .ok c := npMin_ok.2 ⟨hc, fun y hy => (h y hy).ge⟩
  simp [normalizeMinMax, hM, hm, bind, Except.bind, pure, Except.pure]

private theorem minmax_of_nonconst {Y : List ℝ} (h : ∃ a ∈ Y, ∃ b ∈ Y, a ≠ b) :
    ∃ mx mn, (mx ∈ Y ∧ ∀ y ∈ Y, y ≤ mx) ∧ (mn ∈ Y ∧ ∀ y ∈ Y, mn ≤ y) ∧ mn < mx := by
  obtain ⟨a, ha, b, hb, hab⟩ := h
  have hne : Y ≠ [] := by rintro rfl; simp at ha
  obtain ⟨mx, hM⟩ := npMax_exists hne
  obtain ⟨mn, hm⟩ := npMin_exists hne
  rw [npMax_ok] at hM; rw [npMin_ok] at hm
  refine ⟨mx, mn, hM, hm, ?_⟩
  rcases lt_or_gt_of_ne hab with h | h
  · exact (hm.2 a ha).trans_lt (h.trans_le (hM.2 b hb))
  · exact (hm.2 b hb).trans_lt (h.trans_le (hM.2 a ha))

/-- C01. For a non-constant column the call succeeds; the result has the same length, lies
in `[0, 10]`, attains both ends, and orders any two entries exactly as before. -/
theorem C01_normalize_range_order (Y : List ℝ) (h : ∃ a ∈ Y, ∃ b ∈ Y, a ≠ b) :
    ∃ out, normalizeMinMax Y = .ok out ∧ out.length = Y.length ∧
      (∀ y ∈ out, 0 ≤ y ∧ y ≤ 10) ∧ 0 ∈ out ∧ 10 ∈ out ∧
      ∀ (i j : ℕ) (yi yj oi oj : ℝ), Y[i]? = some yi → Y[j]? = some yj →
        out[i]? = some oi → out[j]? = some oj → (yi < yj ↔ oi < oj) := by
  obtain ⟨mx, mn, hM, hm, hlt⟩ := minmax_of_nonconst h
  have hpos : 0 < mx - mn := by linarith
  refine ⟨_, normalize_eq hM hm hlt.ne', by simp, ?_, ?_, ?_, ?_⟩
  · intro y hy
    obtain ⟨x, hx, rfl⟩ := List.mem_map.1 hy
    have h1 : 0 ≤ (x - mn) / (mx - mn) := div_nonneg (by linarith [hm.2 x hx]) hpos.le
    have h2 : (x - mn) / (mx - mn) ≤ 1 := (div_le_one hpos).2 (by linarith [hM.2 x hx])
    constructor <;> linarith
  · exact List.mem_map.2 ⟨mn, hm.1, by simp⟩
  · exact List.mem_map.2 ⟨mx, hM.1, by rw [div_self hpos.ne']; norm_num⟩
  · intro i j yi yj oi oj hi hj hoi hoj
    rw [List.getElem?_map, hi, Option.map_some, Option.some.injEq] at hoi
    rw [List.getElem?_map, hj, Option.map_some, Option.some.injEq] at hoj
    subst hoi hoj
    rw [mul_lt_mul_iff_left₀ (by norm_num : (0:ℝ) < 10), div_lt_div_iff_of_pos_right hpos]
    constructor <;> intro h <;> linarith

/-- C01. A constant non-empty column is returned unchanged. -/
theorem C01_normalize_constant (Y : List ℝ) (hY : Y ≠ []) (h : ∀ a ∈ Y, ∀ b ∈ Y, a = b) :
    normalizeMinMax Y = .ok Y := by
  obtain ⟨c, hc⟩ := List.exists_mem_of_ne_nil Y hY
  exact normalize_const hc (fun y hy => h y hy c hc)

/-- C01. The call fails exactly on an empty column, with `ValueError`. -/
theorem C01_normalize_fails_iff (Y : List ℝ) (e : PyErr) :
    normalizeMinMax Y = .error e ↔ Y = [] ∧ e = .value := by
  by_cases hY : Y = []
  · subst hY; simp [normalizeMinMax, npMax, bind, Except.bind, eq_comm]
  · simp only [hY, false_and, iff_false]
    by_cases h : ∃ a ∈ Y, ∃ b ∈ Y, a ≠ b
    · obtain ⟨out, ho, _⟩ := C01_normalize_range_order Y h
      simp [ho]
    · push Not at h
      simp [C01_normalize_constant Y hY h]

/-- C01. Minimisers are kept: row `i` is a minimum before iff it is one (equal to 0) after. -/
theorem C01_normalize_minimiser (Y out : List ℝ) (h : ∃ a ∈ Y, ∃ b ∈ Y, a ≠ b)
    (ho : normalizeMinMax Y = .ok out) (i : ℕ) (yi oi : ℝ)
    (hi : Y[i]? = some yi) (hoi : out[i]? = some oi) :
    (∀ y ∈ Y, yi ≤ y) ↔ oi = 0 := by
  obtain ⟨mx, mn, hM, hm, hlt⟩ := minmax_of_nonconst h
  have hpos : 0 < mx - mn := by linarith
  rw [normalize_eq hM hm hlt.ne', Except.ok.injEq] at ho
  subst ho
  rw [List.getElem?_map, hi, Option.map_some, Option.some.injEq] at hoi
  subst hoi
  have hmem : yi ∈ Y := List.mem_of_getElem? hi
  constructor
  · intro hmin
    have : yi = mn := le_antisymm (hmin _ hm.1) (hm.2 _ hmem)
    simp [this]
  · intro h0 y hy
    have h1 : (yi - mn) / (mx - mn) = 0 := by linarith
    have h2 : yi - mn = 0 := by
      rcases div_eq_zero_iff.1 h1 with h | h
      · exact h
      · exact absurd h hpos.ne'
    linarith [hm.2 y hy]

/-- Concrete case of C01: `[3, 1, 2]` becomes `[10, 0, 5]`. -/
example : normalizeMinMax [3, 1, 2] = .ok [10, 0, 5] := by
  rw [normalize_eq (mx := 3) (mn := 1) (by norm_num) (by norm_num) (by norm_num)]
  norm_num

example : ∃ a ∈ ([3, 1, 2] : List ℝ), ∃ b ∈ ([3, 1, 2] : List ℝ), a ≠ b :=
  ⟨3, by simp, 1, by simp, by norm_num⟩

/-- C02. Normalisation does not see a positive rescaling and shift of the responses. -/
theorem C02_normalize_affine_invariant (Y : List ℝ) (a b : ℝ) (ha : 0 < a)
    (h : ∃ x ∈ Y, ∃ y ∈ Y, x ≠ y) :
    normalizeMinMax (Y.map (fun y => a * y + b)) = normalizeMinMax Y := by
  obtain ⟨mx, mn, hM, hm, hlt⟩ := minmax_of_nonconst h
  have hpos : 0 < mx - mn := by linarith
  rw [normalize_eq hM hm hlt.ne']
  have hM' : a * mx + b ∈ Y.map (fun y => a * y + b) ∧
      ∀ y ∈ Y.map (fun y => a * y + b), y ≤ a * mx + b := by
    refine ⟨List.mem_map.2 ⟨mx, hM.1, rfl⟩, ?_⟩
    intro y hy
    obtain ⟨x, hx, rfl⟩ := List.mem_map.1 hy
    have := mul_le_mul_of_nonneg_left (hM.2 x hx) ha.le
    linarith
  have hm' : a * mn + b ∈ Y.map (fun y => a * y + b) ∧
      ∀ y ∈ Y.map (fun y => a * y + b), a * mn + b ≤ y := by
    refine ⟨List.mem_map.2 ⟨mn, hm.1, rfl⟩, ?_⟩
    intro y hy
    obtain ⟨x, hx, rfl⟩ := List.mem_map.1 hy
    have := mul_le_mul_of_nonneg_left (hm.2 x hx) ha.le
    linarith
  have hne : a * mx + b ≠ a * mn + b := by
    have := mul_lt_mul_of_pos_left hlt ha
    intro h; linarith
  rw [normalize_eq hM' hm' hne, List.map_map]
  congr 1
  apply List.map_congr_left
  intro y _
  simp only [Function.comp]
  have h1 : a * y + b - (a * mn + b) = a * (y - mn) := by ring
  have h2 : a * mx + b - (a * mn + b) = a * (mx - mn) := by ring
  rw [h1, h2, mul_div_mul_left _ _ ha.ne']

/-- C02. Normalising twice is normalising once (for any non-empty column). -/
theorem C02_normalize_idempotent (Y out : List ℝ) (h : normalizeMinMax Y = .ok out) :
    normalizeMinMax out = .ok out := by
  by_cases hc : ∃ a ∈ Y, ∃ b ∈ Y, a ≠ b
  · obtain ⟨out', ho, hlen, hr, h0, h10, _⟩ := C01_normalize_range_order Y hc
    rw [h, Except.ok.injEq] at ho
    subst ho
    rw [normalize_eq (mx := 10) (mn := 0) ⟨h10, fun y hy => (hr y hy).2⟩
      ⟨h0, fun y hy => (hr y hy).1⟩ (by norm_num)]
    congr 1
    conv_rhs => rw [← List.map_id out]
    apply List.map_congr_left
    intro y _
    simp
  · push Not at hc
    have hY : Y ≠ [] := by
      rintro rfl
      simp [normalizeMinMax, npMax, bind, Except.bind] at h
    have hcon := C01_normalize_constant Y hY hc
    rw [h, Except.ok.injEq] at hcon
    subst hcon
    exact h

/-- Concrete case of C02: Fahrenheit and Celsius give the same normalised column. -/
example : normalizeMinMax [212, 32, 122] = normalizeMinMax [100, 0, 50] := by
  have := C02_normalize_affine_invariant [100, 0, 50] (9/5) 32 (by norm_num)
    ⟨100, by simp, 0, by simp, by norm_num⟩
  rw [← this]; norm_num

end Verif.Props
