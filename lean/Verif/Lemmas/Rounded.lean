import Verif.Model.Rounded
import Verif.Lemmas.Doubles
import Verif.Lemmas.Flt
import Verif.Lemmas.Curves
import Verif.Props.Sampling

/-! The functions with rounding (for C103-C105). -/

namespace Verif.Lemmas

open Verif.Spec Verif.Rounded Verif.Constants

/-! ### Without rounding -/

theorem normalize_id (Y : List ℝ) :
    Rounded.normalizeMinMax id Y = UtilsBo.normalizeMinMax Y := rfl

theorem linspaceNat_id (a b : ℝ) (n : ℕ) :
    Rounded.linspaceNat id a b n = UtilsCommon.linspaceNat a b n := by
  match n with
  | 0 => rfl
  | 1 => rfl
  | (n + 2) =>
    simp only [Rounded.linspaceNat, UtilsCommon.linspaceNat, List.append_cancel_right_eq]
    apply List.map_congr_left
    intro i _
    have hn : ((n : ℝ) + 1) ≠ 0 := by positivity
    simp only [linspaceEntry, id]
    split
    · ring
    · ring

theorem linspace_id (a b : ℝ) (n : ℤ) : Rounded.linspace id a b n = UtilsCommon.linspace a b n := by
  simp only [Rounded.linspace, UtilsCommon.linspace, linspaceNat_id]

/-- Without rounding, sampling is the function of `BaseBo.lean`. -/
theorem getSamples_id {d : ℕ} (B : Bounds d) (r : BaseBo.Draws d) (m : String) (n : ℤ) :
    Rounded.getSamples id B r m n = BaseBo.getSamples B r m n := by
  simp only [Rounded.getSamples, BaseBo.getSamples, Rounded.getSamplesGrid, BaseBo.getSamplesGrid,
    Rounded.getGrids, UtilsCommon.getGrids, linspace_id]
  rfl

theorem flt_add_comm (a b : Flt) : a.add b = b.add a := by
  cases a <;> cases b <;> simp [Flt.add, add_comm]

theorem flt_add_assoc (a b c : Flt) : (a.add b).add c = a.add (b.add c) := by
  cases a <;> cases b <;> cases c <;> simp [Flt.add, add_assoc]

theorem flt_zero_add (a : Flt) : (Flt.fin 0).add a = a := by
  cases a <;> simp [Flt.add]

theorem sumF_start (a : Flt) (l : List Flt) :
    l.foldl Flt.add a = a.add (UtilsCommon.sumF l) := by
  unfold UtilsCommon.sumF
  induction l generalizing a with
  | nil => rw [List.foldl_nil, List.foldl_nil, flt_add_comm, flt_zero_add]
  | cons x t ih => rw [List.foldl_cons, List.foldl_cons, ih, ih ((Flt.fin 0).add x), flt_zero_add, flt_add_assoc]

theorem sumF_append (l k : List Flt) :
    UtilsCommon.sumF (l ++ k) = (UtilsCommon.sumF l).add (UtilsCommon.sumF k) := by
  rw [UtilsCommon.sumF, List.foldl_append, sumF_start]
  rfl

theorem sumF_perm {l k : List Flt} (h : l.Perm k) : UtilsCommon.sumF l = UtilsCommon.sumF k := by
  unfold UtilsCommon.sumF
  haveI : RightCommutative Flt.add :=
    ⟨fun a b c => by rw [flt_add_assoc, flt_add_assoc, flt_add_comm b c]⟩
  exact h.foldl_eq _

theorem roundF_id (a : Flt) : roundF id a = a := by cases a <;> rfl

theorem sumF_id (l : List Flt) (o : SumOrder) (h : o.Covers l.length) :
    Rounded.sumF id l o = UtilsCommon.sumF l := by
  have h1 : Rounded.sumF id l o =
      UtilsCommon.sumF (o.entries.map fun i => l[i]?.getD Flt.nan) := by
    clear h
    induction o with
    | entry i =>
      simp only [Rounded.sumF, SumOrder.entries, List.map_cons, List.map_nil, UtilsCommon.sumF,
        List.foldl_cons, List.foldl_nil, flt_zero_add]
    | add a b iha ihb =>
      simp only [Rounded.sumF, SumOrder.entries, List.map_append, sumF_append, roundF_id, iha, ihb]
  rw [h1, sumF_perm (h.map _)]
  congr 1
  apply List.ext_getElem?
  intro i
  rw [List.getElem?_map]
  rcases Nat.lt_or_ge i l.length with hi | hi
  · simp [List.getElem?_range hi, hi]
  · simp [hi]

/-- Without rounding, the mean does not depend on the order. -/
theorem meanF_id (l : List Flt) (o : SumOrder) (h : o.Covers l.length) :
    Rounded.meanF id o l = UtilsCommon.meanF l := by
  simp only [Rounded.meanF, UtilsCommon.meanF, sumF_id l o h, roundF_id]

theorem cumsum_id (s : ℝ) (l : List ℝ) : Rounded.cumsum id s l = UtilsCommon.cumsum s l := by
  induction l generalizing s with
  | nil => rfl
  | cons x t ih => simp only [Rounded.cumsum, UtilsCommon.cumsum, id, ih]

/-! ### Sampling -/

variable {fl : ℝ → ℝ}

theorem scale_box (h : Nearest fl) {lo hi u : ℝ} (hlo : lo ∈ Double) (hhi : hi ∈ Double)
    (hle : lo ≤ hi) (hu : u ∈ Double) (h0 : 0 ≤ u) (h1 : u < 1) :
    lo ≤ fl (fl (u * fl (hi - lo)) + lo) ∧ fl (fl (u * fl (hi - lo)) + lo) ≤ hi := by
  have a1 := fl_scale_le h hlo hhi hle hu h1
  have a2 : 0 ≤ fl (u * fl (hi - lo)) := fl_nonneg h (mul_nonneg h0 (fl_nonneg h (sub_nonneg.2 hle)))
  exact ⟨le_fl_of_le h hlo (by linarith), fl_le_of_le h hhi (by linarith)⟩

/-- A step of a grid, before the lower end is added. -/
theorem linspaceStep_mem (h : Nearest fl) {a b : ℝ} (ha : a ∈ Double) (hb : b ∈ Double)
    (hab : a = b ∨ (2 : ℝ) ^ (-960 : ℤ) ≤ b - a) {n i : ℕ} (hn : n + 1 ≤ 2 ^ 50) (hi : i ≤ n)
    (hs : fl (fl (b - a) / ((n : ℝ) + 1)) ≠ 0) :
    0 ≤ fl ((i : ℝ) * fl (fl (b - a) / ((n : ℝ) + 1))) ∧
      fl ((i : ℝ) * fl (fl (b - a) / ((n : ℝ) + 1))) ≤ b - a := by
  have hn' : (n : ℝ) + 1 ≤ 2 ^ 50 := by exact_mod_cast hn
  have hi' : (i : ℝ) ≤ n := by exact_mod_cast hi
  have hn0 : (0 : ℝ) ≤ n := Nat.cast_nonneg n
  have hi0 : (0 : ℝ) ≤ i := Nat.cast_nonneg i
  have hp : (0 : ℝ) < (n : ℝ) + 1 := by linarith
  have hle : a ≤ b := by
    rcases hab with rfl | hab
    · exact le_rfl
    · have : (0 : ℝ) < (2 : ℝ) ^ (-960 : ℤ) := by positivity
      linarith
  have hD : (2 : ℝ) ^ (-960 : ℤ) ≤ b - a := by
    rcases hab with rfl | hab
    · exfalso
      apply hs
      rw [sub_self, fl_zero h, zero_div, fl_zero h]
    · exact hab
  have hD0 : 0 ≤ b - a := sub_nonneg.2 hle
  set w := fl (b - a) with hw
  set s := fl (w / ((n : ℝ) + 1)) with hsdef
  have hw1 : (2 : ℝ) ^ (-960 : ℤ) ≤ w := le_fl_of_le h (double_half (by norm_num)) hD
  have hw2 : w ≤ (b - a) * (1 + 1 / 2 ^ 53) := by
    have := (abs_le.1 (fl_sub_rel h hb ha)).2
    rw [abs_of_nonneg hD0, ← hw] at this
    linarith
  have hq : (2 : ℝ) ^ (-1010 : ℤ) ≤ w / ((n : ℝ) + 1) := by
    rw [le_div_iff₀ hp]
    calc (2 : ℝ) ^ (-1010 : ℤ) * ((n : ℝ) + 1) ≤ (2 : ℝ) ^ (-1010 : ℤ) * 2 ^ 50 :=
          mul_le_mul_of_nonneg_left hn' (by positivity)
      _ = (2 : ℝ) ^ (-960 : ℤ) := by
          rw [show ((2 : ℝ) ^ 50) = (2 : ℝ) ^ (50 : ℤ) by norm_num, ← zpow_add₀ (by norm_num)]
          norm_num
      _ ≤ w := hw1
  have h1022 : (2 : ℝ) ^ (-1022 : ℤ) ≤ (2 : ℝ) ^ (-1010 : ℤ) :=
    zpow_le_zpow_right₀ (by norm_num) (by norm_num)
  have hq0 : (0 : ℝ) < w / ((n : ℝ) + 1) := lt_of_lt_of_le (by positivity) hq
  have hs1 : (2 : ℝ) ^ (-1010 : ℤ) ≤ s := le_fl_of_le h (double_half (by norm_num)) hq
  have hs0 : 0 < s := lt_of_lt_of_le (by positivity) hs1
  have hs2 : s ≤ w / ((n : ℝ) + 1) * (1 + 1 / 2 ^ 53) := by
    have := fl_rel h (x := w / ((n : ℝ) + 1)) (by rw [abs_of_pos hq0]; linarith)
    rw [abs_of_pos hq0, ← hsdef] at this
    linarith [(abs_le.1 this).2]
  have hv0 : 0 ≤ fl ((i : ℝ) * s) := fl_nonneg h (by positivity)
  have hv : fl ((i : ℝ) * s) ≤ b - a := by
    rcases Nat.eq_zero_or_pos i with rfl | hip
    · rw [Nat.cast_zero, zero_mul, fl_zero h]
      exact hD0
    · have hi1 : (1 : ℝ) ≤ i := by exact_mod_cast hip
      have his : (2 : ℝ) ^ (-1010 : ℤ) ≤ i * s := hs1.trans (le_mul_of_one_le_left hs0.le hi1)
      have his0 : 0 < (i : ℝ) * s := by positivity
      have h1 := fl_rel h (x := (i : ℝ) * s) (by rw [abs_of_pos his0]; linarith)
      rw [abs_of_pos his0] at h1
      have h2 := (abs_le.1 h1).2
      have h3 : (i : ℝ) * s ≤ i * ((b - a) * (1 + 1 / 2 ^ 53) / ((n : ℝ) + 1) * (1 + 1 / 2 ^ 53)) := by
        refine mul_le_mul_of_nonneg_left (hs2.trans ?_) hi0
        exact mul_le_mul_of_nonneg_right (div_le_div_of_nonneg_right hw2 hp.le) (by positivity)
      have h4 : fl ((i : ℝ) * s) ≤ (i * s) * (1 + 1 / 2 ^ 53) := by linarith
      have h5 : fl ((i : ℝ) * s) ≤ (b - a) * (i * (1 + 1 / 2 ^ 53) ^ 3 / ((n : ℝ) + 1)) := by
        refine h4.trans ((mul_le_mul_of_nonneg_right h3 (by positivity)).trans (le_of_eq ?_))
        ring
      refine h5.trans (mul_le_of_le_one_right hD0 ?_)
      rw [div_le_one hp]
      have h6 : ((1 + 1 / 2 ^ 53) ^ 3 : ℝ) ≤ 1 + 1 / 2 ^ 51 := by norm_num
      have h7 : (i : ℝ) * (1 + 1 / 2 ^ 53) ^ 3 ≤ n * (1 + 1 / 2 ^ 51) :=
        mul_le_mul hi' h6 (by positivity) hn0
      have h8 : (n : ℝ) * (1 / 2 ^ 51) ≤ 2 ^ 50 * (1 / 2 ^ 51) :=
        mul_le_mul_of_nonneg_right (by linarith) (by positivity)
      have h9 : (2 ^ 50 * (1 / 2 ^ 51) : ℝ) ≤ 1 := by norm_num
      linarith
  exact ⟨hv0, hv⟩

theorem linspaceEntry_mem (h : Nearest fl) {a b : ℝ} (ha : a ∈ Double) (hb : b ∈ Double)
    (hab : a = b ∨ (2 : ℝ) ^ (-960 : ℤ) ≤ b - a) {n i : ℕ} (hn : n + 1 ≤ 2 ^ 50) (hi : i ≤ n) :
    a ≤ linspaceEntry fl a b ((n : ℝ) + 1) i ∧ linspaceEntry fl a b ((n : ℝ) + 1) i ≤ b := by
  have hn' : (n : ℝ) + 1 ≤ 2 ^ 50 := by exact_mod_cast hn
  have hi' : (i : ℝ) ≤ n := by exact_mod_cast hi
  have hn0 : (0 : ℝ) ≤ n := Nat.cast_nonneg n
  have hi0 : (0 : ℝ) ≤ i := Nat.cast_nonneg i
  have hp : (0 : ℝ) < (n : ℝ) + 1 := by linarith
  have hle : a ≤ b := by
    rcases hab with rfl | hab
    · exact le_rfl
    · have : (0 : ℝ) < (2 : ℝ) ^ (-960 : ℤ) := by positivity
      linarith
  simp only [linspaceEntry]
  split
  · have hm : (1 - 1 / 2 ^ 53 : ℝ) ∈ Double := by
      refine ⟨2 ^ 53 - 1, -53, by norm_num, by norm_num, ?_⟩
      rw [zpow_neg]
      norm_num
    have hu : fl ((i : ℝ) / ((n : ℝ) + 1)) ≤ 1 - 1 / 2 ^ 53 := by
      refine fl_le_of_le h hm ?_
      rw [div_le_iff₀ hp]
      nlinarith
    refine scale_box h ha hb hle (h.mem _) (fl_nonneg h (by positivity)) ?_
    have : (0 : ℝ) < 1 / 2 ^ 53 := by positivity
    linarith
  · rename_i hs
    obtain ⟨hv0, hv⟩ := linspaceStep_mem h ha hb hab hn hi hs
    exact ⟨le_fl_of_le h ha (by linarith), fl_le_of_le h hb (by linarith)⟩

theorem linspaceNat_mem (h : Nearest fl) {a b : ℝ} (ha : a ∈ Double) (hb : b ∈ Double)
    (hab : a = b ∨ (2 : ℝ) ^ (-960 : ℤ) ≤ b - a) {n : ℕ} (hn : n ≤ 2 ^ 50) :
    ∀ x ∈ Rounded.linspaceNat fl a b n, a ≤ x ∧ x ≤ b := by
  have hle : a ≤ b := by
    rcases hab with rfl | hab
    · exact le_rfl
    · have : (0 : ℝ) < (2 : ℝ) ^ (-960 : ℤ) := by positivity
      linarith
  intro x hx
  match n with
  | 0 => simp [Rounded.linspaceNat] at hx
  | 1 =>
    simp only [Rounded.linspaceNat, List.mem_singleton] at hx
    subst hx
    exact ⟨le_rfl, hle⟩
  | (n + 2) =>
    simp only [Rounded.linspaceNat, List.mem_append, List.mem_map, List.mem_range,
      List.mem_singleton] at hx
    rcases hx with ⟨i, hi, rfl⟩ | rfl
    · exact linspaceEntry_mem h ha hb hab (by omega) (by omega)
    · exact ⟨hle, le_rfl⟩

theorem meshgridRows_mem {α : Type} {axes rows : List (List α)}
    (h : UtilsCommon.meshgridRows axes = .ok rows) :
    ∀ row ∈ rows, List.Forall₂ (fun x l => x ∈ l) row axes := by
  intro row hrow
  match axes with
  | [] => simp [UtilsCommon.meshgridRows] at h
  | [v] =>
    simp only [UtilsCommon.meshgridRows, Except.ok.injEq] at h
    subst h
    exact (Props.mem_cart _ _).1 hrow
  | v₀ :: v₁ :: rest =>
    simp only [UtilsCommon.meshgridRows, Except.ok.injEq] at h
    subst h
    obtain ⟨q, hq, rfl⟩ := List.mem_map.1 hrow
    have := (Props.mem_cart _ _).1 hq
    cases this with
    | cons h1 h2 =>
      cases h2 with
      | cons h2 h3 => exact .cons h2 (.cons h1 h3)

theorem rounded_mapM_linspace (rs : List (ℝ × ℝ)) (n : ℕ) :
    rs.mapM (fun r => Rounded.linspace fl r.1 r.2 (n : ℤ)) =
      .ok (rs.map (fun r => Rounded.linspaceNat fl r.1 r.2 n)) := by
  induction rs with
  | nil => rfl
  | cons r rs ih =>
    have h0 : Rounded.linspace fl r.1 r.2 (n : ℤ) = .ok (Rounded.linspaceNat fl r.1 r.2 n) := by
      simp [Rounded.linspace, show ¬ ((n : ℤ) < 0) by omega]
    rw [List.mapM_cons, ih, h0]
    rfl

/-! ### Normalisation -/

theorem fl_add_rel (h : Nearest fl) {x y : ℝ} (hx : x ∈ Double) (hy : y ∈ Double) :
    |fl (x + y) - (x + y)| ≤ 1 / 2 ^ 53 * |x + y| := by
  have := fl_sub_rel h hx (double_neg hy)
  rwa [sub_neg_eq_add] at this

/-- One normalised value: the three roundings. -/
theorem normalized_bounds (h : Nearest fl) {y lo hi : ℝ} (hy : y ∈ Double) (hlo : lo ∈ Double)
    (hhi : hi ∈ Double) (h1 : lo ≤ y) (h2 : y ≤ hi) (hlt : lo < hi) :
    0 ≤ fl (fl (y - lo) / fl (hi - lo)) ∧ fl (fl (y - lo) / fl (hi - lo)) ≤ 1 ∧
      |fl (y - lo) / fl (hi - lo) - (y - lo) / (hi - lo)| ≤ 3 / 2 ^ 53 * ((y - lo) / (hi - lo)) := by
  have hD : 0 < hi - lo := sub_pos.2 hlt
  have hd : 0 ≤ y - lo := sub_nonneg.2 h1
  have hw : 0 < fl (hi - lo) := fl_sub_pos h hhi hlo hlt
  have ha : 0 ≤ fl (y - lo) := fl_nonneg h hd
  have haw : fl (y - lo) ≤ fl (hi - lo) := fl_mono h (by linarith)
  have hq1 : fl (y - lo) / fl (hi - lo) ≤ 1 := (div_le_one hw).2 haw
  have one : (1 : ℝ) ∈ Double := by
    have := double_nat (m := 1) (by norm_num)
    simpa using this
  refine ⟨fl_nonneg h (div_nonneg ha hw.le), fl_le_of_le h one hq1, ?_⟩
  have e1 := abs_le.1 (fl_sub_rel h hy hlo)
  have e2 := abs_le.1 (fl_sub_rel h hhi hlo)
  rw [abs_of_nonneg hd] at e1
  rw [abs_of_pos hD] at e2
  set a := fl (y - lo)
  set w := fl (hi - lo)
  set d := y - lo
  set D := hi - lo
  have hw1 : D * (1 - 1 / 2 ^ 53) ≤ w := by linarith
  have hw2 : w ≤ D * (1 + 1 / 2 ^ 53) := by linarith
  have hle : a / w ≤ d / D * (1 + 3 / 2 ^ 53) := by
    rw [div_mul_eq_mul_div, div_le_div_iff₀ hw hD]
    have : d * (1 + 3 / 2 ^ 53) * (D * (1 - 1 / 2 ^ 53)) ≤ d * (1 + 3 / 2 ^ 53) * w :=
      mul_le_mul_of_nonneg_left hw1 (by positivity)
    have h5 : a * D ≤ d * (1 + 1 / 2 ^ 53) * D := mul_le_mul_of_nonneg_right (by linarith) hD.le
    have h6 : d * (1 + 1 / 2 ^ 53) * D ≤ d * (1 + 3 / 2 ^ 53) * (D * (1 - 1 / 2 ^ 53)) := by
      have e : d * (1 + 3 / 2 ^ 53) * (D * (1 - 1 / 2 ^ 53)) =
          d * D * ((1 + 3 / 2 ^ 53) * (1 - 1 / 2 ^ 53)) := by ring
      rw [e, show d * (1 + 1 / 2 ^ 53) * D = d * D * (1 + 1 / 2 ^ 53) by ring]
      exact mul_le_mul_of_nonneg_left (by norm_num) (by positivity)
    linarith
  have hge : d / D * (1 - 3 / 2 ^ 53) ≤ a / w := by
    rw [div_mul_eq_mul_div, div_le_div_iff₀ hD hw]
    have : d * (1 - 3 / 2 ^ 53) * w ≤ d * (1 - 3 / 2 ^ 53) * (D * (1 + 1 / 2 ^ 53)) :=
      mul_le_mul_of_nonneg_left hw2 (mul_nonneg hd (by norm_num))
    have h5 : d * (1 - 1 / 2 ^ 53) * D ≤ a * D := mul_le_mul_of_nonneg_right (by linarith) hD.le
    have h6 : d * (1 - 3 / 2 ^ 53) * (D * (1 + 1 / 2 ^ 53)) ≤ d * (1 - 1 / 2 ^ 53) * D := by
      have e : d * (1 - 3 / 2 ^ 53) * (D * (1 + 1 / 2 ^ 53)) =
          d * D * ((1 - 3 / 2 ^ 53) * (1 + 1 / 2 ^ 53)) := by ring
      rw [e, show d * (1 - 1 / 2 ^ 53) * D = d * D * (1 - 1 / 2 ^ 53) by ring]
      exact mul_le_mul_of_nonneg_left (by norm_num) (by positivity)
    linarith
  rw [abs_le]
  constructor <;> linarith

theorem tiny_lt : (2 : ℝ) ^ (-1075 : ℤ) ≤ 1 / 2 ^ 60 := by
  calc (2 : ℝ) ^ (-1075 : ℤ) ≤ (2 : ℝ) ^ (-60 : ℤ) := zpow_le_zpow_right₀ (by norm_num) (by norm_num)
    _ = 1 / 2 ^ 60 := by rw [zpow_neg, one_div]; norm_num

theorem normalized_error (h : Nearest fl) {y lo hi : ℝ} (hy : y ∈ Double) (hlo : lo ∈ Double)
    (hhi : hi ∈ Double) (h1 : lo ≤ y) (h2 : y ≤ hi) (hlt : lo < hi) :
    |fl (fl (fl (y - lo) / fl (hi - lo)) * 10) - (y - lo) / (hi - lo) * 10| ≤ 6 / 10 ^ 15 := by
  obtain ⟨q0, q1, q2⟩ := normalized_bounds h hy hlo hhi h1 h2 hlt
  have hD : 0 < hi - lo := sub_pos.2 hlt
  have t0 : 0 ≤ (y - lo) / (hi - lo) := div_nonneg (sub_nonneg.2 h1) hD.le
  have t1 : (y - lo) / (hi - lo) ≤ 1 := (div_le_one hD).2 (by linarith)
  have e1 := fl_error h (fl (y - lo) / fl (hi - lo))
  have e2 := fl_error h (fl (fl (y - lo) / fl (hi - lo)) * 10)
  have p0 : 0 ≤ fl (y - lo) / fl (hi - lo) :=
    div_nonneg (fl_nonneg h (sub_nonneg.2 h1)) (fl_nonneg h hD.le)
  have p1 : fl (y - lo) / fl (hi - lo) ≤ 1 :=
    (div_le_one (fl_sub_pos h hhi hlo hlt)).2 (fl_mono h (by linarith))
  set p := fl (y - lo) / fl (hi - lo)
  set t := (y - lo) / (hi - lo)
  set q := fl p
  rw [abs_of_nonneg p0] at e1
  rw [abs_of_nonneg (a := q * 10) (by linarith)] at e2
  have ht := tiny_lt
  set τ := (2 : ℝ) ^ (-1075 : ℤ)
  have b1 := abs_le.1 e1
  have b2 := abs_le.1 e2
  have b3 := abs_le.1 q2
  have c1 : 3 / 2 ^ 53 * t ≤ 3 / 2 ^ 53 := mul_le_of_le_one_right (by positivity) t1
  have c2 : 1 / 2 ^ 53 * p ≤ 1 / 2 ^ 53 := mul_le_of_le_one_right (by positivity) p1
  have c3 : 1 / 2 ^ 53 * (q * 10) ≤ 10 / 2 ^ 53 := by linarith
  have c4 : (50 / 2 ^ 53 + 11 * (1 / 2 ^ 60) : ℝ) ≤ 6 / 10 ^ 15 := by norm_num
  rw [abs_le]
  constructor <;> linarith

theorem normalized_pos (h : Nearest fl) {y lo hi : ℝ} (hy : y ∈ Double) (hlo : lo ∈ Double)
    (hhi : hi ∈ Double) (h1 : lo ≤ y) (h2 : y ≤ hi) (hlt : lo < hi)
    (hfar : (2 : ℝ) ^ (-1000 : ℤ) * (hi - lo) ≤ y - lo) :
    0 < fl (fl (fl (y - lo) / fl (hi - lo)) * 10) := by
  obtain ⟨q0, q1, q2⟩ := normalized_bounds h hy hlo hhi h1 h2 hlt
  have hD : 0 < hi - lo := sub_pos.2 hlt
  have t0 : (2 : ℝ) ^ (-1000 : ℤ) ≤ (y - lo) / (hi - lo) := (le_div_iff₀ hD).2 hfar
  have e : (2 : ℝ) ^ (-1000 : ℤ) = 2 * (2 : ℝ) ^ (-1001 : ℤ) := by
    rw [show (-1000 : ℤ) = 1 + -1001 by norm_num, zpow_add₀ (by norm_num)]
    norm_num
  have hp : (0 : ℝ) < (2 : ℝ) ^ (-1001 : ℤ) := by positivity
  have b := (abs_le.1 q2).1
  set t := (y - lo) / (hi - lo)
  have hq : (2 : ℝ) ^ (-1001 : ℤ) ≤ fl (fl (y - lo) / fl (hi - lo)) := by
    refine le_fl_of_le h (double_half (by norm_num)) ?_
    have : (3 / 2 ^ 53 : ℝ) * t ≤ 1 / 2 * t :=
      mul_le_mul_of_nonneg_right (by norm_num) (by linarith)
    linarith
  refine lt_of_lt_of_le hp (le_fl_of_le h (double_half (by norm_num)) ?_)
  linarith

/-! ### Means -/

/-- Neither NaN nor `-inf`. -/
def Upper (a : Flt) : Prop := a ≠ Flt.nan ∧ a ≠ Flt.ninf

theorem round_mono (h : Nearest fl) {a b : Flt} (ha : Upper a) (hb : Upper b) (hab : a ≤ b) :
    roundF fl a ≤ roundF fl b ∧ Upper (roundF fl a) ∧ Upper (roundF fl b) := by
  cases a <;> cases b <;> simp_all [Upper, roundF]
  exact fl_mono h hab

theorem add_mono_upper {a b a' b' : Flt} (ha : Upper a) (hb : Upper b) (ha' : Upper a')
    (hb' : Upper b') (h1 : a ≤ a') (h2 : b ≤ b') :
    a.add b ≤ a'.add b' ∧ Upper (a.add b) ∧ Upper (a'.add b') := by
  cases a <;> cases b <;> cases a' <;> cases b' <;> simp_all [Upper, Flt.add]
  linarith

theorem sumF_mono (h : Nearest fl) (l l' : List Flt) (o : SumOrder)
    (hl : ∀ i ∈ o.entries, ∃ a a', l[i]? = some a ∧ l'[i]? = some a' ∧ Upper a ∧ Upper a' ∧ a ≤ a') :
    Rounded.sumF fl l o ≤ Rounded.sumF fl l' o ∧ Upper (Rounded.sumF fl l o) ∧
      Upper (Rounded.sumF fl l' o) := by
  induction o with
  | entry i =>
    obtain ⟨a, a', h1, h2, h3, h4, h5⟩ := hl i (by simp [SumOrder.entries])
    simp only [Rounded.sumF, h1, h2, Option.getD_some]
    exact ⟨h5, h3, h4⟩
  | add x y ihx ihy =>
    obtain ⟨h1, h2, h3⟩ := ihx (fun i hi => hl i (by simp [SumOrder.entries, hi]))
    obtain ⟨g1, g2, g3⟩ := ihy (fun i hi => hl i (by simp [SumOrder.entries, hi]))
    obtain ⟨k1, k2, k3⟩ := add_mono_upper h2 g2 h3 g3 h1 g1
    exact round_mono h k2 k3 k1

theorem meanF_mono (h : Nearest fl) (l l' : List Flt) (o : SumOrder) (hlen : l'.length = l.length)
    (ho : o.Covers l.length)
    (hl : ∀ i < l.length, ∃ a a', l[i]? = some a ∧ l'[i]? = some a' ∧ Upper a ∧ Upper a' ∧ a ≤ a') :
    Rounded.meanF fl o l ≤ Rounded.meanF fl o l' ∧ Upper (Rounded.meanF fl o l) := by
  obtain ⟨h1, h2, h3⟩ := sumF_mono h l l' o
    (fun i hi => hl i (List.mem_range.1 (ho.mem_iff.1 hi)))
  simp only [Rounded.meanF, hlen]
  have key : (Rounded.sumF fl l o).divPos l.length ≤ (Rounded.sumF fl l' o).divPos l.length ∧
      Upper ((Rounded.sumF fl l o).divPos l.length) ∧
      Upper ((Rounded.sumF fl l' o).divPos l.length) := by
    revert h1 h2 h3
    generalize Rounded.sumF fl l o = a
    generalize Rounded.sumF fl l' o = b
    intro h1 h2 h3
    cases a <;> cases b <;> simp_all [Upper, Flt.divPos]
    exact div_le_div_of_nonneg_right h1 (Nat.cast_nonneg _)
  obtain ⟨k1, k2, k3⟩ := key
  obtain ⟨m1, m2, -⟩ := round_mono h k2 k3 k1
  exact ⟨m1, m2⟩

/-- The sum of finite entries, as a real number. -/
noncomputable def sumR (fl : ℝ → ℝ) (l : List ℝ) : SumOrder → ℝ
  | .entry i => l[i]?.getD 0
  | .add a b => fl (sumR fl l a + sumR fl l b)

theorem sumF_finite (l : List ℝ) (o : SumOrder) (ho : ∀ i ∈ o.entries, i < l.length) :
    Rounded.sumF fl (l.map Flt.fin) o = Flt.fin (sumR fl l o) := by
  induction o with
  | entry i =>
    have hi := ho i (by simp [SumOrder.entries])
    simp [Rounded.sumF, sumR, hi]
  | add x y ihx ihy =>
    rw [Rounded.sumF, ihx (fun i hi => ho i (by simp [SumOrder.entries, hi])),
      ihy (fun i hi => ho i (by simp [SumOrder.entries, hi]))]
    rfl

theorem sumR_mem (h : Nearest fl) (l : List ℝ) (hl : ∀ x ∈ l, x ∈ Double) (o : SumOrder) :
    sumR fl l o ∈ Double := by
  cases o with
  | entry i =>
    simp only [sumR]
    rcases hi : l[i]? with _ | x
    · exact double_zero
    · exact hl x (List.mem_of_getElem? hi)
  | add a b => exact h.mem _

/-- Rounding errors of a sum, in any order. -/
theorem sumR_error (h : Nearest fl) (l : List ℝ) (hl : ∀ x ∈ l, x ∈ Double) (o : SumOrder) :
    |sumR fl l o - (o.entries.map fun i => l[i]?.getD 0).sum| ≤
      ((1 + 1 / 2 ^ 53) ^ (o.entries.length - 1) - 1) *
        (o.entries.map fun i => |l[i]?.getD 0|).sum := by
  have hpos : ∀ o : SumOrder, 1 ≤ o.entries.length := by
    intro o
    induction o with
    | entry i => simp [SumOrder.entries]
    | add a b iha ihb => simp [SumOrder.entries]; omega
  have hA : ∀ o : SumOrder, |(o.entries.map fun i => l[i]?.getD 0).sum| ≤
      (o.entries.map fun i => |l[i]?.getD 0|).sum := by
    intro o
    generalize o.entries = es
    induction es with
    | nil => simp
    | cons x t ih =>
      simp only [List.map_cons, List.sum_cons]
      exact (abs_add_le _ _).trans (by linarith)
  have hA0 : ∀ o : SumOrder, 0 ≤ (o.entries.map fun i => |l[i]?.getD 0|).sum :=
    fun o => (abs_nonneg _).trans (hA o)
  induction o with
  | entry i => simp [sumR, SumOrder.entries]
  | add a b iha ihb =>
    simp only [sumR, SumOrder.entries, List.map_append, List.sum_append, List.length_append]
    have h1 := fl_add_rel h (sumR_mem h l hl a) (sumR_mem h l hl b)
    have a0 := hA0 a
    have b0 := hA0 b
    have aA := hA a
    have bA := hA b
    have pa := hpos a
    have pb := hpos b
    set ε : ℝ := 1 / 2 ^ 53 with hε
    have ε0 : 0 ≤ ε := by positivity
    set na := a.entries.length
    set nb := b.entries.length
    set A := (a.entries.map fun i => |l[i]?.getD 0|).sum
    set B := (b.entries.map fun i => |l[i]?.getD 0|).sum
    set Sa := (a.entries.map fun i => l[i]?.getD 0).sum
    set Sb := (b.entries.map fun i => l[i]?.getD 0).sum
    set sa := sumR fl l a
    set sb := sumR fl l b
    have ma : (1 + ε) ^ (na - 1) ≤ (1 + ε) ^ (na + nb - 2) :=
      pow_le_pow_right₀ (by linarith) (by omega)
    have mb : (1 + ε) ^ (nb - 1) ≤ (1 + ε) ^ (na + nb - 2) :=
      pow_le_pow_right₀ (by linarith) (by omega)
    have mm : (1 + ε) ^ (na + nb - 1) = (1 + ε) ^ (na + nb - 2) * (1 + ε) := by
      rw [← pow_succ]
      congr 1
      omega
    set P := (1 + ε) ^ (na + nb - 2)
    have ea : |sa - Sa| ≤ (P - 1) * A := iha.trans (mul_le_mul_of_nonneg_right (by linarith) a0)
    have eb : |sb - Sb| ≤ (P - 1) * B := ihb.trans (mul_le_mul_of_nonneg_right (by linarith) b0)
    have sab : |sa + sb| ≤ P * (A + B) := by
      have e : sa + sb = (sa - Sa) + (sb - Sb) + (Sa + Sb) := by ring
      rw [e]
      refine (abs_add_le _ _).trans ?_
      have := abs_add_le (sa - Sa) (sb - Sb)
      have := abs_add_le Sa Sb
      linarith
    rw [mm]
    have e : fl (sa + sb) - (Sa + Sb) = (fl (sa + sb) - (sa + sb)) + ((sa - Sa) + (sb - Sb)) := by
      ring
    rw [e]
    refine (abs_add_le _ _).trans ?_
    have := abs_add_le (sa - Sa) (sb - Sb)
    have : ε * |sa + sb| ≤ ε * (P * (A + B)) := mul_le_mul_of_nonneg_left sab ε0
    linarith

/-- The mean of finite doubles: finite, and close to the exact mean, in any order. -/
theorem meanF_accuracy (h : Nearest fl) (l : List ℝ) (hl : ∀ x ∈ l, x ∈ Double) (o : SumOrder)
    (ho : o.Covers l.length) :
    ∃ m, Rounded.meanF fl o (l.map Flt.fin) = Flt.fin m ∧
      |m - l.sum / l.length| ≤ ((1 + 1 / 2 ^ 53) ^ l.length - 1) * ((l.map abs).sum / l.length) +
        (2 : ℝ) ^ (-1075 : ℤ) := by
  have hlt : ∀ i ∈ o.entries, i < l.length := fun i hi => List.mem_range.1 (ho.mem_iff.1 hi)
  refine ⟨_, by
    rw [Rounded.meanF, sumF_finite l o hlt, List.length_map, Flt.divPos, roundF], ?_⟩
  have hr : (List.range l.length).map (fun i => l[i]?.getD 0) = l := by
    apply List.ext_getElem?
    intro i
    rw [List.getElem?_map]
    rcases Nat.lt_or_ge i l.length with hi | hi
    · simp [List.getElem?_range hi, hi]
    · simp [hi]
  have hra : (List.range l.length).map (fun i => |l[i]?.getD 0|) = l.map abs := by
    rw [← congrArg (List.map abs) hr, List.map_map]
    rfl
  have e1 : (o.entries.map fun i => l[i]?.getD 0).sum = l.sum := by
    rw [(ho.map _).sum_eq, hr]
  have e2 : (o.entries.map fun i => |l[i]?.getD 0|).sum = (l.map abs).sum := by
    rw [(ho.map _).sum_eq, hra]
  have e3 : o.entries.length = l.length := by
    rw [ho.length_eq, List.length_range]
  have h1 := sumR_error h l hl o
  rw [e1, e2, e3] at h1
  have hn : 1 ≤ l.length := by
    rw [← e3]
    clear * -
    induction o with
    | entry i => simp [SumOrder.entries]
    | add a b iha ihb => simp [SumOrder.entries]; omega
  have hn' : (0 : ℝ) < l.length := by exact_mod_cast hn
  have hs : |l.sum| ≤ (l.map abs).sum := by
    clear * -
    induction l with
    | nil => simp
    | cons x t ih =>
      simp only [List.map_cons, List.sum_cons]
      exact (abs_add_le _ _).trans (by linarith)
  have h2 := fl_error h (sumR fl l o / l.length)
  have mm : (1 + 1 / 2 ^ 53 : ℝ) ^ l.length = (1 + 1 / 2 ^ 53) ^ (l.length - 1) * (1 + 1 / 2 ^ 53) := by
    rw [← pow_succ]
    congr 1
    omega
  rw [mm]
  set P : ℝ := (1 + 1 / 2 ^ 53) ^ (l.length - 1)
  set ε : ℝ := 1 / 2 ^ 53
  have ε0 : 0 ≤ ε := by positivity
  set s := sumR fl l o
  set A := (l.map abs).sum
  have hsA : |s| ≤ P * A := by
    have e : s = (s - l.sum) + l.sum := by ring
    rw [e]
    exact (abs_add_le _ _).trans (by linarith)
  have h3 : |s / l.length| ≤ P * A / l.length := by
    rw [abs_div, abs_of_pos hn']
    exact div_le_div_of_nonneg_right hsA hn'.le
  have h4 : |s / l.length - l.sum / l.length| ≤ (P - 1) * A / l.length := by
    rw [← sub_div, abs_div, abs_of_pos hn']
    exact div_le_div_of_nonneg_right h1 hn'.le
  have e : fl (s / l.length) - l.sum / l.length =
      (fl (s / l.length) - s / l.length) + (s / l.length - l.sum / l.length) := by ring
  rw [e]
  refine (abs_add_le _ _).trans ?_
  have h5 : ε * |s / l.length| ≤ ε * (P * A / l.length) := mul_le_mul_of_nonneg_left h3 ε0
  have e5 : (P * (1 + ε) - 1) * (A / l.length) = ε * (P * A / l.length) + (P - 1) * A / l.length := by
    ring
  rw [e5]
  linarith

/-! ### Accumulated times -/

theorem cumsum_length (s : ℝ) (l : List ℝ) : (Rounded.cumsum fl s l).length = l.length := by
  induction l generalizing s with
  | nil => rfl
  | cons x t ih => simp [Rounded.cumsum, ih]

/-- Entry `k` of the accumulated times: a double, not below its predecessor, close to the sum. -/
theorem timeRow_entry (h : Nearest fl) (l : List ℝ) (hl : ∀ x ∈ l, x ∈ Double ∧ 0 ≤ x) (s : ℝ)
    (hs : s ∈ Double) (hs0 : 0 ≤ s) (k : ℕ) (hk : k ≤ l.length) :
    ∃ a, (s :: Rounded.cumsum fl s l)[k]? = some a ∧ a ∈ Double ∧ s ≤ a ∧
      |a - (s + (l.take k).sum)| ≤ ((1 + 1 / 2 ^ 53) ^ k - 1) * (s + (l.take k).sum) ∧
      ∀ b, (s :: Rounded.cumsum fl s l)[k + 1]? = some b → a ≤ b := by
  induction l generalizing s k with
  | nil =>
    have : k = 0 := by simpa using hk
    subst this
    refine ⟨s, by simp, hs, le_rfl, by simp, by simp [Rounded.cumsum]⟩
  | cons x t ih =>
    obtain ⟨hx, hx0⟩ := hl x (by simp)
    have hle : s ≤ fl (s + x) := le_fl_of_le h hs (by linarith)
    cases k with
    | zero =>
      refine ⟨s, by simp, hs, le_rfl, by simp, ?_⟩
      intro b hb
      simp only [Rounded.cumsum, Nat.zero_add, List.getElem?_cons_succ,
        List.getElem?_cons_zero, Option.some.injEq] at hb
      rw [← hb]
      exact hle
    | succ k =>
      obtain ⟨a, h1, h2, h3, h4, h5⟩ := ih (fun y hy => hl y (by simp [hy])) (fl (s + x))
        (h.mem _) (hs0.trans hle) k (by simpa using hk)
      refine ⟨a, by simpa [Rounded.cumsum] using h1, h2, hle.trans h3, ?_, ?_⟩
      · have hT : 0 ≤ (t.take k).sum := List.sum_nonneg (fun y hy =>
          (hl y (by simp [List.mem_of_mem_take hy])).2)
        have h6 := fl_add_rel h hs hx
        rw [abs_of_nonneg (a := s + x) (by linarith)] at h6
        rw [List.take_succ_cons, List.sum_cons]
        set T := (t.take k).sum
        set ε : ℝ := 1 / 2 ^ 53
        have ε0 : 0 ≤ ε := by positivity
        have hP : 1 ≤ (1 + ε) ^ k := one_le_pow₀ (by linarith)
        rw [pow_succ]
        set P := (1 + ε) ^ k
        have h7 := (abs_le.1 h6).2
        have e : a - (s + (x + T)) = (a - (fl (s + x) + T)) + (fl (s + x) - (s + x)) := by ring
        rw [e]
        refine (abs_add_le _ _).trans ?_
        have h8 : (P - 1) * (fl (s + x) + T) ≤ (P - 1) * ((1 + ε) * (s + x) + T) :=
          mul_le_mul_of_nonneg_left (by linarith) (by linarith)
        have h9 : (P - 1) * ((1 + ε) * (s + x) + T) + ε * (s + x) ≤
            (P * (1 + ε) - 1) * (s + (x + T)) := by
          have : 0 ≤ P * ε * T := by positivity
          nlinarith
        linarith
      · intro b hb
        exact h5 b (by simpa [Rounded.cumsum] using hb)

end Verif.Lemmas
